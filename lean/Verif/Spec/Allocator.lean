import Verif.Model.Allocator

/-!
# Specification of the default allocator

A client of an allocator sees numbered buffers, each a list of bytes of its own. There are no addresses
and no machine words here.
-/

namespace Zy.Spec

/-- The buffers of a client; `none` is a buffer that was refused or given back. -/
abbrev Buffers := List (Option (List HByte))

/-- The buffer number `i`, if it exists and is held. -/
def held (bs : Buffers) (i : Nat) : Option (List HByte) := (bs[i]?).join

/-- The C library grants a call. -/
def grants : CReply → Bool
  | .fresh | .inPlace => true
  | .refuse | .release => false

/-- What an action does with the buffers, and what is observed. The result is `none` if the client breaks
the rules: a request for zero bytes or for more bytes than a machine word can count, an access outside of
a buffer, the use of a buffer that is not held. -/
def bufStep (bs : Buffers) : CAct → Option (CObs × Buffers)
  | .alloc r esz n =>
    if 0 < esz * n ∧ esz * n < 2 ^ 64 then
      if grants r then some (.status stSuccess, bs ++ [some (List.replicate (esz * n) none)])
      else some (.status stNoMemory, bs ++ [none])
    else none
  | .realloc r i esz n =>
    match held bs i with
    | none => none
    | some c =>
      if 0 < esz * n ∧ esz * n < 2 ^ 64 then
        if grants r then
          some (.status stSuccess,
            bs.set i (some (c.take (esz * n) ++ List.replicate (esz * n - c.length) none)))
        else some (.status stNoMemory, bs)
      else none
  | .dealloc i _ _ =>
    match held bs i with
    | none => none
    | some _ => some (.status stSuccess, bs.set i none)
  | .store i off v =>
    match held bs i with
    | none => none
    | some c => if off < c.length then some (.nothing, bs.set i (some (c.set off (some v)))) else none
  | .load i off =>
    match held bs i with
    | none => none
    | some c => (c[off]?).map fun b => (.byte b, bs)

/-- All actions. -/
def bufRun (bs : Buffers) : List CAct → Option (List CObs × Buffers)
  | [] => some ([], bs)
  | a :: as =>
    (bufStep bs a).bind fun (o, bs) => (bufRun bs as).bind fun (os, bs) => some (o :: os, bs)

/-- A heap as the C library keeps it: null is no block, addresses from `next` on were never used. -/
def HeapOk (h : CHeap) : Prop := 0 < h.next ∧ ∀ p c, h.block p = some c → 0 < p ∧ p < h.next

/-- The pointer refers to a block of exactly `n` bytes. -/
def BlockOf (h : CHeap) (p n : Nat) : Prop := ∃ c, h.block p = some c ∧ c.length = n

end Zy.Spec
