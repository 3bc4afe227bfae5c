import Verif.Base

/-!
# Model of the default allocator

`src/Allocator.c` 40-134. The C library below it (`malloc`, `realloc`, `free`) is modelled by a heap of
blocks and a reply for each call: it may refuse or grant any call, resize in place or move.

Simplifications: addresses are not reused (a block gets an address that was never used before), the
assertions of the callbacks (no null arguments, element size and count not zero) are hypotheses of the
theorems, the unused arguments (allocator, size at deallocation) are kept only where the signature
matters.
-/

namespace Zy

/-- A byte of a heap block; `none` is an indeterminate byte. -/
abbrev HByte := Option UInt8

/-- The heap of the C library: the contents of each block in use, by address, and the next address that
was never used. Address 0 is the null pointer. -/
structure CHeap where
  block : Nat → Option (List HByte)
  next : Nat

/-- The heap before the first call. -/
def CHeap.empty : CHeap := ⟨fun _ => none, 1⟩

/-- Replace the block at an address. -/
def CHeap.set (h : CHeap) (p : Nat) (c : Option (List HByte)) : CHeap :=
  { h with block := fun q => if q = p then c else h.block q }

/-- What the C library does with a call: it refuses, grants the call with a block at a new address, or
(for `realloc`) grants it in place. `release` is the reply that C allows for `realloc(p, 0)`: the block is
freed and the result is null; for any other size it is a refusal. -/
inductive CReply where
  | refuse
  | fresh
  | inPlace
  | release
deriving DecidableEq, Repr

/-- The contents of a block of `n` bytes made from a block: C11 7.22.3.5. -/
def resizeBytes (c : List HByte) (n : Nat) : List HByte := c.take n ++ List.replicate (n - c.length) none

/-- `malloc`: C11 7.22.3.4. -/
def cMalloc (r : CReply) (n : Nat) (h : CHeap) : Nat × CHeap :=
  match r with
  | .fresh | .inPlace => (h.next, { h.set h.next (some (List.replicate n none)) with next := h.next + 1 })
  | .refuse | .release => (0, h)

/-- `realloc`: C11 7.22.3.5. -/
def cRealloc (r : CReply) (p n : Nat) (h : CHeap) : Out (Nat × CHeap) :=
  if p = 0 then .ret (cMalloc r n h)
  else match h.block p with
    | none => .ub .uaf
    | some c =>
      match r with
      | .refuse => .ret (0, h)
      | .release => if n = 0 then .ret (0, h.set p none) else .ret (0, h)
      | .inPlace => .ret (p, h.set p (some (resizeBytes c n)))
      | .fresh => .ret (h.next,
          { (h.set p none).set h.next (some (resizeBytes c n)) with next := h.next + 1 })

/-- `free`: C11 7.22.3.3. -/
def cFree (p : Nat) (h : CHeap) : Out CHeap :=
  if p = 0 then .ret h
  else match h.block p with
    | none => .ub .uaf
    | some _ => .ret (h.set p none)

/-- `ZyanAllocatorDefaultAllocate`: src/Allocator.c lines 40-57. The result is the status and the value
of `*p`. -/
def defaultAllocate (r : CReply) (esz n : Nat) (h : CHeap) : Status × Nat × CHeap :=
  let (p, h) := cMalloc r (mul64 esz n) h
  if p = 0 then (stNoMemory, p, h) else (stSuccess, p, h)

/-- `ZyanAllocatorDefaultReallocate`: src/Allocator.c lines 59-77. -/
def defaultReallocate (r : CReply) (p esz n : Nat) (h : CHeap) : Out (Status × Nat × CHeap) :=
  (cRealloc r p (mul64 esz n) h).bind fun (x, h) =>
    if x = 0 then .ret (stNoMemory, p, h) else .ret (stSuccess, x, h)

/-- `ZyanAllocatorDefaultDeallocate`: src/Allocator.c lines 79-94. -/
def defaultDeallocate (p : Nat) (_esz _n : Nat) (h : CHeap) : Out (Status × CHeap) :=
  (cFree p h).bind fun h => .ret (stSuccess, h)

/-- The callbacks of an allocator (include/Zycore/Allocator.h lines 96-111); `none` is a null pointer, `F`
stands for function addresses. -/
structure AllocatorFns (F : Type) where
  allocate : Option F
  reallocate : Option F
  deallocate : Option F
deriving DecidableEq, Repr

/-- `ZyanAllocatorInit`: src/Allocator.c lines 104-117; the allocator is `none` if the pointer to it is
null. -/
def allocatorInit {F : Type} (a : Option (AllocatorFns F)) (f g d : Option F) :
    Status × Option (AllocatorFns F) :=
  match a with
  | none => (stInvalidArgument, none)
  | some old =>
    if f.isNone || g.isNone || d.isNone then (stInvalidArgument, some old)
    else (stSuccess, some ⟨f, g, d⟩)

/-! ## Client programs

A client holds pointers and uses them as the containers do. -/

/-- An action of a client: allocate, reallocate or deallocate through the default allocator (with the
reply of the C library), store or load a byte. `i` numbers the allocations of the client. -/
inductive CAct where
  | alloc (r : CReply) (esz n : Nat)
  | realloc (r : CReply) (i esz n : Nat)
  | dealloc (i esz n : Nat)
  | store (i off : Nat) (v : UInt8)
  | load (i off : Nat)
deriving DecidableEq, Repr

/-- What a client observes of an action. -/
inductive CObs where
  | status (s : Status)
  | byte (b : HByte)
  | nothing
deriving DecidableEq, Repr

/-- The pointers of a client and the heap; a null pointer stands for an allocation that failed or was
given back. -/
structure Client where
  ptrs : List Nat
  heap : CHeap

/-- Write through a pointer. -/
def heapStore (h : CHeap) (p off : Nat) (v : UInt8) : Out CHeap :=
  if p = 0 then .ub .null
  else match h.block p with
    | none => .ub .uaf
    | some c => if off < c.length then .ret (h.set p (some (c.set off (some v)))) else .ub .oob

/-- Read through a pointer. -/
def heapLoad (h : CHeap) (p off : Nat) : Out HByte :=
  if p = 0 then .ub .null
  else match h.block p with
    | none => .ub .uaf
    | some c => if hlt : off < c.length then .ret c[off] else .ub .oob

/-- One action of a client. -/
def clientStep (c : Client) : CAct → Out (CObs × Client)
  | .alloc r esz n =>
    let (st, p, h) := defaultAllocate r esz n c.heap
    .ret (.status st, ⟨c.ptrs ++ [p], h⟩)
  | .realloc r i esz n =>
    (defaultReallocate r (c.ptrs.getD i 0) esz n c.heap).bind fun (st, p, h) =>
      .ret (.status st, ⟨c.ptrs.set i p, h⟩)
  | .dealloc i esz n =>
    (defaultDeallocate (c.ptrs.getD i 0) esz n c.heap).bind fun (st, h) =>
      .ret (.status st, ⟨c.ptrs.set i 0, h⟩)
  | .store i off v =>
    (heapStore c.heap (c.ptrs.getD i 0) off v).bind fun h => .ret (.nothing, ⟨c.ptrs, h⟩)
  | .load i off =>
    (heapLoad c.heap (c.ptrs.getD i 0) off).bind fun b => .ret (.byte b, c)

/-- All actions of a client, with the observations. -/
def clientRun (c : Client) : List CAct → Out (List CObs × Client)
  | [] => .ret ([], c)
  | a :: as =>
    (clientStep c a).bind fun (o, c) => (clientRun c as).bind fun (os, c) => .ret (o :: os, c)

end Zy
