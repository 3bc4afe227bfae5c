import Verif.Model.Pointers
import Verif.Spec.Mixed
import Verif.Spec.Owned

/-!
# A vector of strings with `ZyanStringDestroy` as destructor

The elements of the vector are `ZyanString` objects (include/Zycore/String.h lines 97-107). They are moved byte by
byte, so a string can be followed through the vector: here an element is the number of the string in a `Desk`
(`Spec/Mixed`), which has the object and its memory. A byte copy of a string has the same number; destroying
a string a second time is undefined (`Desk.exec`, the block is not there any more). The memory of the vector itself
comes from another world than that of the strings, and requests to the allocators are granted.

The destructor is called where src/Vector.c calls it. A `ZyanMemberProcedure` (include/Zycore/Object.h line 51) returns
nothing, so the status of `ZyanStringDestroy` is ignored. All other functions are those of `Model/Vector`.
-/

namespace Zy

open Spec

/-- A vector of strings, and the strings. -/
structure Shop where
  s : VS Nat
  d : Desk

/-- The destructor loops of src/Vector.c lines 246-252, 584-592 and 763-769, from slot `i`, with `ZyanStringDestroy`
(src/String.c lines 106-118). -/
def destroyLoopO (s : VS Nat) (d : Desk) (i : Nat) : Nat → Out (VS Nat × Desk)
  | 0 => .ret (s, d)
  | n + 1 =>
    withData s.v.data fun b =>
      match b.cells[i]? with
      | none => .ub .oob
      | some none => .ub .indet
      | some (some k) =>
        (d.exec (.destroy k)).bind fun r => destroyLoopO { s with w := s.w.log (.destroy (some k)) } r.2 (i + 1) n

/-- The guarded loop over `[lo, hi)`. -/
def runDtorsO (s : VS Nat) (d : Desk) (lo hi : Nat) : Out (VS Nat × Desk) :=
  if s.v.hasDtor then destroyLoopO s d lo (hi - lo) else .ret (s, d)

/-- `ZyanVectorDestroy`: src/Vector.c lines 236-263. -/
def vecDestroyO (o : Shop) : Out (Status × Shop) :=
  (runDtorsO o.s o.d 0 o.s.v.size).bind fun q =>
  (match q.1.v.allocator with
  | some a =>
    if q.1.v.cap ≠ 0 then
      withData q.1.v.data fun b =>
        let r := deallocate q.1.w a b q.1.v.esz q.1.v.cap
        if failed r.1 then .ret (r.1, { q.1 with w := r.2 })
        else .ret (stSuccess, { v := { q.1.v with data := none }, w := r.2 })
    else .ret (stSuccess, { q.1 with v := { q.1.v with data := none } })
  | none => .ret (stSuccess, { q.1 with v := { q.1.v with data := none } })).bind fun r =>
  .ret (r.1, ⟨r.2, q.2⟩)

/-- `ZyanVectorSet`: src/Vector.c lines 394-416. -/
def vecSetO (o : Shop) (index : Nat) (value : Src Nat) : Out (Status × Shop) :=
  if value.isNull then .ret (stInvalidArgument, o)
  else if index ≥ o.s.v.size then .ret (stOutOfRange, o)
  else
    (runDtorsO o.s o.d index (index + 1)).bind fun q =>
    withData q.1.v.data fun b =>
    (memcpyIn b index value 1).bind fun b' =>
    .ret (stSuccess, ⟨{ q.1 with v := { q.1.v with data := some b' } }, q.2⟩)

/-- `ZyanVectorDeleteRange`: src/Vector.c lines 573-605. -/
def vecDeleteRangeO (o : Shop) (index count : Nat) : Out (Status × Shop) :=
  if count = 0 then .ret (stInvalidArgument, o)
  else if add64 index count > o.s.v.size then .ret (stOutOfRange, o)
  else
    (runDtorsO o.s o.d index (add64 index count)).bind fun q =>
    (if add64 index count < q.1.v.size then shiftLeft q.1 index count else .ret q.1).bind fun s =>
    (shrinkAfter { s with v := { s.v with size := sub64 s.v.size count } }).bind fun r => .ret (r.1, ⟨r.2, q.2⟩)

/-- `ZyanVectorPopBack`: src/Vector.c lines 607-631. -/
def vecPopBackO (o : Shop) : Out (Status × Shop) :=
  if o.s.v.size = 0 then .ret (stOutOfRange, o)
  else
    (runDtorsO o.s o.d (o.s.v.size - 1) o.s.v.size).bind fun q =>
    (shrinkAfter { q.1 with v := { q.1.v with size := q.1.v.size - 1 } }).bind fun r => .ret (r.1, ⟨r.2, q.2⟩)

/-- `ZyanVectorResizeEx`: src/Vector.c lines 752-789. -/
def vecResizeExO (o : Shop) (size : Nat) (init : Src Nat) : Out (Status × Shop) :=
  if size = o.s.v.size then .ret (stSuccess, o)
  else
    (if size < o.s.v.size then runDtorsO o.s o.d size o.s.v.size else .ret (o.s, o.d)).bind fun q =>
    (if shouldGrow size q.1.v.cap || shouldShrink size q.1.v.cap q.1.v.shrink then
       reallocate q.1 (mul64 size q.1.v.growth)
     else .ret (stSuccess, q.1)).bind fun r =>
    if failed r.1 then .ret (r.1, ⟨r.2, q.2⟩)
    else
      let s := r.2
      if ¬ init.isNull ∧ size > s.v.size then
        withData s.v.data fun b =>
        (fillLoop b init s.v.size (size - s.v.size)).bind fun b' =>
        .ret (stSuccess, ⟨{ s with v := { s.v with data := some b', size := size } }, q.2⟩)
      else .ret (stSuccess, ⟨{ s with v := { s.v with size := size } }, q.2⟩)

/-- Reading of an operation as a call. Insertion is `ZyanVectorInsert` (src/Vector.c lines 446-449). -/
def Spec.Move.call (o : Shop) : Move Nat → Out (Status × Shop)
  | .push x => (vecPushBack o.s (.ext [some x])).bind fun r => .ret (r.1, ⟨r.2, o.d⟩)
  | .insert i x => (vecInsert o.s i (.ext [some x])).bind fun r => .ret (r.1, ⟨r.2, o.d⟩)
  | .set i x => vecSetO o i (.ext [some x])
  | .swap i j => (vecSwap o.s i j).bind fun r => .ret (r.1, ⟨r.2, o.d⟩)
  | .delete i n => vecDeleteRangeO o i n
  | .pop => vecPopBackO o
  | .clear => vecResizeExO o 0 .null
  | .shrinkTo n => vecResizeExO o n .null
  | .reserve c => (vecReserve o.s c).bind fun r => .ret (r.1, ⟨r.2, o.d⟩)
  | .fit => (vecShrinkToFit o.s).bind fun r => .ret (r.1, ⟨r.2, o.d⟩)

/-- `ZyanStringInit` (src/String.c lines 56-60) and `ZyanStringAppend` of a text: the number of the new string. -/
def Desk.text (d : Desk) (x : List (Cell Byte)) : Out (Nat × Desk) :=
  (d.exec (.newString 0 2 4 0)).bind fun r =>
  (r.2.exec (.stringCall d.objs.length (.append x))).bind fun q => .ret (d.objs.length, q.2)

/-- The command of a program that passes its new strings on to the vector, and destroys them itself if the vector does
not take them. Strings in the vector are changed through `ZyanVectorGetMutable`. -/
def Shop.exec (o : Shop) : Order → Out (Status × Shop)
  | .move m =>
    match m.item with
    | none => (m.map fun _ => 0).call o
    | some x =>
      (o.d.text x).bind fun n =>
      ((m.map fun _ => n.1).call ⟨o.s, n.2⟩).bind fun r =>
      if failed r.1 then (r.2.d.exec (.destroy n.1)).bind fun q => .ret (r.1, ⟨r.2.s, q.2⟩) else .ret r
  | .edit k op =>
    match vecGetMutable o.s k with
    | none => .ret (stOutOfRange, o)
    | some p =>
      (readThrough o.s p).bind fun c =>
      match c with
      | none => .ub .indet
      | some i => (o.d.exec (.stringCall i op)).bind fun r => .ret (r.1, ⟨o.s, r.2⟩)

/-- A whole program. -/
def Shop.run (o : Shop) : List Order → Out (List Status × Shop)
  | [] => .ret ([], o)
  | c :: cs => (o.exec c).bind fun r => (r.2.run cs).bind fun q => .ret (r.1 :: q.1, q.2)

/-! ## What can be seen -/

/-- The vector and its strings are what the row says: the elements of the vector are different strings, there are no
other strings, and string number `k` has the text number `k`. -/
def Shop.shows (o : Shop) (r : Row SState) : Prop :=
  ∃ ids : List Nat, contents o.s = .ret (ids.map some) ∧ o.s.v.cap = r.cap ∧ ids.Nodup ∧
    (∀ j, (∃ x, o.d.objs[j]? = some (some x)) ↔ j ∈ ids) ∧ ids.length = r.items.length ∧
    ∀ (k n : Nat) (y : SState), ids[k]? = some n → r.items[k]? = some y →
      ∃ v fx, o.d.objs[n]? = some (some (.str v fx)) ∧ sabsOf ⟨⟨v, o.d.w⟩, fx⟩ = y ∧ Terminated ⟨⟨v, o.d.w⟩, fx⟩

end Zy
