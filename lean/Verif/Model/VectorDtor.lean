import Verif.Model.Vector
import Verif.Spec.VectorRun

/-!
# Destructors that modify the elements

In `Model/Vector` the destructor only receives the elements. Here it may also write to the element it destroys, like
`FreeZyanU16` of tests/Vector.cpp lines 132-136 (`*object = 0`) or a destructor that overwrites freed pointers. What
it writes may depend on the element and on everything that it did before (`k` counts the events so far).

The functions are the ones of src/Vector.c that call the destructor. Everything else is as in `Model/Vector`.
-/

namespace Zy

open Spec

variable {α : Type}

/-- What a destructor leaves in the place of the element: a `ZyanMemberProcedure` (include/Zycore/Object.h line
51), called for the `k`-th event. -/
abbrev DtorFn (α : Type) := Nat → Cell α → Cell α

/-- The destructor loops of src/Vector.c lines 246-252, 586-592 and 763-769, from slot `i`. -/
def destroyLoopBy (d : DtorFn α) (s : VS α) (i : Nat) : Nat → Out (VS α)
  | 0 => .ret s
  | n + 1 =>
    withData s.v.data fun b =>
      match b.cells[i]? with
      | none => .ub .oob
      | some x =>
        destroyLoopBy d ⟨{ s.v with data := some { b with cells := b.cells.set i (d s.w.trace.length x) } },
          s.w.log (.destroy x)⟩ (i + 1) n

/-- The guarded loop over `[lo, hi)`. -/
def runDtorsBy (d : DtorFn α) (s : VS α) (lo hi : Nat) : Out (VS α) :=
  if s.v.hasDtor then destroyLoopBy d s lo (hi - lo) else .ret s

/-- `ZyanVectorDestroy`: src/Vector.c lines 236-263. The last component is the storage of a vector on a caller buffer,
which the caller can still look at. -/
def vecDestroyBy (d : DtorFn α) (s : VS α) : Out (Status × VS α × Option (Block α)) :=
  (runDtorsBy d s 0 s.v.size).bind fun s =>
  match s.v.allocator with
  | some a =>
    if s.v.cap ≠ 0 then
      withData s.v.data fun b =>
        let r := deallocate s.w a b s.v.esz s.v.cap
        if failed r.1 then .ret (r.1, { s with w := r.2 }, none)
        else .ret (stSuccess, { v := { s.v with data := none }, w := r.2 }, none)
    else .ret (stSuccess, { s with v := { s.v with data := none } }, none)
  | none => .ret (stSuccess, { s with v := { s.v with data := none } }, s.v.data)

/-- `ZyanVectorSet`: src/Vector.c lines 394-416. -/
def vecSetBy (d : DtorFn α) (s : VS α) (index : Nat) (value : Src α) : Out (Status × VS α) :=
  if value.isNull then .ret (stInvalidArgument, s)
  else if index ≥ s.v.size then .ret (stOutOfRange, s)
  else
    (runDtorsBy d s index (index + 1)).bind fun s =>
    withData s.v.data fun b =>
    (memcpyIn b index value 1).bind fun b' =>
    .ret (stSuccess, { s with v := { s.v with data := some b' } })

/-- `ZyanVectorDeleteRange`: src/Vector.c lines 573-605. -/
def vecDeleteRangeBy (d : DtorFn α) (s : VS α) (index count : Nat) : Out (Status × VS α) :=
  if count = 0 then .ret (stInvalidArgument, s)
  else if add64 index count > s.v.size then .ret (stOutOfRange, s)
  else
    (runDtorsBy d s index (add64 index count)).bind fun s =>
    (if add64 index count < s.v.size then shiftLeft s index count else .ret s).bind fun s =>
    shrinkAfter { s with v := { s.v with size := sub64 s.v.size count } }

/-- `ZyanVectorPopBack`: src/Vector.c lines 607-631. -/
def vecPopBackBy (d : DtorFn α) (s : VS α) : Out (Status × VS α) :=
  if s.v.size = 0 then .ret (stOutOfRange, s)
  else
    (runDtorsBy d s (s.v.size - 1) s.v.size).bind fun s =>
    shrinkAfter { s with v := { s.v with size := s.v.size - 1 } }

/-- `ZyanVectorResizeEx`: src/Vector.c lines 752-789. -/
def vecResizeExBy (d : DtorFn α) (s : VS α) (size : Nat) (init : Src α) : Out (Status × VS α) :=
  if size = s.v.size then .ret (stSuccess, s)
  else
    (if size < s.v.size then runDtorsBy d s size s.v.size else .ret s).bind fun s =>
    (if shouldGrow size s.v.cap || shouldShrink size s.v.cap s.v.shrink then
       reallocate s (mul64 size s.v.growth)
     else .ret (stSuccess, s)).bind fun r =>
    if failed r.1 then .ret r
    else
      let s := r.2
      if ¬ init.isNull ∧ size > s.v.size then
        withData s.v.data fun b =>
        (fillLoop b init s.v.size (size - s.v.size)).bind fun b' =>
        .ret (stSuccess, { s with v := { s.v with data := some b', size := size } })
      else .ret (stSuccess, { s with v := { s.v with size := size } })

/-- `ZyanVectorClear`: src/Vector.c lines 633-636. -/
def vecClearBy (d : DtorFn α) (s : VS α) : Out (Status × VS α) := vecResizeExBy d s 0 .null

/-- Reading of an API operation as a call of the modelled function. -/
def vecOpBy (d : DtorFn α) (s : VS α) : VOp α → Out (Status × VS α)
  | .set i x => vecSetBy d s i (.ext [x])
  | .deleteRange i n => vecDeleteRangeBy d s i n
  | .pop => vecPopBackBy d s
  | .clear => vecClearBy d s
  | .resize n init => vecResizeExBy d s n (initSrc init)
  | op => vecOp s op

/-- A history of API calls: the statuses returned and the final state. -/
def runVecBy (d : DtorFn α) (s : VS α) : List (VOp α) → Out (List Status × VS α)
  | [] => .ret ([], s)
  | op :: ops =>
    (vecOpBy d s op).bind fun r => (runVecBy d r.2 ops).bind fun q => .ret (r.1 :: q.1, q.2)

/-- Vectors that a program can obtain if the destructor of the vector is `d`. -/
def ReachBy (d : DtorFn α) (P : Params) (s : VS α) : Prop :=
  ∃ s0 ops sts, Reach P s0 ∧ AllInDomain P (absOf s0) ops ∧ runVecBy d s0 ops = .ret (sts, s)

end Zy
