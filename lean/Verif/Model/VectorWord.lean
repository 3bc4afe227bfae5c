import Verif.Spec.VectorRun

/-!
# Vectors on targets with another width of `size_t`

The rest of the model takes `ZyanUSize` to have 64 bits. `ZyanUSize` is `size_t`
(include/Zycore/Types.h lines 54, 59, 114 and 224), which has 32 bits on 32-bit targets. This file has the vector
functions of src/Vector.c once more, with the number `m` of values of `size_t` as a parameter: `m` is
`2^32` on a 32-bit target and `2^64` on a 64-bit target. Only functions that compute with sizes are
repeated; the others (`vecSet`, `vecSwap`, `vecInitBuffer`, `vecDestroy`, ...) are those of
`Model/Vector.lean`, in which no arithmetic can leave the range of `size_t`.
-/

namespace Zy

open Spec

variable {α : Type}

/-- `a + b` in a `size_t` with `m` values. -/
def addW (m a b : Nat) : Nat := (a + b) % m
/-- `a - b` in a `size_t` with `m` values. -/
def subW (m a b : Nat) : Nat := (a + (m - b % m)) % m
/-- `a * b` in a `size_t` with `m` values. -/
def mulW (m a b : Nat) : Nat := (a * b) % m
/-- Conversion from `ZyanUSize` to `ZyanISize` (two's complement) with `m` values. -/
def toIW (m a : Nat) : Int := if a < m / 2 then a else (a : Int) - m
/-- Conversion from `ZyanISize` to `ZyanUSize` with `m` values. -/
def toUW (m : Nat) (a : Int) : Nat := (a % (m : Int)).toNat

/-- Number of whole elements that the default allocator obtains: src/Allocator.c lines 40-57 and 59-77
(the product `element_size * n` is computed in `size_t`). -/
def grantedCellsW (m esz n : Nat) : Nat := mulW m esz n / esz

/-- `allocator->allocate`: src/Allocator.c lines 40-56. -/
def allocateW (m : Nat) (w : World α) (a esz n : Nat) : Status × Option (Block α) × World α :=
  let st := w.oracle w.calls
  let w := { w with calls := w.calls + 1 }
  if failed st then (st, none, w.log (.refused a))
  else
    (st, some ⟨w.nextBlk, List.replicate (grantedCellsW m esz n) none⟩,
      { w with nextBlk := w.nextBlk + 1 }.log (.alloc a w.nextBlk esz n))

/-- `allocator->reallocate`: src/Allocator.c lines 59-77. -/
def reallocBlockW (m : Nat) (w : World α) (a : Nat) (b : Block α) (esz n : Nat) :
    Status × Block α × World α :=
  let st := w.oracle w.calls
  let w := { w with calls := w.calls + 1 }
  if failed st then (st, b, w.log (.refused a))
  else
    let k := grantedCellsW m esz n
    (st, ⟨w.nextBlk, b.cells.take k ++ List.replicate (k - b.cells.length) none⟩,
      { w with nextBlk := w.nextBlk + 1 }.log (.realloc a b.id w.nextBlk esz n))

/-- `ZYCORE_VECTOR_SHOULD_SHRINK`: src/Vector.c lines 54-55. -/
def shouldShrinkW (m size capacity threshold : Nat) : Bool :=
  threshold ≠ 0 && mulW m size threshold < capacity

/-- The last lines of `ZyanVectorReallocate`: src/Vector.c lines 114-118. -/
def reallocToW (m : Nat) (s : VS α) (a : Nat) (capacity : Nat) : Out (Status × VS α) :=
  withData s.v.data fun b =>
    let r := reallocBlockW m s.w a b s.v.esz capacity
    let s' : VS α := { v := { s.v with cap := capacity, data := some r.2.1 }, w := r.2.2 }
    if failed r.1 then .ret (r.1, s') else .ret (stSuccess, s')

/-- `ZyanVectorReallocate`: src/Vector.c lines 84-119. -/
def reallocateW (m : Nat) (s : VS α) (capacity : Nat) : Out (Status × VS α) :=
  match s.v.allocator with
  | none =>
    if s.v.cap < capacity then .ret (stInsufficient, s) else .ret (stSuccess, s)
  | some a =>
    if capacity < 1 then
      if s.v.cap > 1 then reallocToW m s a 1 else .ret (stSuccess, s)
    else reallocToW m s a capacity

/-- `ZyanVectorShiftLeft`: src/Vector.c lines 130-144. -/
def shiftLeftW (m : Nat) (s : VS α) (index count : Nat) : Out (VS α) :=
  withData s.v.data fun b =>
    (memmoveCells b.cells index (addW m index count)
      (subW m (subW m s.v.size index) count)).bind fun cs =>
    .ret { s with v := { s.v with data := some { b with cells := cs } } }

/-- `ZyanVectorShiftRight`: src/Vector.c lines 155-169. -/
def shiftRightW (m : Nat) (s : VS α) (index count : Nat) : Out (VS α) :=
  withData s.v.data fun b =>
    (memmoveCells b.cells (addW m index count) index (subW m s.v.size index)).bind fun cs =>
    .ret { s with v := { s.v with data := some { b with cells := cs } } }

/-- `ZyanVectorInitEx`: src/Vector.c lines 192-214. -/
def vecInitExW (m : Nat) (w : World α) (esz capacity : Nat) (hasDtor : Bool) (allocator : Option Nat)
    (growth shrink : Nat) : Status × Option (Vec α) × World α :=
  match allocator with
  | none => (stInvalidArgument, none, w)
  | some a =>
    if esz = 0 ∨ growth < 1 then (stInvalidArgument, none, w)
    else
      let cap := max 1 capacity
      let r := allocateW m w a esz cap
      (r.1, some { allocator := some a, growth := growth, shrink := shrink, size := 0, cap := cap,
                   esz := esz, hasDtor := hasDtor, data := r.2.1 }, r.2.2)

/-- `ZyanVectorDuplicateEx`: src/Vector.c lines 280-299. -/
def vecDuplicateExW (m : Nat) (w : World α) (src : Vec α) (capacity : Nat) (allocator : Option Nat)
    (growth shrink : Nat) : Out (Status × Option (Vec α) × World α) :=
  let r := vecInitExW m w src.esz (max capacity src.size) src.hasDtor allocator growth shrink
  if failed r.1 then .ret r
  else match r.2.1 with
    | none => .ret r
    | some d => (dupCopy d src).bind fun d' => .ret (stSuccess, some d', r.2.2)

/-- The growth step of the insertion functions: src/Vector.c lines 432-436, 463-467 and 507-511. -/
def growForW (m : Nat) (s : VS α) (need : Nat) : Out (Status × VS α) :=
  if shouldGrow need s.v.cap then reallocateW m s (max 1 (mulW m need s.v.growth))
  else .ret (stSuccess, s)

/-- `ZyanVectorPushBack`: src/Vector.c lines 422-444. -/
def vecPushBackW (m : Nat) (s : VS α) (element : Src α) : Out (Status × VS α) :=
  if element.isNull then .ret (stInvalidArgument, s)
  else
    (growForW m s (addW m s.v.size 1)).bind fun r =>
    if failed r.1 then .ret r
    else
      let s := r.2
      withData s.v.data fun b =>
      (memcpyIn b s.v.size element 1).bind fun b' =>
      .ret (stSuccess, { s with v := { s.v with data := some b', size := addW m s.v.size 1 } })

/-- `ZyanVectorInsertRange`: src/Vector.c lines 451-482. -/
def vecInsertRangeW (m : Nat) (s : VS α) (index : Nat) (elements : Src α) (count : Nat) :
    Out (Status × VS α) :=
  if elements.isNull ∨ count = 0 then .ret (stInvalidArgument, s)
  else if index > s.v.size then .ret (stOutOfRange, s)
  else
    (growForW m s (addW m s.v.size count)).bind fun r =>
    if failed r.1 then .ret r
    else
      let s := r.2
      (if index < s.v.size then shiftRightW m s index count else .ret s).bind fun s =>
      withData s.v.data fun b =>
      (memcpyIn b index elements count).bind fun b' =>
      .ret (stSuccess, { s with v := { s.v with data := some b', size := addW m s.v.size count } })

/-- `ZyanVectorEmplaceEx`: src/Vector.c lines 494-529. -/
def vecEmplaceExW (m : Nat) (s : VS α) (index : Nat) (ctor : Ctor α) : Out (Status × VS α) :=
  if index > s.v.size then .ret (stOutOfRange, s)
  else
    (growForW m s (addW m s.v.size 1)).bind fun r =>
    if failed r.1 then .ret r
    else
      let s := r.2
      (if index < s.v.size then shiftRightW m s index 1 else .ret s).bind fun s =>
      match ctor with
      | none => .ret (stSuccess, { s with v := { s.v with size := addW m s.v.size 1 } })
      | some c =>
        withData s.v.data fun b =>
        match b.cells[index]? with
        | none => .ub .oob
        | some x =>
          let r := c x
          let b' : Block α := { b with cells := b.cells.set index r.2 }
          if failed r.1 then .ret (r.1, { s with v := { s.v with data := some b' } })
          else .ret (stSuccess,
            { s with v := { s.v with data := some b', size := addW m s.v.size 1 } })

/-- The shrink step of both deletion functions: src/Vector.c lines 598-604 and 624-630. -/
def shrinkAfterW (m : Nat) (s : VS α) : Out (Status × VS α) :=
  if shouldShrinkW m s.v.size s.v.cap s.v.shrink then
    reallocateW m s (max 1 (mulW m s.v.size s.v.growth))
  else .ret (stSuccess, s)

/-- `ZyanVectorDeleteRange`: src/Vector.c lines 573-605. -/
def vecDeleteRangeW (m : Nat) (s : VS α) (index count : Nat) : Out (Status × VS α) :=
  if count = 0 then .ret (stInvalidArgument, s)
  else if addW m index count > s.v.size then .ret (stOutOfRange, s)
  else
    (runDtors s index (addW m index count)).bind fun s =>
    (if addW m index count < s.v.size then shiftLeftW m s index count else .ret s).bind fun s =>
    shrinkAfterW m { s with v := { s.v with size := subW m s.v.size count } }

/-- `ZyanVectorPopBack`: src/Vector.c lines 607-631. -/
def vecPopBackW (m : Nat) (s : VS α) : Out (Status × VS α) :=
  if s.v.size = 0 then .ret (stOutOfRange, s)
  else
    (runDtors s (s.v.size - 1) s.v.size).bind fun s =>
    shrinkAfterW m { s with v := { s.v with size := s.v.size - 1 } }

/-- The loop of `ZyanVectorFindEx`: src/Vector.c lines 674-681. -/
def findLoopW (m : Nat) (cells : List (Cell α)) (eq : Cell α → Bool) (i : Nat) :
    Nat → Out (Status × Int)
  | 0 => .ret (stFalse, -1)
  | n + 1 =>
    match cells[i]? with
    | none => .ub .oob
    | some x => if eq x then .ret (stTrue, toIW m i) else findLoopW m cells eq (i + 1) n

/-- `ZyanVectorFindEx`: src/Vector.c lines 653-685. -/
def vecFindExW (m : Nat) (s : VS α) (eq : Cell α → Bool) (index count : Nat) :
    Out (Status × Option Int) :=
  if addW m index count > s.v.size ∨ index = s.v.size then .ret (stOutOfRange, none)
  else if count = 0 then .ret (stFalse, some (-1))
  else
    withData s.v.data fun b =>
    (findLoopW m b.cells eq index (addW m index count - index)).bind fun r => .ret (r.1, some r.2)

/-- The loop of `ZyanVectorBinarySearchEx`: src/Vector.c lines 719-740. -/
def bsearchLoopW (m : Nat) (cells : List (Cell α)) (cmp : Cell α → Int) :
    Nat → Int → Int → Status → List Nat → Out (Status × Int × List Nat)
  | 0, _, _, _, _ => .ub .diverge
  | fuel + 1, l, h, status, log =>
    if l ≤ h then
      let mid := toUW m (l + (h - l) / 2)
      match cells[mid]? with
      | none => .ub .oob
      | some x =>
        if cmp x < 0 then
          bsearchLoopW m cells cmp fuel (toIW m (addW m mid 1)) h status (log ++ [mid])
        else
          bsearchLoopW m cells cmp fuel l (toIW m (subW m mid 1))
            (if cmp x = 0 then stTrue else status) (log ++ [mid])
    else .ret (status, l, log)

/-- `ZyanVectorBinarySearchEx`: src/Vector.c lines 698-741. -/
def vecBinarySearchExW (m : Nat) (s : VS α) (cmp : Cell α → Int) (index count : Nat) :
    Out (Status × Option Nat × List Nat) :=
  if (index ≥ s.v.size ∧ count > 0) ∨ addW m index count > s.v.size then
    .ret (stOutOfRange, none, [])
  else if count = 0 then .ret (stFalse, some index, [])
  else
    withData s.v.data fun b =>
    (bsearchLoopW m b.cells cmp (count + 1) (toIW m index) (toIW m (subW m (addW m index count) 1))
      stFalse []).bind fun r =>
    .ret (r.1, some (toUW m r.2.1), r.2.2)

/-- `ZyanVectorResizeEx`: src/Vector.c lines 752-789. -/
def vecResizeExW (m : Nat) (s : VS α) (size : Nat) (init : Src α) : Out (Status × VS α) :=
  if size = s.v.size then .ret (stSuccess, s)
  else
    (if size < s.v.size then runDtors s size s.v.size else .ret s).bind fun s =>
    (if shouldGrow size s.v.cap || shouldShrinkW m size s.v.cap s.v.shrink then
       reallocateW m s (mulW m size s.v.growth)
     else .ret (stSuccess, s)).bind fun r =>
    if failed r.1 then .ret r
    else
      let s := r.2
      if ¬ init.isNull ∧ size > s.v.size then
        withData s.v.data fun b =>
        (fillLoop b init s.v.size (size - s.v.size)).bind fun b' =>
        .ret (stSuccess, { s with v := { s.v with data := some b', size := size } })
      else .ret (stSuccess, { s with v := { s.v with size := size } })

/-- `ZyanVectorClear`: src/Vector.c lines 633-636. -/
def vecClearW (m : Nat) (s : VS α) : Out (Status × VS α) := vecResizeExW m s 0 .null

/-- `ZyanVectorReserve`: src/Vector.c lines 791-804. -/
def vecReserveW (m : Nat) (s : VS α) (capacity : Nat) : Out (Status × VS α) :=
  if capacity > s.v.cap then
    (reallocateW m s capacity).bind fun r =>
    if failed r.1 then .ret r else .ret (stSuccess, r.2)
  else .ret (stSuccess, s)

/-- `ZyanVectorShrinkToFit`: src/Vector.c lines 806-814. -/
def vecShrinkToFitW (m : Nat) (s : VS α) : Out (Status × VS α) := reallocateW m s s.v.size

/-- Reading of an API operation as a call of the modelled function (compare `vecOp`). -/
def vecOpW (m : Nat) (s : VS α) : VOp α → Out (Status × VS α)
  | .push x => vecPushBackW m s (.ext [x])
  | .insertRange i xs => vecInsertRangeW m s i (.ext xs) xs.length
  | .emplace i c => vecEmplaceExW m s i c
  | .set i x => vecSet s i (.ext [x])
  | .swap i j => vecSwap s i j
  | .deleteRange i n => vecDeleteRangeW m s i n
  | .pop => vecPopBackW m s
  | .clear => vecClearW m s
  | .resize n init => vecResizeExW m s n (initSrc init)
  | .reserve c => vecReserveW m s c
  | .shrinkToFit => vecShrinkToFitW m s

/-- A history of API calls: the statuses returned and the final state. -/
def runVecW (m : Nat) (s : VS α) : List (VOp α) → Out (List Status × VS α)
  | [] => .ret ([], s)
  | op :: ops =>
    (vecOpW m s op).bind fun r => (runVecW m r.2 ops).bind fun q => .ret (r.1 :: q.1, q.2)

end Zy
