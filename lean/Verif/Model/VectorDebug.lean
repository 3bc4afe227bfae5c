import Verif.Model.Vector

/-!
# Model of src/Vector.c in a build with assertions

The functions of src/Vector.c that contain a `ZYAN_ASSERT` or reach one, with the assertions
(include/Zycore/Defines.h line 282: `assert(condition)`). A failed assertion is the outcome
`.ub .assertion`.

Simplifications: as in `Model/Vector.lean`. The object pointers and the callbacks of an allocator are not
null, so that the assertions on them are left out.
-/

namespace Zy

variable {α β : Type}

/-- `ZYAN_ASSERT(condition)`: include/Zycore/Defines.h line 282. -/
def assertThat (condition : Bool) (k : Out β) : Out β := if condition then k else .ub .assertion

/-- The two assertions at the start of most functions: `ZYAN_ASSERT(vector->element_size);
ZYAN_ASSERT(vector->data);` for example src/Vector.c lines 429-430. -/
def assertUsable (v : Vec α) (k : Out β) : Out β :=
  assertThat (v.esz ≠ 0) (assertThat v.data.isSome k)

/-- `ZyanVectorReallocate`: src/Vector.c lines 84-119. -/
def reallocateD (s : VS α) (capacity : Nat) : Out (Status × VS α) :=
  assertThat (s.v.cap ≥ 1) <| assertUsable s.v <|
  match s.v.allocator with
  | none =>
    if s.v.cap < capacity then .ret (stInsufficient, s) else .ret (stSuccess, s)
  | some a =>
    if capacity < 1 then
      if s.v.cap > 1 then reallocTo s a 1 else .ret (stSuccess, s)
    else reallocTo s a capacity

/-- `ZyanVectorShiftLeft`: src/Vector.c lines 130-144. -/
def shiftLeftD (s : VS α) (index count : Nat) : Out (VS α) :=
  assertUsable s.v <| assertThat (count > 0) <|
  withData s.v.data fun b =>
    (memmoveCells b.cells index (add64 index count)
      (sub64 (sub64 s.v.size index) count)).bind fun cs =>
    .ret { s with v := { s.v with data := some { b with cells := cs } } }

/-- `ZyanVectorShiftRight`: src/Vector.c lines 155-169. -/
def shiftRightD (s : VS α) (index count : Nat) : Out (VS α) :=
  assertUsable s.v <| assertThat (count > 0) <| assertThat (add64 s.v.size count ≤ s.v.cap) <|
  withData s.v.data fun b =>
    (memmoveCells b.cells (add64 index count) index (sub64 s.v.size index)).bind fun cs =>
    .ret { s with v := { s.v with data := some { b with cells := cs } } }

/-- `ZyanVectorDestroy`: src/Vector.c lines 236-263. -/
def vecDestroyD (s : VS α) : Out (Status × VS α) :=
  assertUsable s.v <|
  (runDtors s 0 s.v.size).bind fun s =>
  match s.v.allocator with
  | some a =>
    if s.v.cap ≠ 0 then
      withData s.v.data fun b =>
        let r := deallocate s.w a b s.v.esz s.v.cap
        if failed r.1 then .ret (r.1, { s with w := r.2 })
        else .ret (stSuccess, { v := { s.v with data := none }, w := r.2 })
    else .ret (stSuccess, { s with v := { s.v with data := none } })
  | none => .ret (stSuccess, { s with v := { s.v with data := none } })

/-- `ZyanVectorDuplicateEx`: src/Vector.c lines 280-299. -/
def vecDuplicateExD (w : World α) (src : Vec α) (capacity : Nat) (allocator : Option Nat)
    (growth shrink : Nat) : Out (Status × Option (Vec α) × World α) :=
  let r := vecInitEx w src.esz (max capacity src.size) src.hasDtor allocator growth shrink
  if failed r.1 then .ret r
  else match r.2.1 with
    | none => .ret r
    | some d =>
      assertThat (d.cap ≥ src.size) <|
      (dupCopy d src).bind fun d' => .ret (stSuccess, some d', r.2.2)

/-- `ZyanVectorDuplicateCustomBuffer`: src/Vector.c lines 301-324. -/
def vecDuplicateBufferD (src : Vec α) (buffer : Option (Block α)) (capacity : Nat) :
    Out (Status × Option (Vec α)) :=
  if capacity < src.size then .ret (stInsufficient, none)
  else
    let r := vecInitBuffer src.esz buffer capacity src.hasDtor
    if failed r.1 then .ret r
    else match r.2 with
      | none => .ret r
      | some d =>
        assertThat (d.cap ≥ src.size) <|
        (dupCopy d src).bind fun d' => .ret (stSuccess, some d')

/-- `ZyanVectorGet` / `ZyanVectorGetMutable`: src/Vector.c lines 330-354. -/
def vecGetD (s : VS α) (index : Nat) : Out (Option Nat) :=
  if index ≥ s.v.size then .ret none else assertUsable s.v (.ret (some index))

/-- `ZyanVectorGetPointer(Mutable)`: src/Vector.c lines 356-392. -/
def vecGetPointerD (s : VS α) (index : Nat) : Out (Status × Option Nat) :=
  if index ≥ s.v.size then .ret (stOutOfRange, none)
  else assertUsable s.v (.ret (stSuccess, some index))

/-- `ZyanVectorSet`: src/Vector.c lines 394-416. -/
def vecSetD (s : VS α) (index : Nat) (value : Src α) : Out (Status × VS α) :=
  if value.isNull then .ret (stInvalidArgument, s)
  else if index ≥ s.v.size then .ret (stOutOfRange, s)
  else
    assertUsable s.v <|
    (runDtors s index (index + 1)).bind fun s =>
    withData s.v.data fun b =>
    (memcpyIn b index value 1).bind fun b' =>
    .ret (stSuccess, { s with v := { s.v with data := some b' } })

/-- The growth step shared by the insertion functions: src/Vector.c lines 432-436, 463-467 and
507-511. -/
def growForD (s : VS α) (need : Nat) : Out (Status × VS α) :=
  if shouldGrow need s.v.cap then reallocateD s (max 1 (mul64 need s.v.growth))
  else .ret (stSuccess, s)

/-- `ZyanVectorPushBack`: src/Vector.c lines 422-444. -/
def vecPushBackD (s : VS α) (element : Src α) : Out (Status × VS α) :=
  if element.isNull then .ret (stInvalidArgument, s)
  else
    assertUsable s.v <|
    (growForD s (add64 s.v.size 1)).bind fun r =>
    if failed r.1 then .ret r
    else
      let s := r.2
      withData s.v.data fun b =>
      (memcpyIn b s.v.size element 1).bind fun b' =>
      .ret (stSuccess, { s with v := { s.v with data := some b', size := add64 s.v.size 1 } })

/-- `ZyanVectorInsertRange`: src/Vector.c lines 451-482. -/
def vecInsertRangeD (s : VS α) (index : Nat) (elements : Src α) (count : Nat) :
    Out (Status × VS α) :=
  if elements.isNull ∨ count = 0 then .ret (stInvalidArgument, s)
  else if index > s.v.size then .ret (stOutOfRange, s)
  else
    assertUsable s.v <|
    (growForD s (add64 s.v.size count)).bind fun r =>
    if failed r.1 then .ret r
    else
      let s := r.2
      (if index < s.v.size then shiftRightD s index count else .ret s).bind fun s =>
      withData s.v.data fun b =>
      (memcpyIn b index elements count).bind fun b' =>
      .ret (stSuccess, { s with v := { s.v with data := some b', size := add64 s.v.size count } })

/-- `ZyanVectorEmplaceEx`: src/Vector.c lines 494-529. -/
def vecEmplaceExD (s : VS α) (index : Nat) (ctor : Ctor α) : Out (Status × VS α) :=
  if index > s.v.size then .ret (stOutOfRange, s)
  else
    assertUsable s.v <|
    (growForD s (add64 s.v.size 1)).bind fun r =>
    if failed r.1 then .ret r
    else
      let s := r.2
      (if index < s.v.size then shiftRightD s index 1 else .ret s).bind fun s =>
      match ctor with
      | none => .ret (stSuccess, { s with v := { s.v with size := add64 s.v.size 1 } })
      | some c =>
        withData s.v.data fun b =>
        match b.cells[index]? with
        | none => .ub .oob
        | some x =>
          let r := c x
          let b' : Block α := { b with cells := b.cells.set index r.2 }
          if failed r.1 then .ret (r.1, { s with v := { s.v with data := some b' } })
          else .ret (stSuccess,
            { s with v := { s.v with data := some b', size := add64 s.v.size 1 } })

/-- `ZyanVectorSwapElements`: src/Vector.c lines 535-562. -/
def vecSwapD (s : VS α) (i j : Nat) : Out (Status × VS α) :=
  if i ≥ s.v.size ∨ j ≥ s.v.size then .ret (stOutOfRange, s)
  else if s.v.size = s.v.cap then .ret (stInsufficient, s)
  else
    assertUsable s.v <|
    withData s.v.data fun b =>
    (memmoveCells b.cells s.v.size i 1).bind fun cs =>
    (memmoveCells cs i j 1).bind fun cs =>
    (memmoveCells cs j s.v.size 1).bind fun cs =>
    .ret (stSuccess, { s with v := { s.v with data := some { b with cells := cs } } })

/-- The shrink step at the end of both deletion functions: src/Vector.c lines 598-604 and 624-630. -/
def shrinkAfterD (s : VS α) : Out (Status × VS α) :=
  if shouldShrink s.v.size s.v.cap s.v.shrink then
    reallocateD s (max 1 (mul64 s.v.size s.v.growth))
  else .ret (stSuccess, s)

/-- `ZyanVectorDeleteRange`: src/Vector.c lines 573-605. -/
def vecDeleteRangeD (s : VS α) (index count : Nat) : Out (Status × VS α) :=
  if count = 0 then .ret (stInvalidArgument, s)
  else if add64 index count > s.v.size then .ret (stOutOfRange, s)
  else
    (runDtors s index (add64 index count)).bind fun s =>
    (if add64 index count < s.v.size then shiftLeftD s index count else .ret s).bind fun s =>
    shrinkAfterD { s with v := { s.v with size := sub64 s.v.size count } }

/-- `ZyanVectorPopBack`: src/Vector.c lines 607-631. -/
def vecPopBackD (s : VS α) : Out (Status × VS α) :=
  if s.v.size = 0 then .ret (stOutOfRange, s)
  else
    (runDtors s (s.v.size - 1) s.v.size).bind fun s =>
    shrinkAfterD { s with v := { s.v with size := s.v.size - 1 } }

/-- `ZyanVectorFindEx`: src/Vector.c lines 653-685. -/
def vecFindExD (s : VS α) (eq : Cell α → Bool) (index count : Nat) : Out (Status × Option Int) :=
  if add64 index count > s.v.size ∨ index = s.v.size then .ret (stOutOfRange, none)
  else if count = 0 then .ret (stFalse, some (-1))
  else
    assertUsable s.v <|
    withData s.v.data fun b =>
    (findLoop b.cells eq index (add64 index count - index)).bind fun r => .ret (r.1, some r.2)

/-- `ZyanVectorBinarySearchEx`: src/Vector.c lines 698-741. -/
def vecBinarySearchExD (s : VS α) (cmp : Cell α → Int) (index count : Nat) :
    Out (Status × Option Nat × List Nat) :=
  if (index ≥ s.v.size ∧ count > 0) ∨ add64 index count > s.v.size then
    .ret (stOutOfRange, none, [])
  else if count = 0 then .ret (stFalse, some index, [])
  else
    assertUsable s.v <|
    withData s.v.data fun b =>
    (bsearchLoop b.cells cmp (count + 1) (toI64 index) (toI64 (sub64 (add64 index count) 1))
      stFalse []).bind fun r =>
    .ret (r.1, some (toU64 r.2.1), r.2.2)

/-- `ZyanVectorResizeEx`: src/Vector.c lines 752-789. -/
def vecResizeExD (s : VS α) (size : Nat) (init : Src α) : Out (Status × VS α) :=
  if size = s.v.size then .ret (stSuccess, s)
  else
    (if size < s.v.size then runDtors s size s.v.size else .ret s).bind fun s =>
    (if shouldGrow size s.v.cap || shouldShrink size s.v.cap s.v.shrink then
       assertThat (s.v.growth ≥ 1) <|
       reallocateD s (mul64 size s.v.growth)
     else .ret (stSuccess, s)).bind fun r =>
    if failed r.1 then .ret r
    else
      let s := r.2
      if ¬ init.isNull ∧ size > s.v.size then
        withData s.v.data fun b =>
        (fillLoop b init s.v.size (size - s.v.size)).bind fun b' =>
        .ret (stSuccess, { s with v := { s.v with data := some b', size := size } })
      else .ret (stSuccess, { s with v := { s.v with size := size } })

/-- `ZyanVectorReserve`: src/Vector.c lines 791-804. -/
def vecReserveD (s : VS α) (capacity : Nat) : Out (Status × VS α) :=
  if capacity > s.v.cap then
    (reallocateD s capacity).bind fun r =>
    if failed r.1 then .ret r else .ret (stSuccess, r.2)
  else .ret (stSuccess, s)

/-- `ZyanVectorShrinkToFit`: src/Vector.c lines 806-814. -/
def vecShrinkToFitD (s : VS α) : Out (Status × VS α) := reallocateD s s.v.size

end Zy
