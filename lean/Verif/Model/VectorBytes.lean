import Verif.Model.Vector

/-!
# Model of src/Vector.c on bytes

The functions of src/Vector.c once more, on memory made of bytes: every address is computed with
`ZYCORE_VECTOR_OFFSET` and every length multiplied with the element size, in machine words, as in the source.
`Model/Vector.lean`, where memory consists of whole elements, is compared to this model by property C130.

Simplifications: as in `Model/Vector.lean`, except for the granularity of memory. A constructor callback
sees and replaces the bytes of one element; a destructor and a comparison see the bytes of one element.
-/

namespace Zy

/-- The bytes of one element. -/
abbrev Elem := List (Cell Byte)

/-- A vector whose data block consists of bytes, and its environment. -/
structure VB where
  v : Vec Byte
  w : World Elem

/-- An element constructor callback on the bytes of the slot. -/
abbrev CtorB := Option (Elem → Status × Elem)

/-- `ZYCORE_VECTOR_OFFSET`: src/Vector.c lines 65-66, the distance in bytes from the data pointer. -/
def byteOffset (v : Vec Byte) (index : Nat) : Nat := mul64 index v.esz

/-- `allocator->allocate`: src/Allocator.c lines 40-56; the block has `element_size * n` bytes. -/
def allocateB (w : World Elem) (a esz n : Nat) : Status × Option (Block Byte) × World Elem :=
  let st := w.oracle w.calls
  let w := { w with calls := w.calls + 1 }
  if failed st then (st, none, w.log (.refused a))
  else
    (st, some ⟨w.nextBlk, List.replicate (mul64 esz n) none⟩,
      { w with nextBlk := w.nextBlk + 1 }.log (.alloc a w.nextBlk esz n))

/-- `allocator->reallocate`: src/Allocator.c lines 59-77; the common prefix of the bytes is kept. -/
def reallocBlockB (w : World Elem) (a : Nat) (b : Block Byte) (esz n : Nat) :
    Status × Block Byte × World Elem :=
  let st := w.oracle w.calls
  let w := { w with calls := w.calls + 1 }
  if failed st then (st, b, w.log (.refused a))
  else
    let m := mul64 esz n
    (st, ⟨w.nextBlk, b.cells.take m ++ List.replicate (m - b.cells.length) none⟩,
      { w with nextBlk := w.nextBlk + 1 }.log (.realloc a b.id w.nextBlk esz n))

/-- `allocator->deallocate`: src/Allocator.c lines 80-94. -/
def deallocateB (w : World Elem) (a : Nat) (b : Block Byte) (esz n : Nat) : Status × World Elem :=
  let st := w.oracle w.calls
  let w := { w with calls := w.calls + 1 }
  if failed st then (st, w.log (.refused a))
  else (st, w.log (.dealloc a b.id esz n))

/-- The last lines of `ZyanVectorReallocate`: src/Vector.c lines 114-118. -/
def reallocToB (s : VB) (a : Nat) (capacity : Nat) : Out (Status × VB) :=
  withData s.v.data fun b =>
    let r := reallocBlockB s.w a b s.v.esz capacity
    let s' : VB := { v := { s.v with cap := capacity, data := some r.2.1 }, w := r.2.2 }
    if failed r.1 then .ret (r.1, s') else .ret (stSuccess, s')

/-- `ZyanVectorReallocate`: src/Vector.c lines 84-119. -/
def reallocateB (s : VB) (capacity : Nat) : Out (Status × VB) :=
  match s.v.allocator with
  | none =>
    if s.v.cap < capacity then .ret (stInsufficient, s) else .ret (stSuccess, s)
  | some a =>
    if capacity < 1 then
      if s.v.cap > 1 then reallocToB s a 1 else .ret (stSuccess, s)
    else reallocToB s a capacity

/-- `ZyanVectorShiftLeft`: src/Vector.c lines 130-144. -/
def shiftLeftB (s : VB) (index count : Nat) : Out VB :=
  withData s.v.data fun b =>
    (memmoveCells b.cells (byteOffset s.v index) (byteOffset s.v (add64 index count))
      (mul64 (sub64 (sub64 s.v.size index) count) s.v.esz)).bind fun cs =>
    .ret { s with v := { s.v with data := some { b with cells := cs } } }

/-- `ZyanVectorShiftRight`: src/Vector.c lines 155-169. -/
def shiftRightB (s : VB) (index count : Nat) : Out VB :=
  withData s.v.data fun b =>
    (memmoveCells b.cells (byteOffset s.v (add64 index count)) (byteOffset s.v index)
      (mul64 (sub64 s.v.size index) s.v.esz)).bind fun cs =>
    .ret { s with v := { s.v with data := some { b with cells := cs } } }

/-- The destructor loops of src/Vector.c lines 246-252, 586-592 and 763-769. -/
def destroyLoopB (s : VB) (i : Nat) : Nat → Out VB
  | 0 => .ret s
  | n + 1 =>
    withData s.v.data fun b =>
      (readRange b.cells (byteOffset s.v i) s.v.esz).bind fun x =>
        destroyLoopB { s with w := s.w.log (.destroy (some x)) } (i + 1) n

/-- `if (vector->destructor) for ...`: the guarded destructor loop over `[lo, hi)`. -/
def runDtorsB (s : VB) (lo hi : Nat) : Out VB :=
  if s.v.hasDtor then destroyLoopB s lo (hi - lo) else .ret s

/-- `ZyanVectorInitEx`: src/Vector.c lines 192-214. -/
def vecInitExB (w : World Elem) (esz capacity : Nat) (hasDtor : Bool) (allocator : Option Nat)
    (growth shrink : Nat) : Status × Option (Vec Byte) × World Elem :=
  match allocator with
  | none => (stInvalidArgument, none, w)
  | some a =>
    if esz = 0 ∨ growth < 1 then (stInvalidArgument, none, w)
    else
      let cap := max 1 capacity
      let r := allocateB w a esz cap
      (r.1, some { allocator := some a, growth := growth, shrink := shrink, size := 0, cap := cap,
                   esz := esz, hasDtor := hasDtor, data := r.2.1 }, r.2.2)

/-- `ZyanVectorInitCustomBuffer`: src/Vector.c lines 216-234, on a buffer of bytes. -/
def vecInitBufferB (esz : Nat) (buffer : Option (Block Byte)) (capacity : Nat) (hasDtor : Bool) :
    Status × Option (Vec Byte) :=
  match buffer with
  | none => (stInvalidArgument, none)
  | some b =>
    if esz = 0 ∨ capacity = 0 then (stInvalidArgument, none)
    else
      (stSuccess, some { allocator := none, growth := 1, shrink := 0, size := 0, cap := capacity,
                         esz := esz, hasDtor := hasDtor, data := some b })

/-- `ZyanVectorDestroy`: src/Vector.c lines 236-263. -/
def vecDestroyB (s : VB) : Out (Status × VB) :=
  (runDtorsB s 0 s.v.size).bind fun s =>
  match s.v.allocator with
  | some a =>
    if s.v.cap ≠ 0 then
      withData s.v.data fun b =>
        let r := deallocateB s.w a b s.v.esz s.v.cap
        if failed r.1 then .ret (r.1, { s with w := r.2 })
        else .ret (stSuccess, { v := { s.v with data := none }, w := r.2 })
    else .ret (stSuccess, { s with v := { s.v with data := none } })
  | none => .ret (stSuccess, { s with v := { s.v with data := none } })

/-- The copy at the end of both duplicate functions: src/Vector.c lines 295-298 and 320-323. -/
def dupCopyB (dst src : Vec Byte) : Out (Vec Byte) :=
  withData src.data fun sb =>
  withData dst.data fun db =>
    (readRange sb.cells 0 (mul64 src.size src.esz)).bind fun xs =>
    (writeRange db.cells 0 xs).bind fun cs =>
    .ret { dst with data := some { db with cells := cs }, size := src.size }

/-- `ZyanVectorDuplicateEx`: src/Vector.c lines 280-299. -/
def vecDuplicateExB (w : World Elem) (src : Vec Byte) (capacity : Nat) (allocator : Option Nat)
    (growth shrink : Nat) : Out (Status × Option (Vec Byte) × World Elem) :=
  let r := vecInitExB w src.esz (max capacity src.size) src.hasDtor allocator growth shrink
  if failed r.1 then .ret r
  else match r.2.1 with
    | none => .ret r
    | some d => (dupCopyB d src).bind fun d' => .ret (stSuccess, some d', r.2.2)

/-- `ZyanVectorDuplicateCustomBuffer`: src/Vector.c lines 301-324. -/
def vecDuplicateBufferB (src : Vec Byte) (buffer : Option (Block Byte)) (capacity : Nat) :
    Out (Status × Option (Vec Byte)) :=
  if capacity < src.size then .ret (stInsufficient, none)
  else
    let r := vecInitBufferB src.esz buffer capacity src.hasDtor
    if failed r.1 then .ret r
    else match r.2 with
      | none => .ret r
      | some d => (dupCopyB d src).bind fun d' => .ret (stSuccess, some d')

/-- `ZyanVectorGet` and the like, with the bytes that the returned pointer denotes: src/Vector.c lines
330-392. -/
def vecGetB (s : VB) (index : Nat) : Out (Option Elem) :=
  if index ≥ s.v.size then .ret none
  else withData s.v.data fun b =>
    (readRange b.cells (byteOffset s.v index) s.v.esz).bind fun x => .ret (some x)

/-- `ZyanVectorSet`: src/Vector.c lines 394-416. -/
def vecSetB (s : VB) (index : Nat) (value : Src Byte) : Out (Status × VB) :=
  if value.isNull then .ret (stInvalidArgument, s)
  else if index ≥ s.v.size then .ret (stOutOfRange, s)
  else
    (runDtorsB s index (index + 1)).bind fun s =>
    withData s.v.data fun b =>
    (memcpyIn b (byteOffset s.v index) value s.v.esz).bind fun b' =>
    .ret (stSuccess, { s with v := { s.v with data := some b' } })

/-- The growth step shared by the insertion functions: src/Vector.c lines 432-436, 463-467 and
507-511. -/
def growForB (s : VB) (need : Nat) : Out (Status × VB) :=
  if shouldGrow need s.v.cap then reallocateB s (max 1 (mul64 need s.v.growth))
  else .ret (stSuccess, s)

/-- `ZyanVectorPushBack`: src/Vector.c lines 422-444. -/
def vecPushBackB (s : VB) (element : Src Byte) : Out (Status × VB) :=
  if element.isNull then .ret (stInvalidArgument, s)
  else
    (growForB s (add64 s.v.size 1)).bind fun r =>
    if failed r.1 then .ret r
    else
      let s := r.2
      withData s.v.data fun b =>
      (memcpyIn b (byteOffset s.v s.v.size) element s.v.esz).bind fun b' =>
      .ret (stSuccess, { s with v := { s.v with data := some b', size := add64 s.v.size 1 } })

/-- `ZyanVectorInsertRange`: src/Vector.c lines 451-482. -/
def vecInsertRangeB (s : VB) (index : Nat) (elements : Src Byte) (count : Nat) : Out (Status × VB) :=
  if elements.isNull ∨ count = 0 then .ret (stInvalidArgument, s)
  else if index > s.v.size then .ret (stOutOfRange, s)
  else
    (growForB s (add64 s.v.size count)).bind fun r =>
    if failed r.1 then .ret r
    else
      let s := r.2
      (if index < s.v.size then shiftRightB s index count else .ret s).bind fun s =>
      withData s.v.data fun b =>
      (memcpyIn b (byteOffset s.v index) elements (mul64 count s.v.esz)).bind fun b' =>
      .ret (stSuccess, { s with v := { s.v with data := some b', size := add64 s.v.size count } })

/-- `ZyanVectorEmplaceEx`: src/Vector.c lines 494-529. -/
def vecEmplaceExB (s : VB) (index : Nat) (ctor : CtorB) : Out (Status × VB) :=
  if index > s.v.size then .ret (stOutOfRange, s)
  else
    (growForB s (add64 s.v.size 1)).bind fun r =>
    if failed r.1 then .ret r
    else
      let s := r.2
      (if index < s.v.size then shiftRightB s index 1 else .ret s).bind fun s =>
      match ctor with
      | none => .ret (stSuccess, { s with v := { s.v with size := add64 s.v.size 1 } })
      | some c =>
        withData s.v.data fun b =>
        (readRange b.cells (byteOffset s.v index) s.v.esz).bind fun x =>
          let r := c x
          (writeRange b.cells (byteOffset s.v index) r.2).bind fun cs =>
          let b' : Block Byte := { b with cells := cs }
          if failed r.1 then .ret (r.1, { s with v := { s.v with data := some b' } })
          else .ret (stSuccess,
            { s with v := { s.v with data := some b', size := add64 s.v.size 1 } })

/-- `ZyanVectorSwapElements`: src/Vector.c lines 535-562. As in `vecSwap`, a copy of a slot onto itself is
treated as a no-op; see C131. -/
def vecSwapB (s : VB) (i j : Nat) : Out (Status × VB) :=
  if i ≥ s.v.size ∨ j ≥ s.v.size then .ret (stOutOfRange, s)
  else if s.v.size = s.v.cap then .ret (stInsufficient, s)
  else
    withData s.v.data fun b =>
    (memmoveCells b.cells (byteOffset s.v s.v.size) (byteOffset s.v i) s.v.esz).bind fun cs =>
    (memmoveCells cs (byteOffset s.v i) (byteOffset s.v j) s.v.esz).bind fun cs =>
    (memmoveCells cs (byteOffset s.v j) (byteOffset s.v s.v.size) s.v.esz).bind fun cs =>
    .ret (stSuccess, { s with v := { s.v with data := some { b with cells := cs } } })

/-- The shrink step at the end of both deletion functions: src/Vector.c lines 598-604 and 624-630. -/
def shrinkAfterB (s : VB) : Out (Status × VB) :=
  if shouldShrink s.v.size s.v.cap s.v.shrink then
    reallocateB s (max 1 (mul64 s.v.size s.v.growth))
  else .ret (stSuccess, s)

/-- `ZyanVectorDeleteRange`: src/Vector.c lines 573-605. -/
def vecDeleteRangeB (s : VB) (index count : Nat) : Out (Status × VB) :=
  if count = 0 then .ret (stInvalidArgument, s)
  else if add64 index count > s.v.size then .ret (stOutOfRange, s)
  else
    (runDtorsB s index (add64 index count)).bind fun s =>
    (if add64 index count < s.v.size then shiftLeftB s index count else .ret s).bind fun s =>
    shrinkAfterB { s with v := { s.v with size := sub64 s.v.size count } }

/-- `ZyanVectorPopBack`: src/Vector.c lines 607-631. -/
def vecPopBackB (s : VB) : Out (Status × VB) :=
  if s.v.size = 0 then .ret (stOutOfRange, s)
  else
    (runDtorsB s (s.v.size - 1) s.v.size).bind fun s =>
    shrinkAfterB { s with v := { s.v with size := s.v.size - 1 } }

/-- The loop of `ZyanVectorFindEx`: src/Vector.c lines 674-681. -/
def findLoopB (v : Vec Byte) (cells : List (Cell Byte)) (eq : Elem → Bool) (i : Nat) :
    Nat → Out (Status × Int)
  | 0 => .ret (stFalse, -1)
  | n + 1 =>
    (readRange cells (byteOffset v i) v.esz).bind fun x =>
      if eq x then .ret (stTrue, toI64 i) else findLoopB v cells eq (i + 1) n

/-- `ZyanVectorFindEx`: src/Vector.c lines 653-685. -/
def vecFindExB (s : VB) (eq : Elem → Bool) (index count : Nat) : Out (Status × Option Int) :=
  if add64 index count > s.v.size ∨ index = s.v.size then .ret (stOutOfRange, none)
  else if count = 0 then .ret (stFalse, some (-1))
  else
    withData s.v.data fun b =>
    (findLoopB s.v b.cells eq index (add64 index count - index)).bind fun r => .ret (r.1, some r.2)

/-- The loop of `ZyanVectorBinarySearchEx`: src/Vector.c lines 719-740. -/
def bsearchLoopB (v : Vec Byte) (cells : List (Cell Byte)) (cmp : Elem → Int) :
    Nat → Int → Int → Status → List Nat → Out (Status × Int × List Nat)
  | 0, _, _, _, _ => .ub .diverge
  | fuel + 1, l, h, status, log =>
    if l ≤ h then
      let mid := toU64 (l + (h - l) / 2)
      (readRange cells (byteOffset v mid) v.esz).bind fun x =>
        if cmp x < 0 then
          bsearchLoopB v cells cmp fuel (toI64 (add64 mid 1)) h status (log ++ [mid])
        else
          bsearchLoopB v cells cmp fuel l (toI64 (sub64 mid 1))
            (if cmp x = 0 then stTrue else status) (log ++ [mid])
    else .ret (status, l, log)

/-- `ZyanVectorBinarySearchEx`: src/Vector.c lines 698-741. -/
def vecBinarySearchExB (s : VB) (cmp : Elem → Int) (index count : Nat) :
    Out (Status × Option Nat × List Nat) :=
  if (index ≥ s.v.size ∧ count > 0) ∨ add64 index count > s.v.size then
    .ret (stOutOfRange, none, [])
  else if count = 0 then .ret (stFalse, some index, [])
  else
    withData s.v.data fun b =>
    (bsearchLoopB s.v b.cells cmp (count + 1) (toI64 index) (toI64 (sub64 (add64 index count) 1))
      stFalse []).bind fun r =>
    .ret (r.1, some (toU64 r.2.1), r.2.2)

/-- The initializer loop of `ZyanVectorResizeEx`: src/Vector.c lines 780-783. -/
def fillLoopB (v : Vec Byte) (b : Block Byte) (init : Src Byte) (i : Nat) : Nat → Out (Block Byte)
  | 0 => .ret b
  | n + 1 => (memcpyIn b (byteOffset v i) init v.esz).bind fun b => fillLoopB v b init (i + 1) n

/-- `ZyanVectorResizeEx`: src/Vector.c lines 752-789. -/
def vecResizeExB (s : VB) (size : Nat) (init : Src Byte) : Out (Status × VB) :=
  if size = s.v.size then .ret (stSuccess, s)
  else
    (if size < s.v.size then runDtorsB s size s.v.size else .ret s).bind fun s =>
    (if shouldGrow size s.v.cap || shouldShrink size s.v.cap s.v.shrink then
       reallocateB s (mul64 size s.v.growth)
     else .ret (stSuccess, s)).bind fun r =>
    if failed r.1 then .ret r
    else
      let s := r.2
      if ¬ init.isNull ∧ size > s.v.size then
        withData s.v.data fun b =>
        (fillLoopB s.v b init s.v.size (size - s.v.size)).bind fun b' =>
        .ret (stSuccess, { s with v := { s.v with data := some b', size := size } })
      else .ret (stSuccess, { s with v := { s.v with size := size } })

/-- `ZyanVectorReserve`: src/Vector.c lines 791-804. -/
def vecReserveB (s : VB) (capacity : Nat) : Out (Status × VB) :=
  if capacity > s.v.cap then
    (reallocateB s capacity).bind fun r =>
    if failed r.1 then .ret r else .ret (stSuccess, r.2)
  else .ret (stSuccess, s)

/-- `ZyanVectorShrinkToFit`: src/Vector.c lines 806-814. -/
def vecShrinkToFitB (s : VB) : Out (Status × VB) := reallocateB s s.v.size

end Zy
