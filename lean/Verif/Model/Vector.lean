import Verif.Base

/-!
# Model of src/Vector.c

Simplifications, stated once for the whole file:

* Memory granularity is one element. `ZYCORE_VECTOR_OFFSET(v, i)` (Vector.c lines 65-66) is the
  element index `i`; an index outside of the block is undefined behaviour. The byte product
  `i * element_size` is not wrapped. (`Model/VectorBytes.lean` has the bytes; property C130.)
* The `vector` pointer itself and pointers receiving results are assumed to be non-null (all functions
  return `ZYAN_STATUS_INVALID_ARGUMENT` first, without effect, if `vector` is null).
* `ZYAN_ASSERT`s are not aborts.
* The storage block is stored inside of the vector value, i.e. two vector structs never share a block.
-/

namespace Zy

/-- A contiguous memory block, in units of elements. -/
structure Block (α : Type) where
  id : Nat
  cells : List (Cell α)
deriving DecidableEq, Repr

/-- `ZyanVector`: include/Zycore/Vector.h lines 75-109 (`allocator = none` is the null pointer,
`hasDtor` tells whether a destructor callback is installed). -/
structure Vec (α : Type) where
  allocator : Option Nat
  growth : Nat
  shrink : Nat
  size : Nat
  cap : Nat
  esz : Nat
  hasDtor : Bool
  data : Option (Block α)
deriving DecidableEq, Repr

/-- Effects of vector operations that are visible to the callbacks (allocator, destructor). -/
inductive Event (α : Type) where
  /-- a successful allocation: allocator, new block, element size and count asked for -/
  | alloc (a blk esz n : Nat)
  /-- a successful reallocation: allocator, old block, new block, element size, count asked for -/
  | realloc (a old new esz n : Nat)
  /-- a successful deallocation: allocator, block, element size and count passed -/
  | dealloc (a blk esz n : Nat)
  /-- a call that the allocator refused -/
  | refused (a : Nat)
  /-- the destructor was called on an element with this content -/
  | destroy (x : Cell α)
deriving DecidableEq, Repr

/-- The environment: the statuses that successive allocator calls return, and what happened. -/
structure World (α : Type) where
  /-- status returned by the `k`-th allocator call -/
  oracle : Nat → Status
  /-- allocator calls made so far -/
  calls : Nat
  /-- next unused block identity -/
  nextBlk : Nat
  /-- events so far, oldest first -/
  trace : List (Event α)

/-- A vector together with its environment. -/
structure VS (α : Type) where
  v : Vec α
  w : World α

variable {α : Type}

/-- Append an event to the trace. -/
def World.log (w : World α) (e : Event α) : World α := { w with trace := w.trace ++ [e] }

/-! ## Memory primitives -/

/-- Read `n` slots starting at slot `i`. -/
def readRange (cells : List (Cell α)) (i n : Nat) : Out (List (Cell α)) :=
  if i + n ≤ cells.length then .ret ((cells.drop i).take n) else .ub .oob

/-- Write the slots `xs` starting at slot `i`. -/
def writeRange (cells : List (Cell α)) (i : Nat) (xs : List (Cell α)) : Out (List (Cell α)) :=
  if i + xs.length ≤ cells.length then
    .ret (cells.take i ++ xs ++ cells.drop (i + xs.length))
  else .ub .oob

/-- `ZYAN_MEMMOVE` of `n` slots inside one block (C standard semantics; the library's own replacement
is modelled in `Model/LibC`). -/
def memmoveCells (cells : List (Cell α)) (dst src n : Nat) : Out (List (Cell α)) :=
  (readRange cells src n).bind fun xs => writeRange cells dst xs

/-- A pointer argument that supplies elements: null, memory unrelated to the vector, or a pointer to
slot `i` of block `blk` (for example obtained from `ZyanVectorGet` on the same vector). -/
inductive Src (α : Type) where
  | null
  | ext (cells : List (Cell α))
  | self (blk i : Nat)
deriving DecidableEq, Repr

/-- The test `!pointer`. -/
def Src.isNull : Src α → Bool
  | .null => true
  | _ => false

/-- `ZYAN_MEMCPY(block + dst, src, n)`: the copy from an element pointer into the block. Reading
through a pointer into a block that the vector no longer owns is a use after free; partial overlap
of source and destination is undefined for `memcpy`. -/
def memcpyIn (b : Block α) (dst : Nat) (src : Src α) (n : Nat) : Out (Block α) :=
  match src with
  | .null => .ub .null
  | .ext cells =>
    (readRange cells 0 n).bind fun xs =>
    (writeRange b.cells dst xs).bind fun cs => .ret { b with cells := cs }
  | .self blk i =>
    if blk = b.id then
      if i < dst + n ∧ dst < i + n ∧ i ≠ dst then .ub .overlap
      else
        (readRange b.cells i n).bind fun xs =>
        (writeRange b.cells dst xs).bind fun cs => .ret { b with cells := cs }
    else .ub .uaf

/-- Run a computation on the data block; a null `data` pointer is a null dereference. -/
def withData {β : Type} (d : Option (Block α)) (f : Block α → Out β) : Out β :=
  match d with
  | none => .ub .null
  | some b => f b

/-! ## Allocator calls -/

/-- Number of whole elements in the block that the default allocator obtains for `n` elements of
`esz` bytes: src/Allocator.c lines 40-57 and 59-77 pass the wrapped product `element_size * n` to
`malloc` / `realloc`. -/
def grantedCells (esz n : Nat) : Nat := mul64 esz n / esz

/-- `allocator->allocate`: src/Allocator.c lines 40-56 (`ZyanAllocatorDefaultAllocate`), with the
outcome chosen by the oracle. -/
def allocate (w : World α) (a esz n : Nat) : Status × Option (Block α) × World α :=
  let st := w.oracle w.calls
  let w := { w with calls := w.calls + 1 }
  if failed st then (st, none, w.log (.refused a))
  else
    (st, some ⟨w.nextBlk, List.replicate (grantedCells esz n) none⟩,
      { w with nextBlk := w.nextBlk + 1 }.log (.alloc a w.nextBlk esz n))

/-- `allocator->reallocate`: src/Allocator.c lines 59-77 (`ZyanAllocatorDefaultReallocate`). On success
the common prefix of the old block is preserved, the rest is indeterminate, and the block may have
moved (modelled as a fresh identity). On failure the old block stays valid. -/
def reallocBlock (w : World α) (a : Nat) (b : Block α) (esz n : Nat) :
    Status × Block α × World α :=
  let st := w.oracle w.calls
  let w := { w with calls := w.calls + 1 }
  if failed st then (st, b, w.log (.refused a))
  else
    let m := grantedCells esz n
    (st, ⟨w.nextBlk, b.cells.take m ++ List.replicate (m - b.cells.length) none⟩,
      { w with nextBlk := w.nextBlk + 1 }.log (.realloc a b.id w.nextBlk esz n))

/-- `allocator->deallocate`: src/Allocator.c lines 80-94 (`ZyanAllocatorDefaultDeallocate`). -/
def deallocate (w : World α) (a : Nat) (b : Block α) (esz n : Nat) : Status × World α :=
  let st := w.oracle w.calls
  let w := { w with calls := w.calls + 1 }
  if failed st then (st, w.log (.refused a))
  else (st, w.log (.dealloc a b.id esz n))

/-! ## Internal functions -/

/-- `ZYCORE_VECTOR_SHOULD_GROW`: src/Vector.c lines 42-43. -/
def shouldGrow (size capacity : Nat) : Bool := size > capacity

/-- `ZYCORE_VECTOR_SHOULD_SHRINK`: src/Vector.c lines 54-55. -/
def shouldShrink (size capacity threshold : Nat) : Bool :=
  threshold ≠ 0 && mul64 size threshold < capacity

/-- The last lines of `ZyanVectorReallocate`: src/Vector.c lines 114-118. The capacity field is
overwritten before the allocator is asked. -/
def reallocTo (s : VS α) (a : Nat) (capacity : Nat) : Out (Status × VS α) :=
  withData s.v.data fun b =>
    let r := reallocBlock s.w a b s.v.esz capacity
    let s' : VS α := { v := { s.v with cap := capacity, data := some r.2.1 }, w := r.2.2 }
    if failed r.1 then .ret (r.1, s') else .ret (stSuccess, s')

/-- `ZyanVectorReallocate`: src/Vector.c lines 84-119. -/
def reallocate (s : VS α) (capacity : Nat) : Out (Status × VS α) :=
  match s.v.allocator with
  | none =>
    if s.v.cap < capacity then .ret (stInsufficient, s) else .ret (stSuccess, s)
  | some a =>
    if capacity < 1 then
      if s.v.cap > 1 then reallocTo s a 1 else .ret (stSuccess, s)
    else reallocTo s a capacity

/-- `ZyanVectorShiftLeft`: src/Vector.c lines 130-144. -/
def shiftLeft (s : VS α) (index count : Nat) : Out (VS α) :=
  withData s.v.data fun b =>
    (memmoveCells b.cells index (add64 index count)
      (sub64 (sub64 s.v.size index) count)).bind fun cs =>
    .ret { s with v := { s.v with data := some { b with cells := cs } } }

/-- `ZyanVectorShiftRight`: src/Vector.c lines 155-169. -/
def shiftRight (s : VS α) (index count : Nat) : Out (VS α) :=
  withData s.v.data fun b =>
    (memmoveCells b.cells (add64 index count) index (sub64 s.v.size index)).bind fun cs =>
    .ret { s with v := { s.v with data := some { b with cells := cs } } }

/-- The destructor loops `for (i = index; i < index + n; ++i) vector->destructor(OFFSET(i))` of
src/Vector.c lines 246-252, 586-592 and 763-769. The destructor receives the element; it does not
modify the vector (`Model/VectorDtor.lean` has destructors that write to the element; property C160). -/
def destroyLoop (s : VS α) (i : Nat) : Nat → Out (VS α)
  | 0 => .ret s
  | n + 1 =>
    withData s.v.data fun b =>
      match b.cells[i]? with
      | none => .ub .oob
      | some x => destroyLoop { s with w := s.w.log (.destroy x) } (i + 1) n

/-- `if (vector->destructor) for ...`: the guarded destructor loop over `[lo, hi)`. -/
def runDtors (s : VS α) (lo hi : Nat) : Out (VS α) :=
  if s.v.hasDtor then destroyLoop s lo (hi - lo) else .ret s

/-! ## Constructor and destructor -/

/-- `ZyanVectorInitEx`: src/Vector.c lines 192-214. On an argument error the vector is untouched
(`none`). If the allocator fails, `data` is null and the failure is returned. -/
def vecInitEx (w : World α) (esz capacity : Nat) (hasDtor : Bool) (allocator : Option Nat)
    (growth shrink : Nat) : Status × Option (Vec α) × World α :=
  match allocator with
  | none => (stInvalidArgument, none, w)
  | some a =>
    if esz = 0 ∨ growth < 1 then (stInvalidArgument, none, w)
    else
      let cap := max 1 capacity
      let r := allocate w a esz cap
      (r.1, some { allocator := some a, growth := growth, shrink := shrink, size := 0, cap := cap,
                   esz := esz, hasDtor := hasDtor, data := r.2.1 }, r.2.2)

/-- `ZyanVectorInit`: src/Vector.c lines 183-188, with allocator number 0 as the default allocator and
the constants of Vector.h lines 58-63 (growth factor 2, shrink threshold 4). -/
def vecInit (w : World α) (esz capacity : Nat) (hasDtor : Bool) :
    Status × Option (Vec α) × World α :=
  vecInitEx w esz capacity hasDtor (some 0) 2 4

/-- `ZyanVectorInitCustomBuffer`: src/Vector.c lines 216-234. `buffer` is the block the caller passes
(`none` is null); `capacity` is what the caller claims. -/
def vecInitBuffer (esz : Nat) (buffer : Option (Block α)) (capacity : Nat) (hasDtor : Bool) :
    Status × Option (Vec α) :=
  match buffer with
  | none => (stInvalidArgument, none)
  | some b =>
    if esz = 0 ∨ capacity = 0 then (stInvalidArgument, none)
    else
      (stSuccess, some { allocator := none, growth := 1, shrink := 0, size := 0, cap := capacity,
                         esz := esz, hasDtor := hasDtor, data := some b })

/-- `ZyanVectorDestroy`: src/Vector.c lines 236-263. -/
def vecDestroy (s : VS α) : Out (Status × VS α) :=
  (runDtors s 0 s.v.size).bind fun s =>
  match s.v.allocator with
  | some a =>
    if s.v.cap ≠ 0 then
      withData s.v.data fun b =>
        let r := deallocate s.w a b s.v.esz s.v.cap
        if failed r.1 then .ret (r.1, { s with w := r.2 })
        else .ret (stSuccess, { v := { s.v with data := none }, w := r.2 })
    else .ret (stSuccess, { s with v := { s.v with data := none } })
  | none => .ret (stSuccess, { s with v := { s.v with data := none } })

/-- The copy at the end of both duplicate functions: src/Vector.c lines 295-298 and 320-323. -/
def dupCopy (dst src : Vec α) : Out (Vec α) :=
  withData src.data fun sb =>
  withData dst.data fun db =>
    (readRange sb.cells 0 src.size).bind fun xs =>
    (writeRange db.cells 0 xs).bind fun cs =>
    .ret { dst with data := some { db with cells := cs }, size := src.size }

/-- `ZyanVectorDuplicateEx`: src/Vector.c lines 280-299. -/
def vecDuplicateEx (w : World α) (src : Vec α) (capacity : Nat) (allocator : Option Nat)
    (growth shrink : Nat) : Out (Status × Option (Vec α) × World α) :=
  let r := vecInitEx w src.esz (max capacity src.size) src.hasDtor allocator growth shrink
  if failed r.1 then .ret r
  else match r.2.1 with
    | none => .ret r
    | some d => (dupCopy d src).bind fun d' => .ret (stSuccess, some d', r.2.2)

/-- `ZyanVectorDuplicateCustomBuffer`: src/Vector.c lines 301-324. -/
def vecDuplicateBuffer (src : Vec α) (buffer : Option (Block α)) (capacity : Nat) :
    Out (Status × Option (Vec α)) :=
  if capacity < src.size then .ret (stInsufficient, none)
  else
    let r := vecInitBuffer src.esz buffer capacity src.hasDtor
    if failed r.1 then .ret r
    else match r.2 with
      | none => .ret r
      | some d => (dupCopy d src).bind fun d' => .ret (stSuccess, some d')

/-! ## Element access -/

/-- `ZyanVectorGet` / `ZyanVectorGetMutable`: src/Vector.c lines 330-354; the result is the slot index
the returned pointer denotes, `none` for a null result. -/
def vecGet (s : VS α) (index : Nat) : Option Nat := if index ≥ s.v.size then none else some index

/-- `ZyanVectorGetPointer(Mutable)`: src/Vector.c lines 356-392. -/
def vecGetPointer (s : VS α) (index : Nat) : Status × Option Nat :=
  if index ≥ s.v.size then (stOutOfRange, none) else (stSuccess, some index)

/-- Dereference of a pointer obtained from the accessors above. -/
def vecDeref (s : VS α) (i : Nat) : Out (Cell α) :=
  withData s.v.data fun b =>
    match b.cells[i]? with
    | none => .ub .oob
    | some x => .ret x

/-- `ZyanVectorSet`: src/Vector.c lines 394-416. -/
def vecSet (s : VS α) (index : Nat) (value : Src α) : Out (Status × VS α) :=
  if value.isNull then .ret (stInvalidArgument, s)
  else if index ≥ s.v.size then .ret (stOutOfRange, s)
  else
    (runDtors s index (index + 1)).bind fun s =>
    withData s.v.data fun b =>
    (memcpyIn b index value 1).bind fun b' =>
    .ret (stSuccess, { s with v := { s.v with data := some b' } })

/-! ## Insertion -/

/-- The growth step shared by the insertion functions: src/Vector.c lines 432-436, 463-467 and
507-511. -/
def growFor (s : VS α) (need : Nat) : Out (Status × VS α) :=
  if shouldGrow need s.v.cap then reallocate s (max 1 (mul64 need s.v.growth))
  else .ret (stSuccess, s)

/-- `ZyanVectorPushBack`: src/Vector.c lines 422-444. -/
def vecPushBack (s : VS α) (element : Src α) : Out (Status × VS α) :=
  if element.isNull then .ret (stInvalidArgument, s)
  else
    (growFor s (add64 s.v.size 1)).bind fun r =>
    if failed r.1 then .ret r
    else
      let s := r.2
      withData s.v.data fun b =>
      (memcpyIn b s.v.size element 1).bind fun b' =>
      .ret (stSuccess, { s with v := { s.v with data := some b', size := add64 s.v.size 1 } })

/-- `ZyanVectorInsertRange`: src/Vector.c lines 451-482. -/
def vecInsertRange (s : VS α) (index : Nat) (elements : Src α) (count : Nat) :
    Out (Status × VS α) :=
  if elements.isNull ∨ count = 0 then .ret (stInvalidArgument, s)
  else if index > s.v.size then .ret (stOutOfRange, s)
  else
    (growFor s (add64 s.v.size count)).bind fun r =>
    if failed r.1 then .ret r
    else
      let s := r.2
      (if index < s.v.size then shiftRight s index count else .ret s).bind fun s =>
      withData s.v.data fun b =>
      (memcpyIn b index elements count).bind fun b' =>
      .ret (stSuccess, { s with v := { s.v with data := some b', size := add64 s.v.size count } })

/-- `ZyanVectorInsert`: src/Vector.c lines 446-449. -/
def vecInsert (s : VS α) (index : Nat) (element : Src α) : Out (Status × VS α) :=
  vecInsertRange s index element 1

/-- `ZyanVectorEmplaceEx`: src/Vector.c lines 494-529. The returned pointer `*element` denotes slot
`index`. -/
def vecEmplaceEx (s : VS α) (index : Nat) (ctor : Ctor α) : Out (Status × VS α) :=
  if index > s.v.size then .ret (stOutOfRange, s)
  else
    (growFor s (add64 s.v.size 1)).bind fun r =>
    if failed r.1 then .ret r
    else
      let s := r.2
      (if index < s.v.size then shiftRight s index 1 else .ret s).bind fun s =>
      match ctor with
      | none => .ret (stSuccess, { s with v := { s.v with size := add64 s.v.size 1 } })
      | some c =>
        withData s.v.data fun b =>
        match b.cells[index]? with
        | none => .ub .oob
        | some x =>
          let r := c x
          let b' : Block α := { b with cells := b.cells.set index r.2 }
          if failed r.1 then .ret (r.1, { s with v := { s.v with data := some b' } })
          else .ret (stSuccess,
            { s with v := { s.v with data := some b', size := add64 s.v.size 1 } })

/-- `ZyanVectorEmplace`: src/Vector.c lines 484-492. -/
def vecEmplace (s : VS α) (ctor : Ctor α) : Out (Status × VS α) := vecEmplaceEx s s.v.size ctor

/-! ## Utils -/

/-- `ZyanVectorSwapElements`: src/Vector.c lines 535-562. The slot behind the last element is the
temporary. (`memcpy` of a slot onto itself for equal indices is treated as a no-op.) -/
def vecSwap (s : VS α) (i j : Nat) : Out (Status × VS α) :=
  if i ≥ s.v.size ∨ j ≥ s.v.size then .ret (stOutOfRange, s)
  else if s.v.size = s.v.cap then .ret (stInsufficient, s)
  else
    withData s.v.data fun b =>
    (memmoveCells b.cells s.v.size i 1).bind fun cs =>
    (memmoveCells cs i j 1).bind fun cs =>
    (memmoveCells cs j s.v.size 1).bind fun cs =>
    .ret (stSuccess, { s with v := { s.v with data := some { b with cells := cs } } })

/-! ## Deletion -/

/-- The shrink step at the end of both deletion functions: src/Vector.c lines 598-604 and 624-630. -/
def shrinkAfter (s : VS α) : Out (Status × VS α) :=
  if shouldShrink s.v.size s.v.cap s.v.shrink then
    reallocate s (max 1 (mul64 s.v.size s.v.growth))
  else .ret (stSuccess, s)

/-- `ZyanVectorDeleteRange`: src/Vector.c lines 573-605. -/
def vecDeleteRange (s : VS α) (index count : Nat) : Out (Status × VS α) :=
  if count = 0 then .ret (stInvalidArgument, s)
  else if add64 index count > s.v.size then .ret (stOutOfRange, s)
  else
    (runDtors s index (add64 index count)).bind fun s =>
    (if add64 index count < s.v.size then shiftLeft s index count else .ret s).bind fun s =>
    shrinkAfter { s with v := { s.v with size := sub64 s.v.size count } }

/-- `ZyanVectorDelete`: src/Vector.c lines 568-571. -/
def vecDelete (s : VS α) (index : Nat) : Out (Status × VS α) := vecDeleteRange s index 1

/-- `ZyanVectorPopBack`: src/Vector.c lines 607-631. -/
def vecPopBack (s : VS α) : Out (Status × VS α) :=
  if s.v.size = 0 then .ret (stOutOfRange, s)
  else
    (runDtors s (s.v.size - 1) s.v.size).bind fun s =>
    shrinkAfter { s with v := { s.v with size := s.v.size - 1 } }

/-! ## Searching -/

/-- The loop of `ZyanVectorFindEx`: src/Vector.c lines 674-681; `n` iterations from slot `i`. -/
def findLoop (cells : List (Cell α)) (eq : Cell α → Bool) (i : Nat) : Nat → Out (Status × Int)
  | 0 => .ret (stFalse, -1)
  | n + 1 =>
    match cells[i]? with
    | none => .ub .oob
    | some x => if eq x then .ret (stTrue, toI64 i) else findLoop cells eq (i + 1) n

/-- `ZyanVectorFindEx`: src/Vector.c lines 653-685. `eq` is the comparison callback applied to the
searched element. The second component is `*found_index` (`none` when it is not written). -/
def vecFindEx (s : VS α) (eq : Cell α → Bool) (index count : Nat) : Out (Status × Option Int) :=
  if add64 index count > s.v.size ∨ index = s.v.size then .ret (stOutOfRange, none)
  else if count = 0 then .ret (stFalse, some (-1))
  else
    withData s.v.data fun b =>
    (findLoop b.cells eq index (add64 index count - index)).bind fun r => .ret (r.1, some r.2)

/-- `ZyanVectorFind`: src/Vector.c lines 642-651. -/
def vecFind (s : VS α) (eq : Cell α → Bool) : Out (Status × Option Int) :=
  vecFindEx s eq 0 s.v.size

/-- The loop of `ZyanVectorBinarySearchEx`: src/Vector.c lines 719-740. `log` lists the slots passed to
the comparison callback, in order. Each iteration shortens the range, `fuel` bounds their number;
running out of fuel is `ub diverge`. -/
def bsearchLoop (cells : List (Cell α)) (cmp : Cell α → Int) :
    Nat → Int → Int → Status → List Nat → Out (Status × Int × List Nat)
  | 0, _, _, _, _ => .ub .diverge
  | fuel + 1, l, h, status, log =>
    if l ≤ h then
      let mid := toU64 (l + (h - l) / 2)
      match cells[mid]? with
      | none => .ub .oob
      | some x =>
        if cmp x < 0 then
          bsearchLoop cells cmp fuel (toI64 (add64 mid 1)) h status (log ++ [mid])
        else
          bsearchLoop cells cmp fuel l (toI64 (sub64 mid 1))
            (if cmp x = 0 then stTrue else status) (log ++ [mid])
    else .ret (status, l, log)

/-- `ZyanVectorBinarySearchEx`: src/Vector.c lines 698-741. The result is the status, `*found_index`
(if written) and the list of slots that were compared. -/
def vecBinarySearchEx (s : VS α) (cmp : Cell α → Int) (index count : Nat) :
    Out (Status × Option Nat × List Nat) :=
  if (index ≥ s.v.size ∧ count > 0) ∨ add64 index count > s.v.size then
    .ret (stOutOfRange, none, [])
  else if count = 0 then .ret (stFalse, some index, [])
  else
    withData s.v.data fun b =>
    (bsearchLoop b.cells cmp (count + 1) (toI64 index) (toI64 (sub64 (add64 index count) 1))
      stFalse []).bind fun r =>
    .ret (r.1, some (toU64 r.2.1), r.2.2)

/-- `ZyanVectorBinarySearch`: src/Vector.c lines 687-696. -/
def vecBinarySearch (s : VS α) (cmp : Cell α → Int) : Out (Status × Option Nat × List Nat) :=
  vecBinarySearchEx s cmp 0 s.v.size

/-! ## Memory management -/

/-- The initializer loop of `ZyanVectorResizeEx`: src/Vector.c lines 780-783; `n` copies from slot `i`. -/
def fillLoop (b : Block α) (init : Src α) (i : Nat) : Nat → Out (Block α)
  | 0 => .ret b
  | n + 1 => (memcpyIn b i init 1).bind fun b => fillLoop b init (i + 1) n

/-- `ZyanVectorResizeEx`: src/Vector.c lines 752-789. -/
def vecResizeEx (s : VS α) (size : Nat) (init : Src α) : Out (Status × VS α) :=
  if size = s.v.size then .ret (stSuccess, s)
  else
    (if size < s.v.size then runDtors s size s.v.size else .ret s).bind fun s =>
    (if shouldGrow size s.v.cap || shouldShrink size s.v.cap s.v.shrink then
       reallocate s (mul64 size s.v.growth)
     else .ret (stSuccess, s)).bind fun r =>
    if failed r.1 then .ret r
    else
      let s := r.2
      if ¬ init.isNull ∧ size > s.v.size then
        withData s.v.data fun b =>
        (fillLoop b init s.v.size (size - s.v.size)).bind fun b' =>
        .ret (stSuccess, { s with v := { s.v with data := some b', size := size } })
      else .ret (stSuccess, { s with v := { s.v with size := size } })

/-- `ZyanVectorResize`: src/Vector.c lines 747-750. -/
def vecResize (s : VS α) (size : Nat) : Out (Status × VS α) := vecResizeEx s size .null

/-- `ZyanVectorClear`: src/Vector.c lines 633-636. -/
def vecClear (s : VS α) : Out (Status × VS α) := vecResizeEx s 0 .null

/-- `ZyanVectorReserve`: src/Vector.c lines 791-804. -/
def vecReserve (s : VS α) (capacity : Nat) : Out (Status × VS α) :=
  if capacity > s.v.cap then
    (reallocate s capacity).bind fun r =>
    if failed r.1 then .ret r else .ret (stSuccess, r.2)
  else .ret (stSuccess, s)

/-- `ZyanVectorShrinkToFit`: src/Vector.c lines 806-814. -/
def vecShrinkToFit (s : VS α) : Out (Status × VS α) := reallocate s s.v.size

/-- `ZyanVectorGetCapacity`: src/Vector.c lines 820-830. -/
def vecGetCapacity (s : VS α) : Nat := s.v.cap

/-- `ZyanVectorGetSize`: src/Vector.c lines 832-842. -/
def vecGetSize (s : VS α) : Nat := s.v.size

end Zy
