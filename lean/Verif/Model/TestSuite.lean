import Verif.Model.VectorEach
import Verif.Model.VectorDtor
import Verif.Model.Macros

/-!
# Model of tests/Vector.cpp

The tests of the library as programs over the modelled functions. The numbers that the tests fix (the number of
elements 100, the values of the elements, the results of `rand`) are parameters here.

A test returns whether all of its `EXPECT_` and `ASSERT_` conditions hold, so it passes if its outcome is `ret true`.
A failed `ASSERT_` ends a test; in the model the test goes on, with the result false in any case. Simplifications: the
default allocator is allocator 0 of the world; `m_buffer` (a `std::vector` whose storage is reserved and does not move)
is a block of the test; all tests have a world of their own.
-/

namespace Zy

open Spec

/-- Elements of the tests: `ZyanU64`. -/
abbrev TU64 := BitVec 64

/-- A `ZyanU64` variable with the value of a counter. -/
def tnum (i : Nat) : Cell TU64 := some (BitVec.ofNat 64 i)

variable {α : Type}

/-- A loop over `0 .. n - 1` whose body only checks conditions. -/
def checkAll (f : Nat → Out Bool) : Nat → Out Bool
  | 0 => .ret true
  | n + 1 => (checkAll f n).bind fun a => (f n).bind fun b => .ret (a && b)

/-! ## Fixtures -/

/-- `VectorTestBase::SetUp`: tests/Vector.cpp lines 57-72, with `m_test_size = n`. -/
def testSetUp (fixed : Bool) (w : World TU64) (buf : Block TU64) (n : Nat) : Bool × Option (VS TU64) :=
  if fixed then
    let r := vecInitBuffer 8 (some buf) n false
    (r.1 == stSuccess, r.2.map fun v => ⟨v, w⟩)
  else
    let r := vecInit w 8 n false
    (r.1 == stSuccess, r.2.1.map fun v => ⟨v, r.2.2⟩)

/-- The loop of `VectorTestFilled::SetUp`: lines 99-102, from `i` with `k` rounds left. -/
def testFill (s : VS TU64) (i : Nat) : Nat → Out (Bool × VS TU64)
  | 0 => .ret (true, s)
  | k + 1 =>
    (vecPushBack s (.ext [tnum i])).bind fun r =>
    (testFill r.2 (i + 1) k).bind fun q => .ret (r.1 == stSuccess && q.1, q.2)

/-- A test of the fixture `VectorTestBase` (lines 49-78), or `VectorTestFilled` (lines 88-104) if `filled`: `SetUp`,
the body of the test, and `TearDown` (lines 74-77). -/
def withFixture (filled fixed : Bool) (w : World TU64) (buf : Block TU64) (n : Nat)
    (body : VS TU64 → Out (Bool × VS TU64)) : Out Bool :=
  match testSetUp fixed w buf n with
  | (ok, some s) =>
    (if filled then testFill s 0 n else .ret (true, s)).bind fun f =>
    (body f.2).bind fun r =>
    (vecDestroy r.2).bind fun d =>
    .ret (ok && f.1 && r.1 && (d.1 == stSuccess))
  | (_, none) => .ret false

/-! ## Initialisation -/

/-- The conditions on a new vector in lines 148-154, 171-177 and 197-203. -/
def checkNew (v : Vec α) (allocator : Option Nat) (growth shrink cap esz : Nat) : Bool :=
  v.allocator == allocator && v.growth == growth && v.shrink == shrink && v.size == 0 && v.cap == cap && v.esz == esz &&
    v.data.isSome

/-- `TEST(VectorTest, InitBasic)` and `TEST(VectorTest, InitAdvanced)`: lines 142-186. The first uses
`ZyanVectorInit`, which is `ZyanVectorInitEx` with the default growth factor and shrink threshold; `e1` and `e2` are
the sizes of the elements, `c` is the custom capacity. -/
def testInit (init : World α → Nat → Nat → Status × Option (Vec α) × World α) (growth shrink e1 e2 c : Nat)
    (w : World α) : Out Bool :=
  let r := init w e1 0
  match r.2.1 with
  | none => .ret false
  | some v =>
    (vecDestroy ⟨v, r.2.2⟩).bind fun d =>
    let q := init d.2.w e2 c
    match q.2.1 with
    | none => .ret false
    | some v' =>
      (vecDestroy ⟨v', q.2.2⟩).bind fun d' =>
      .ret (r.1 == stSuccess && checkNew v (some 0) growth shrink 1 e1 && (d.1 == stSuccess) && (q.1 == stSuccess) &&
        v'.cap == max 1 c && (d'.1 == stSuccess))

/-- `TEST(VectorTest, InitCustomBuffer)`: lines 188-206, with a buffer of `n` elements of `e` bytes. -/
def testInitBuffer (e n : Nat) (buf : Block α) (w : World α) : Out Bool :=
  let r := vecInitBuffer e (some buf) 0 false
  let q := vecInitBuffer e (some buf) n false
  match q.2 with
  | none => .ret false
  | some v =>
    (vecDestroy ⟨v, w⟩).bind fun d =>
    .ret (r.1 == stInvalidArgument && (q.1 == stSuccess) && checkNew v none 1 0 n e &&
      ((v.data.map Block.id) == some buf.id) && (d.1 == stSuccess))

/-! ## Destructors -/

/-- `FreeZyanU16`: lines 132-136. -/
def freeU16 : DtorFn (BitVec 16) := fun _ _ => some 0

/-- Slot `i` of the buffer, which the vector uses as its storage. -/
def bufferAt (s : VS α) (i : Nat) : Out (Cell α) :=
  withData s.v.data fun b => match b.cells[i]? with | some x => .ret x | none => .ub .oob

/-- The loops of lines 217-222 and 237-242, from `i` with `k` rounds left; the element is `i + c` in 16 bits. -/
def testPushU16 (c : Nat) (s : VS (BitVec 16)) (i : Nat) : Nat → Out (Bool × VS (BitVec 16))
  | 0 => .ret (true, s)
  | k + 1 =>
    (vecPushBack s (.ext [some (BitVec.ofNat 16 (i + c))])).bind fun r =>
    (bufferAt r.2 i).bind fun x =>
    (testPushU16 c r.2 (i + 1) k).bind fun q =>
    .ret (r.1 == stSuccess && (x == some (BitVec.ofNat 16 (i + c))) && q.1, q.2)

/-- `TEST(VectorTest, Destructor)`: lines 208-250, with a buffer of `n` elements (16 in the test) and the deletion of
the three elements from `n - 4` on. -/
def testDestructor (n : Nat) (buf : Block (BitVec 16)) (w : World (BitVec 16)) : Out Bool :=
  let r := vecInitBuffer 2 (some buf) n true
  match r.2 with
  | none => .ret false
  | some v =>
    (testPushU16 0 ⟨v, w⟩ 0 n).bind fun p =>
    (vecPopBackBy freeU16 p.2).bind fun o =>
    (bufferAt o.2 (n - 1)).bind fun x =>
    (vecDeleteRangeBy freeU16 o.2 (n - 4) 3).bind fun e =>
    (bufferAt e.2 (n - 4)).bind fun x1 =>
    (bufferAt e.2 (n - 3)).bind fun x2 =>
    (bufferAt e.2 (n - 2)).bind fun x3 =>
    (vecClearBy freeU16 e.2).bind fun c =>
    (checkAll (fun i => (bufferAt c.2 i).bind fun y => .ret (y == some 0)) n).bind fun z =>
    (testPushU16 1 c.2 0 n).bind fun q =>
    (vecDestroyBy freeU16 q.2).bind fun d =>
    (checkAll (fun i => withData d.2.2 fun b =>
      match b.cells[i]? with | some y => .ret (y == some 0) | none => .ub .oob) n).bind fun z' =>
    .ret (r.1 == stSuccess && p.1 && (o.1 == stSuccess) && (x == some 0) && (e.1 == stSuccess) && (x1 == some 0) &&
      (x2 == some 0) && (x3 == some 0) && (c.1 == stSuccess) && z && q.1 && (d.1 == stSuccess) && z')

/-! ## Growing and shrinking -/

/-- The first loop of `TEST(VectorTest, TestGrowingAndShrinking)`: lines 259-268, from `i` with `k` rounds left. -/
def testGrow (s : VS TU64) (i : Nat) : Nat → Out (Bool × VS TU64)
  | 0 => .ret (true, s)
  | k + 1 =>
    let expected := if s.v.cap < i + 1 then (s.v.cap + 1) * s.v.growth else s.v.cap
    (vecPushBack s (.ext [tnum i])).bind fun r =>
    (testGrow r.2 (i + 1) k).bind fun q => .ret (r.1 == stSuccess && (r.2.v.cap == expected) && q.1, q.2)

/-- The second loop: lines 270-281, with `k` elements left. -/
def testShrink (s : VS TU64) : Nat → Out (Bool × VS TU64)
  | 0 => .ret (true, s)
  | k + 1 =>
    let expected := if s.v.shrink ≠ 0 ∧ k * s.v.shrink < s.v.cap then max 1 (k * s.v.growth) else s.v.cap
    (vecDelete s k).bind fun r =>
    (testShrink r.2 k).bind fun q => .ret (r.1 == stSuccess && (r.2.v.cap == expected) && q.1, q.2)

/-- `TEST(VectorTest, TestGrowingAndShrinking)`: lines 252-284, with `m` elements (100 in the test). -/
def testGrowingAndShrinking (m : Nat) (w : World TU64) : Out Bool :=
  let r := vecInit w 8 0 false
  match r.2.1 with
  | none => .ret false
  | some v =>
    (testGrow ⟨v, r.2.2⟩ 0 m).bind fun g =>
    (testShrink g.2 m).bind fun h =>
    (vecDestroy h.2).bind fun d =>
    .ret (r.1 == stSuccess && g.1 && h.1 && (d.1 == stSuccess))

/-! ## Tests with a fixture -/

/-- `TEST_P(VectorTestFilled, ElementAccess)`: lines 286-314. `x` is `element_in` (1337), `y` is the value that is
written through the pointer (42). -/
def testElementAccess (fixed : Bool) (x y : TU64) (s : VS TU64) : Out (Bool × VS TU64) :=
  (vecSet s s.v.size (.ext [some x])).bind fun r1 =>
  (vecSet r1.2 (r1.2.v.size - 1) (.ext [some x])).bind fun r2 =>
  let s := r2.2
  (vecGetMacro s (s.v.size - 1)).bind fun g1 =>
  (withData s.v.data fun b => .ret b.id).bind fun blk =>
  let p := vecGetPointer s (s.v.size - 1)
  (vecDeref s (p.2.getD 0)).bind fun g2 =>
  (updateThrough (p.2.map fun i => ⟨blk, i⟩) (fun _ => some y) s).bind fun s' =>
  (vecGetMacro s' (s'.v.size - 1)).bind fun g3 =>
  (bufferAt s' (s'.v.size - 1)).bind fun g4 =>
  .ret (r1.1 == stOutOfRange && (r2.1 == stSuccess) && (vecGetPointer s s.v.size).1 == stOutOfRange &&
    (g1 == some x) && p.1 == stSuccess && (g2 == some x) && (g3 == some y) && (!fixed || g3 == g4), s')

/-- `TEST_P(VectorTestFilled, PushPop)`: lines 316-338. `x` is `element_in` (1337). -/
def testPushPop (fixed : Bool) (x : TU64) (s : VS TU64) : Out (Bool × VS TU64) :=
  let size := s.v.size
  if !fixed then
    (vecPushBack s (.ext [some x])).bind fun r1 =>
    (vecGetMacro r1.2 size).bind fun g =>
    (vecPopBack r1.2).bind fun r2 =>
    .ret (r1.1 == stSuccess && (r1.2.v.size == size + 1) && (g == some x) && (r2.1 == stSuccess) &&
      (r2.2.v.size == size), r2.2)
  else
    (vecPushBack s (.ext [some x])).bind fun r1 =>
    (vecPopBack r1.2).bind fun r2 =>
    (vecPushBack r2.2 (.ext [some x])).bind fun r3 =>
    (vecGetMacro r3.2 (size - 1)).bind fun g =>
    .ret (r1.1 == stInsufficient && (r1.2.v.size == size) && (r2.1 == stSuccess) && (r2.2.v.size == size - 1) &&
      (r3.1 == stSuccess) && (r3.2.v.size == size) && (g == some x), r3.2)

/-- The second half of `TEST_P(VectorTestFilled, Insert)`: lines 357-378. `xs` are the elements (four in the test). -/
def testInsertRest (xs : List TU64) (s : VS TU64) : Out (Bool × VS TU64) :=
  let size := s.v.size
  let half := size / 2
  (vecInsertRange s half (.ext (xs.map some)) xs.length).bind fun r =>
  (checkAll (fun i =>
    (vecGetMacro r.2 i).bind fun x =>
    .ret (if half ≤ i ∧ i < half + xs.length then x == xs[i - half]?
      else if i < half then x == tnum i else x == tnum (i - xs.length))) r.2.v.size).bind fun z =>
  .ret (r.1 == stSuccess && (r.2.v.size == size + xs.length) && z, r.2)

/-- `TEST_P(VectorTestFilled, Insert)`: lines 340-379. -/
def testInsert (fixed : Bool) (xs : List TU64) (s : VS TU64) : Out (Bool × VS TU64) :=
  if fixed then
    (vecInsertRange s (s.v.size / 2) (.ext (xs.map some)) xs.length).bind fun r1 =>
    (vecResize r1.2 (s.v.size - xs.length)).bind fun r2 =>
    (testInsertRest xs r2.2).bind fun q =>
    .ret (r1.1 == stInsufficient && (r2.1 == stSuccess) && (r2.2.v.size == s.v.size - xs.length) && q.1, q.2)
  else testInsertRest xs s

/-- `TEST_P(VectorTestFilled, Delete)`: lines 381-408. -/
def testDelete (s : VS TU64) : Out (Bool × VS TU64) :=
  (vecDeleteRange s s.v.size 1).bind fun r1 =>
  (vecDeleteRange r1.2 1 r1.2.v.size).bind fun r2 =>
  let size := r2.2.v.size
  let half := size / 2
  let count := half / 2
  (vecDeleteRange r2.2 half count).bind fun r3 =>
  (checkAll (fun i =>
    (vecGetMacro r3.2 i).bind fun x =>
    .ret (if half ≤ i ∧ i < half + count then x == tnum (i + count)
      else if i < half then x == tnum i else x == tnum (i - count))) r3.2.v.size).bind fun z =>
  .ret (r1.1 == stOutOfRange && (r2.1 == stOutOfRange) && (r3.1 == stSuccess) && (r3.2.v.size == size - count) && z,
    r3.2)

/-- `ZyanEqualsNumeric64` as the callback for the element `x`. An indeterminate element equals nothing. -/
def equalTo (x : TU64) : Cell TU64 → Bool
  | some y => equalsNumeric y x == 1
  | none => false

/-- `TEST_P(VectorTestFilled, Find)`: lines 410-433. `x` is the element that is not found (1337). -/
def testFind (x : TU64) (s : VS TU64) : Out (Bool × VS TU64) :=
  (vecFind s (equalTo (BitVec.ofNat 64 (s.v.size / 2)))).bind fun r1 =>
  (vecFind s (equalTo x)).bind fun r2 =>
  (vecFindEx s (equalTo x) 0 0).bind fun r3 =>
  (vecFindEx s (equalTo x) 0 (s.v.size + 1)).bind fun r4 =>
  (vecFindEx s (equalTo x) 1 s.v.size).bind fun r5 =>
  .ret (r1.1 == stTrue && (r1.2 == some (s.v.size / 2 : Nat)) && (r2.1 == stFalse) && (r2.2 == some (-1)) &&
    (r3.1 == stFalse) && (r4.1 == stOutOfRange) && (r5.1 == stOutOfRange), s)

/-- `ZyanCompareNumeric64` on elements of the vector, as a number; indeterminate elements do not occur. -/
def compareU64 (x y : Cell TU64) : Int :=
  match x, y with
  | some a, some b => (compareNumeric a b).toInt
  | some _, none => 1
  | none, some _ => -1
  | none, none => 0

/-- The first loop of `TEST_P(VectorTestBase, BinarySearch)`: lines 438-447, with the random numbers `xs`. -/
def testSortIn (s : VS TU64) : List TU64 → Out (Bool × VS TU64)
  | [] => .ret (true, s)
  | x :: xs =>
    (vecBinarySearch s fun y => compareU64 y (some x)).bind fun r =>
    match r.2.1 with
    | none => .ub .indet
    | some p =>
      (vecInsert s p (.ext [some x])).bind fun q =>
      (testSortIn q.2 xs).bind fun z => .ret (succeeded r.1 && (q.1 == stSuccess) && z.1, z.2)

/-- `TEST_P(VectorTestBase, BinarySearch)`: lines 435-467, with the random numbers `xs` (100 in the test) and the
element `x` (1337). -/
def testBinarySearch (xs : List TU64) (x : TU64) (s : VS TU64) : Out (Bool × VS TU64) :=
  (vecReserve s xs.length).bind fun r0 =>
  (testSortIn r0.2 xs).bind fun r1 =>
  let s := r1.2
  (vecGetMacro s 0).bind fun _ =>
  (checkAll (fun i =>
    (vecGetMacro s i).bind fun a => (vecGetMacro s (i + 1)).bind fun b =>
    .ret (match a, b with | some a, some b => decide (a ≤ b) | _, _ => false)) (s.v.size - 1)).bind fun z =>
  (vecBinarySearchEx s (fun y => compareU64 y (some x)) 0 (xs.length + 1)).bind fun r2 =>
  (vecBinarySearchEx s (fun y => compareU64 y (some x)) 1 xs.length).bind fun r3 =>
  .ret (r0.1 == stSuccess && r1.1 && (s.v.size == xs.length) && z && (r2.1 == stOutOfRange) && (r3.1 == stOutOfRange), s)

/-- The loop of `TEST_P(VectorTestBase, Emplace)`: lines 473-478, from `i` with `k` rounds left. The pointer that
`ZyanVectorEmplace` returns denotes the slot behind the old elements. -/
def testEmplaces (s : VS TU64) (i : Nat) : Nat → Out (Bool × VS TU64)
  | 0 => .ret (true, s)
  | k + 1 =>
    (vecEmplace s none).bind fun r =>
    (withData r.2.v.data fun b => .ret b.id).bind fun blk =>
    (updateThrough (some ⟨blk, s.v.size⟩) (fun _ => tnum i) r.2).bind fun s' =>
    (testEmplaces s' (i + 1) k).bind fun q => .ret (r.1 == stSuccess && q.1, q.2)

/-- `InitZyanU64`: lines 119-123, for the value `x` (1337). -/
def initU64 (x : TU64) : Ctor TU64 := some fun _ => (stSuccess, some x)

/-- `TEST_P(VectorTestBase, Emplace)`: lines 469-490, with `m` elements (10 in the test) and the position `j` (5). -/
def testEmplace (m j : Nat) (x : TU64) (s : VS TU64) : Out (Bool × VS TU64) :=
  (testEmplaces s 0 m).bind fun r1 =>
  (checkAll (fun i => (vecGetMacro r1.2 i).bind fun y => .ret (y == tnum i)) r1.2.v.size).bind fun z =>
  (vecEmplaceEx r1.2 j (initU64 x)).bind fun r2 =>
  (vecDeref r2.2 j).bind fun g1 =>
  (vecGetMacro r2.2 j).bind fun g2 =>
  .ret (r1.1 && (r1.2.v.size == m) && z && (r2.1 == stSuccess) && (g1 == some x) && (g2 == some x), r2.2)

/-- `TEST_P(VectorTestFilled, SwapElements)`: lines 492-519. -/
def testSwap (s : VS TU64) : Out (Bool × VS TU64) :=
  (vecSwap s 0 s.v.size).bind fun r1 =>
  (vecSwap r1.2 s.v.size 0).bind fun r2 =>
  (vecSwap r2.2 0 (s.v.size - 1)).bind fun r3 =>
  (vecPopBack r3.2).bind fun r4 =>
  let t := r4.2
  let p1 := vecGetPointer t 0
  let p2 := vecGetPointer t (t.v.size - 1)
  (vecDeref t (p1.2.getD 0)).bind fun b1 =>
  (vecDeref t (p2.2.getD 0)).bind fun b2 =>
  (vecSwap t 0 (t.v.size - 1)).bind fun r5 =>
  (vecDeref r5.2 (p1.2.getD 0)).bind fun a1 =>
  (vecDeref r5.2 (p2.2.getD 0)).bind fun a2 =>
  .ret (s.v.cap == s.v.size && (r1.1 == stOutOfRange) && (r2.1 == stOutOfRange) && (r3.1 == stInsufficient) &&
    (r4.1 == stSuccess) && p1.1 == stSuccess && p2.1 == stSuccess && (r5.1 == stSuccess) && (b1 == a2) && (b2 == a1),
    r5.2)

end Zy
