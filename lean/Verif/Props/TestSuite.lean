import Verif.Lemmas.TestSuite
import Verif.Props.ArgParse

/-!
# Property theorems about the tests of the library (C161)

The tests run with one size, fixed values and the numbers of one random sequence. The theorems say for which sizes,
values and numbers they pass. The tests run in a process of their own (`Fresh`) with an allocator that always succeeds.
-/

namespace Zy

open Spec

variable {α : Type}

/-- C161, `InitBasic`: for all sizes of elements and all capacities. -/
theorem C161_init_basic {w : World α} (hr : ∀ k, w.oracle k = stSuccess) {e1 e2 : Nat} (h1 : 1 ≤ e1) (h2 : 1 ≤ e2)
    (c : Nat) : testInit (fun w e c => vecInit w e c false) 2 4 e1 e2 c w = .ret true := by
  have n1 : ¬ e1 = 0 := by omega
  have n2 : ¬ e2 = 0 := by omega
  simp [testInit, vecInit, vecInitEx, allocate, hr, failed_success, n1, n2, World.log, vecDestroy, runDtors, withData,
    deallocate, checkNew, Out.ret_bind']

/-- C161, `InitAdvanced`: for all growth factors from one on, shrink thresholds, sizes and capacities. -/
theorem C161_init_advanced {w : World α} (hr : ∀ k, w.oracle k = stSuccess) {growth : Nat} (hg : 1 ≤ growth)
    (shrink : Nat) {e1 e2 : Nat} (h1 : 1 ≤ e1) (h2 : 1 ≤ e2) (c : Nat) :
    testInit (fun w e c => vecInitEx w e c false (some 0) growth shrink) growth shrink e1 e2 c w = .ret true := by
  have n1 : ¬ e1 = 0 := by omega
  have n2 : ¬ e2 = 0 := by omega
  have n3 : ¬ growth = 0 := by omega
  simp [testInit, vecInitEx, allocate, hr, failed_success, n1, n2, n3, World.log, vecDestroy, runDtors, withData,
    deallocate, checkNew, Out.ret_bind']

/-- C161, `InitCustomBuffer`: for all buffers, capacities and sizes of elements. -/
theorem C161_init_buffer {e n : Nat} (he : 1 ≤ e) (hn : 1 ≤ n) (buf : Block α) (w : World α) :
    testInitBuffer e n buf w = .ret true := by
  have n1 : ¬ e = 0 := by omega
  have n2 : ¬ n = 0 := by omega
  simp [testInitBuffer, vecInitBuffer, n1, n2, vecDestroy, runDtors, checkNew, Out.ret_bind']

/-- C161, `Destructor`: for all buffers of at least four elements. -/
theorem C161_destructor {n : Nat} (h4 : 4 ≤ n) {buf : Block (BitVec 16)} (hb : n ≤ buf.cells.length)
    (hn : n * 510 < 18446744073709551616) {w : World (BitVec 16)} (hw : Fresh w) (hr : Reliable w) :
    testDestructor n buf w = .ret true :=
  destructor_test_ok h4 hb hn hw hr

/-- C161, `TestGrowingAndShrinking`: for all numbers of elements. -/
theorem C161_growing_and_shrinking {m : Nat} (hm : m * 2040 < 18446744073709551616) {w : World TU64} (hw : Fresh w)
    (hr : ∀ k, w.oracle k = stSuccess) : testGrowingAndShrinking m w = .ret true := by
  obtain ⟨v, w', e0, a0⟩ := initDefault_ok hw hr
  obtain ⟨s1, c1, e1, a1⟩ := grow_test_ok m (i := 0) a0 (by rw [Nat.zero_add]; exact hm)
  rw [Nat.zero_add] at a1
  obtain ⟨s2, c2, e2, a2⟩ := shrink_test_ok m a1 hm
  obtain ⟨s3, e3⟩ := a2.destroy
  unfold testGrowingAndShrinking
  rw [e0]
  dsimp only
  rw [e1, Out.ret_bind', e2, Out.ret_bind', e3, Out.ret_bind']
  rfl

section Fixtures

variable {w : World TU64} {buf : Block TU64} {n : Nat}

/-- C161, `ElementAccess`: for all sizes from one on and all values, on both kinds of vectors. -/
theorem C161_element_access (fixed : Bool) (hw : Fresh w) (hr : ∀ k, w.oracle k = stSuccess) (h1 : 1 ≤ n)
    (hb : n ≤ buf.cells.length) (hn : n * 2040 < 18446744073709551616) (x y : TU64) :
    withFixture true fixed w buf n (testElementAccess fixed x y) = .ret true :=
  fixture_ok true fixed hw hr h1 hb hn fun _ _ ha => elementAccess_ok h1 ha x y

/-- C161, `PushPop`: for all sizes from one on and all values. -/
theorem C161_push_pop (fixed : Bool) (hw : Fresh w) (hr : ∀ k, w.oracle k = stSuccess) (h1 : 1 ≤ n)
    (hb : n ≤ buf.cells.length) (hn : (n + 1) * 2040 < 18446744073709551616) (x : TU64) :
    withFixture true fixed w buf n (testPushPop fixed x) = .ret true :=
  fixture_ok true fixed hw hr h1 hb (Nat.lt_of_le_of_lt (Nat.mul_le_mul_right _ (Nat.le_succ n)) hn)
    fun _ _ ha => pushPop_ok h1 ha hn x

/-- C161, `Insert`: for all elements to insert, at most as many as the vector has. -/
theorem C161_insert (fixed : Bool) (hw : Fresh w) (hr : ∀ k, w.oracle k = stSuccess) (hb : n ≤ buf.cells.length)
    {xs : List TU64} (hx : xs ≠ []) (hl : xs.length ≤ n) (hn : (n + xs.length) * 2040 < 18446744073709551616) :
    withFixture true fixed w buf n (testInsert fixed xs) = .ret true :=
  fixture_ok true fixed hw hr (Nat.le_trans (List.length_pos_iff.2 hx) hl) hb
    (Nat.lt_of_le_of_lt (Nat.mul_le_mul_right _ (Nat.le_add_right _ _)) hn)
    fun _ _ ha => insert_test_ok ha hx hn hl

/-- C161, `Delete`: the test passes for exactly those sizes that are divisible by four. For all others it is the
expectation of the test that is wrong, not the vector: with less than four elements it asks for the deletion of no
element, and otherwise it compares the elements behind the gap with the wrong numbers. -/
theorem C161_delete (fixed : Bool) (hw : Fresh w) (hr : ∀ k, w.oracle k = stSuccess) (h1 : 1 ≤ n)
    (hb : n ≤ buf.cells.length) (hn : n * 2040 < 18446744073709551616) :
    withFixture true fixed w buf n testDelete = .ret (decide (4 ∣ n)) :=
  fixture_ok true fixed hw hr h1 hb hn fun _ _ ha => delete_test_ok h1 ha hn

/-- C161, `Find`: the test passes for exactly those values that are not below the size. -/
theorem C161_find (fixed : Bool) (hw : Fresh w) (hr : ∀ k, w.oracle k = stSuccess) (h1 : 1 ≤ n)
    (hb : n ≤ buf.cells.length) (hn : n * 2040 < 18446744073709551616) (x : TU64) :
    withFixture true fixed w buf n (testFind x) = .ret (decide (n ≤ x.toNat)) :=
  fixture_ok true fixed hw hr h1 hb hn fun s hR ha => ⟨s, _, _, find_test_ok h1 hR ha hn x, ha⟩

/-- C161, `BinarySearch`: for all sequences of random numbers. -/
theorem C161_binary_search (fixed : Bool) (hw : Fresh w) (hr : ∀ k, w.oracle k = stSuccess) (h1 : 1 ≤ n)
    (hb : n ≤ buf.cells.length) (hn : n * 2040 < 18446744073709551616) {xs : List TU64} (hx : xs ≠ [])
    (hl : fixed = true → xs.length ≤ n) (hxs : xs.length * 2040 < 18446744073709551616) (x : TU64) :
    withFixture false fixed w buf n (testBinarySearch xs x) = .ret true :=
  fixture_ok false fixed hw hr h1 hb hn fun _ hR ha => binarySearch_test_ok hR ha hx hxs hl x

/-- C161, `Emplace`: for all numbers of elements, positions and values. -/
theorem C161_emplace (fixed : Bool) (hw : Fresh w) (hr : ∀ k, w.oracle k = stSuccess) (h1 : 1 ≤ n)
    (hb : n ≤ buf.cells.length) (hn : n * 2040 < 18446744073709551616) {m j : Nat} (hj : j ≤ m)
    (hl : fixed = true → m + 1 ≤ n) (hm : (m + 1) * 2040 < 18446744073709551616) (x : TU64) :
    withFixture false fixed w buf n (testEmplace m j x) = .ret true :=
  fixture_ok false fixed hw hr h1 hb hn fun _ _ ha => emplace_test_ok ha hj hl hm x

/-- C161, `SwapElements`: for all sizes from three on. -/
theorem C161_swap (fixed : Bool) (hw : Fresh w) (hr : ∀ k, w.oracle k = stSuccess) (h3 : 3 ≤ n)
    (hb : n ≤ buf.cells.length) (hn : n * 2040 < 18446744073709551616) :
    withFixture true fixed w buf n testSwap = .ret true :=
  fixture_ok true fixed hw hr (by omega) hb hn fun _ _ ha => swap_test_ok h3 ha

end Fixtures

/-! ## Examples: the tests with the numbers that the library uses -/

/-- The world of the tests. -/
def tsWorld (α : Type) : World α := ⟨fun _ => stSuccess, 0, 0, []⟩

/-- `m_buffer`, with 100 elements. -/
def tsBuffer : Block TU64 := ⟨0, List.replicate 100 none⟩

theorem tsFresh : Fresh (tsWorld α) := ⟨rfl, rfl⟩

example (fixed : Bool) : withFixture true fixed (tsWorld TU64) tsBuffer 100 (testElementAccess fixed 1337 42) =
    .ret true :=
  C161_element_access fixed tsFresh (fun _ => rfl) (by decide) (by decide) (by decide) _ _

example (fixed : Bool) : withFixture true fixed (tsWorld TU64) tsBuffer 100 (testPushPop fixed 1337) = .ret true :=
  C161_push_pop fixed tsFresh (fun _ => rfl) (by decide) (by decide) (by decide) _

example (fixed : Bool) : withFixture true fixed (tsWorld TU64) tsBuffer 100 (testInsert fixed [1337, 1338, 1339, 1340]) =
    .ret true :=
  C161_insert fixed tsFresh (fun _ => rfl) (by decide) (by decide) (by decide) (by decide)

example (fixed : Bool) : withFixture true fixed (tsWorld TU64) tsBuffer 100 testDelete = .ret true :=
  C161_delete fixed tsFresh (fun _ => rfl) (by decide) (by decide) (by decide)

example (fixed : Bool) : withFixture true fixed (tsWorld TU64) tsBuffer 99 testDelete = .ret false :=
  C161_delete fixed tsFresh (fun _ => rfl) (by decide) (by decide) (by decide)

example (fixed : Bool) : withFixture true fixed (tsWorld TU64) tsBuffer 100 (testFind 1337) = .ret true :=
  C161_find fixed tsFresh (fun _ => rfl) (by decide) (by decide) (by decide) _

example (fixed : Bool) : withFixture false fixed (tsWorld TU64) tsBuffer 100
    (testBinarySearch [83, 86, 77, 15, 93, 35, 86] 1337) = .ret true :=
  C161_binary_search fixed tsFresh (fun _ => rfl) (by decide) (by decide) (by decide) (by decide)
    (fun _ => by decide) (by decide) _

example (fixed : Bool) : withFixture false fixed (tsWorld TU64) tsBuffer 100 (testEmplace 10 5 1337) = .ret true :=
  C161_emplace fixed tsFresh (fun _ => rfl) (by decide) (by decide) (by decide) (by decide) (fun _ => by decide) (by decide) _

example (fixed : Bool) : withFixture true fixed (tsWorld TU64) tsBuffer 100 testSwap = .ret true :=
  C161_swap fixed tsFresh (fun _ => rfl) (by decide) (by decide) (by decide)

example : testInit (fun w e c => vecInit w e c false) 2 4 8 2 10 (tsWorld TU64) = .ret true ∧
    testInit (fun w e c => vecInitEx w e c false (some 0) 1 0) 1 0 2 2 10 (tsWorld TU64) = .ret true ∧
    testInitBuffer 2 32 ⟨0, List.replicate 32 none⟩ (tsWorld (BitVec 16)) = .ret true ∧
    testDestructor 16 ⟨0, List.replicate 16 none⟩ (tsWorld (BitVec 16)) = .ret true ∧
    testGrowingAndShrinking 100 (tsWorld TU64) = .ret true :=
  ⟨C161_init_basic (fun _ => rfl) (by decide) (by decide) _, C161_init_advanced (fun _ => rfl) (by decide) _ (by decide)
    (by decide) _, C161_init_buffer (by decide) (by decide) _ _,
    C161_destructor (by decide) (by decide) (by decide) tsFresh (fun _ => failed_success),
    C161_growing_and_shrinking (by decide) tsFresh (fun _ => rfl)⟩

/-- The tests are not vacuous: the same test fails on a vector with other elements. -/
example : ((testFill ⟨⟨none, 1, 0, 0, 8, 8, false, some tsBuffer⟩, tsWorld TU64⟩ 0 8).bind fun s =>
      (testDelete s.2).bind fun r => .ret r.1) = .ret true ∧
    ((testFill ⟨⟨none, 1, 0, 0, 8, 8, false, some tsBuffer⟩, tsWorld TU64⟩ 1 8).bind fun s =>
      (testDelete s.2).bind fun r => .ret r.1) = .ret false := by
  constructor <;> decide +kernel

/-! ### tests/ArgParse.cpp -/

/-- The status and the error token of a parse, and on success the elements of the output vector. -/
def tsShow (r : Out ArgResult) : Out (Status × ErrTok × Option (List (Cell AArg))) :=
  r.bind fun r => if failed r.status then .ret (r.status, r.tok, none) else
    (output r).bind fun xs => .ret (r.status, r.tok, some xs)

/-- `UnnamedArgTest`: tests/ArgParse.cpp lines 60-81. -/
def tsUnnamed (min max : Nat) : ArgConfig := ⟨["./test", "a", "xxx"].map tokOf, 3, min, max, []⟩

/-- `TooFew`, `TooMany` and `PerfectFit`: lines 83-115. -/
example : tsShow (argParse (tsWorld AArg) (tsUnnamed 5 5) true) = .ret (stTooFewArgs, .untouched, none) ∧
    tsShow (argParse (tsWorld AArg) (tsUnnamed 1 1) true) = .ret (stTooManyArgs, .ptr (tokOf "xxx"), none) ∧
    tsShow (argParse (tsWorld AArg) (tsUnnamed 2 2) true) = .ret (stSuccess, .null,
      some ([Item.plain (tokOf "a"), .plain (tokOf "xxx")].map fun it => some (structOf it))) := by
  refine ⟨?_, ?_, ?_⟩ <;> decide +kernel

/-- `DashArg.MixedBoolAndValueArgs`: lines 121-173. -/
example : tsShow (argParse (tsWorld AArg) ⟨["./test", "-aio42", "-n", "xxx"].map tokOf, 4, 0, 0,
      [⟨tokOf "-o", false, false⟩, ⟨tokOf "-a", true, false⟩, ⟨tokOf "-n", false, false⟩, ⟨tokOf "-i", true, false⟩]⟩
      false) =
    .ret (stSuccess, .untouched, some ([Item.opt 1 none, .opt 3 none, .opt 0 (some (tokOf "42")),
      .opt 2 (some (tokOf "xxx"))].map fun it => some (structOf it))) := by decide +kernel

/-- `DoubleDashArg.PerfectFit`: lines 179-220. -/
example : tsShow (argParse (tsWorld AArg) ⟨["./test", "--help", "--stuff", "1337"].map tokOf, 4, 0, 0,
      [⟨tokOf "--help", true, false⟩, ⟨tokOf "--stuff", false, false⟩]⟩ false) =
    .ret (stSuccess, .untouched, some ([Item.opt 0 none, .opt 1 (some (tokOf "1337"))].map fun it =>
      some (structOf it))) := by decide +kernel

/-- `MixedArgs.MissingRequiredArg`: lines 226-255. -/
example : tsShow (argParse (tsWorld AArg) ⟨["./test", "blah.c", "woof.moo"].map tokOf, 3, 0, 100,
      [⟨tokOf "--feature-xyz", true, false⟩, ⟨tokOf "-n", false, true⟩]⟩ true) =
    .ret (stRequiredArgMissing, .ptr (tokOf "-n"), none) := by decide +kernel

/-- `MixedArgs.Stuff`: lines 257-308. -/
example : tsShow (argParse (tsWorld AArg) ⟨["./test", "--feature-xyz", "-n5", "blah.c", "woof.moo"].map tokOf, 5, 0, 100,
      [⟨tokOf "--feature-xyz", true, false⟩, ⟨tokOf "-n", false, false⟩]⟩ false) =
    .ret (stSuccess, .untouched, some ([Item.opt 0 none, .opt 1 (some (tokOf "5")), .plain (tokOf "blah.c"),
      .plain (tokOf "woof.moo")].map fun it => some (structOf it))) := by decide +kernel

end Zy
