import Verif.Props.Vector
import Verif.Lemmas.VectorDebug

/-!
# C120: assertions of the vector functions

The library states its internal expectations with `ZYAN_ASSERT`, which aborts the process in builds
without `NDEBUG`. `runVecD`, `vecGetD`, ... are the vector functions with these assertions;
`.ub .assertion` is the aborted process. The allocator may grant or refuse every single request.
-/

namespace Zy

open Spec

variable {α : Type}

/-- C120 for vectors with an allocator. Missing: histories that make the vector longer than
`2^64 / 255` elements (`C120_wrap_negation`) and deletions whose range does not end at a machine word. -/
theorem C120_vector_partial {w w' : World α} {esz cap a g th : Nat} {dt : Bool} {st : Status} {v : Vec α}
    (hg : g ≤ 255) (hi : vecInitEx w esz cap dt (some a) g th = (st, some v, w'))
    (hst : failed st = false) (ops : List (VOp α))
    (hn : (ops.map lengthens).sum * 255 < 18446744073709551616) (hw : ∀ op ∈ ops, rangeIsWord op) :
    runVecD ⟨v, w'⟩ ops ≠ .ub .assertion ∧ runVecD ⟨v, w'⟩ ops = runVec ⟨v, w'⟩ ops ∧
    ∀ sts s, runVecD ⟨v, w'⟩ ops = .ret (sts, s) →
      (∀ i, vecGetD s i = .ret (vecGet s i)) ∧ (∀ i, vecGetPointerD s i = .ret (vecGetPointer s i)) ∧
      (∀ eq i n, vecFindExD s eq i n = vecFindEx s eq i n) ∧
      (∀ cmp i n, vecBinarySearchExD s cmp i n = vecBinarySearchEx s cmp i n) ∧
      vecDestroyD s = vecDestroy s := by
  obtain ⟨hu, hz⟩ := init_usable hg hi hst
  have hn' : ((⟨v, w'⟩ : VS α).v.size + (ops.map lengthens).sum) * 255 < 18446744073709551616 := by
    simpa [hz] using hn
  have e := runVecD_eq ops hu hn' hw
  refine ⟨e ▸ quiet_runVec _ _, e, fun sts s h => ?_⟩
  have h1 : Usable s := runVec_usable ops hu hn' hw (e ▸ h)
  exact ⟨vecGetD_eq h1, vecGetPointerD_eq h1, vecFindExD_eq h1, vecBinarySearchExD_eq h1,
    vecDestroyD_eq h1⟩

/-- C120 for vectors on a buffer of the caller, whatever the size of the buffer really is. Missing: as
above. -/
theorem C120_buffer_partial {w : World α} {esz cap : Nat} {dt : Bool} {st : Status} {b : Option (Block α)}
    {v : Vec α} (hi : vecInitBuffer esz b cap dt = (st, some v)) (ops : List (VOp α))
    (hn : (ops.map lengthens).sum * 255 < 18446744073709551616) (hw : ∀ op ∈ ops, rangeIsWord op) :
    runVecD ⟨v, w⟩ ops ≠ .ub .assertion ∧ runVecD ⟨v, w⟩ ops = runVec ⟨v, w⟩ ops ∧
    ∀ sts s, runVecD ⟨v, w⟩ ops = .ret (sts, s) →
      (∀ i, vecGetD s i = .ret (vecGet s i)) ∧ (∀ i, vecGetPointerD s i = .ret (vecGetPointer s i)) ∧
      (∀ eq i n, vecFindExD s eq i n = vecFindEx s eq i n) ∧
      (∀ cmp i n, vecBinarySearchExD s cmp i n = vecBinarySearchEx s cmp i n) ∧
      vecDestroyD s = vecDestroy s := by
  obtain ⟨hu, hz⟩ := initBuffer_usable (w := w) hi
  have hn' : ((⟨v, w⟩ : VS α).v.size + (ops.map lengthens).sum) * 255 < 18446744073709551616 := by
    simpa [hz] using hn
  have e := runVecD_eq ops hu hn' hw
  refine ⟨e ▸ quiet_runVec _ _, e, fun sts s h => ?_⟩
  have h1 : Usable s := runVec_usable ops hu hn' hw (e ▸ h)
  exact ⟨vecGetD_eq h1, vecGetPointerD_eq h1, vecFindExD_eq h1, vecBinarySearchExD_eq h1,
    vecDestroyD_eq h1⟩

/-- C120: copying a vector fails no assertion, with any allocator and any buffer. -/
theorem C120_duplicate (w : World α) (src : Vec α) (cap : Nat) (al : Option Nat) (g th : Nat)
    (b : Option (Block α)) :
    vecDuplicateExD w src cap al g th = vecDuplicateEx w src cap al g th ∧
    vecDuplicateBufferD src b cap = vecDuplicateBuffer src b cap :=
  ⟨vecDuplicateExD_eq w src cap al g th, vecDuplicateBufferD_eq src b cap⟩

/-- C120 fails for every insertion before the end of a vector for which the new length times the growth
factor exceeds the machine word and leaves a remainder below the new length: the allocator grants the
remainder, and `ZyanVectorShiftRight` asserts that the new length fits into it. -/
theorem C120_wrap_negation {s : VS α} {a n i : Nat} {b : Block α} {x : Src α}
    (ha : s.v.allocator = some a) (hb : s.v.data = some b) (he : s.v.esz ≠ 0) (hc : 1 ≤ s.v.cap)
    (hok : failed (s.w.oracle s.w.calls) = false) (hx : x.isNull = false) (hn : 1 ≤ n)
    (hi : i < s.v.size) (hfull : s.v.cap < s.v.size + n) (hlt : s.v.size + n < 18446744073709551616)
    (hwrap : (s.v.size + n) * s.v.growth % 18446744073709551616 < s.v.size + n) :
    vecInsertRangeD s i x n = .ub .assertion := by
  have ha' : add64 s.v.size n = s.v.size + n := add64_eq hlt
  have hu (k : Out (Status × VS α)) : assertUsable s.v k = k := by
    simp [assertUsable, assertThat, hb, he]
  unfold vecInsertRangeD
  rw [if_neg (by simp [hx]; omega), if_neg (by omega), hu, ha']
  unfold growForD
  rw [if_pos (by simp [shouldGrow]; omega)]
  generalize hm : max 1 (mul64 (s.v.size + n) s.v.growth) = m
  have hm1 : 1 ≤ m ∧ m < s.v.size + n := by unfold mul64 at hm; omega
  have hr : reallocateD s m = .ret (stSuccess,
      ⟨{ s.v with cap := m, data := some (reallocBlock s.w a b s.v.esz m).2.1 },
        (reallocBlock s.w a b s.v.esz m).2.2⟩) := by
    unfold reallocateD
    rw [hu, assertThat, if_pos (by simpa using hc)]
    simp only [ha]
    rw [if_neg (by omega)]
    unfold reallocTo
    simp only [hb, withData]
    have : failed (reallocBlock s.w a b s.v.esz m).1 = false := by
      unfold reallocBlock
      simp [hok]
    rw [this, ha]
    rfl
  rw [hr, Out.ret_bind']
  simp only [failed_success, Bool.false_eq_true, if_false]
  rw [if_pos hi]
  unfold shiftRightD
  simp only [assertUsable, assertThat]
  rw [if_pos (by simpa using he), if_pos (by simp), if_pos (by simp; omega),
    if_neg (by simp [ha']; omega)]
  rfl

/-! ## Examples -/

/-- An allocator that refuses its second request. -/
def exRefusing : World Nat := ⟨fun k => if k = 1 then stNoMemory else stSuccess, 0, 0, []⟩

/-- The vector obtained from it with capacity 2. -/
def exRefV : Vec Nat :=
  { allocator := some 0, growth := 2, shrink := 4, size := 0, cap := 2, esz := 8, hasDtor := true,
    data := some ⟨0, [none, none]⟩ }

def exRefOps : List (VOp Nat) :=
  [.push (some 10), .push (some 20), .push (some 30), .insertRange 1 [some 40], .deleteRange 0 2,
   .resize 1 (some (some 7)), .swap 0 0, .clear]

/-- The growth at the third push is refused and the next insertion writes out of bounds: the assertions
do not notice. -/
example : runVecD ⟨exRefV, { exRefusing with calls := 1, nextBlk := 1, trace := [.alloc 0 0 8 2] }⟩ exRefOps
    ≠ .ub .assertion :=
  (C120_vector_partial (w := exRefusing) (cap := 2) (dt := true) (a := 0) (esz := 8) (g := 2) (th := 4)
    (v := exRefV) (by decide) rfl (by decide) exRefOps (by decide)
    (by simp [exRefOps, rangeIsWord])).1

/-- A run in which every call returns. -/
example : (runVecD exS0 [.push (some 10), .push (some 20), .insertRange 1 [some 40, some 50],
    .deleteRange 0 2, .reserve 9, .shrinkToFit, .pop]).bind (fun r => contents r.2) =
    .ret [some 50] := by decide +kernel

example : runVecD ⟨(exFixed0).v, exW⟩ [.push (some 1), .push (some 2), .push (some 3)] ≠ .ub .assertion :=
  (C120_buffer_partial (cap := 2) (b := some ⟨7, [none, none]⟩) (dt := true) (esz := 8) (st := stSuccess)
    rfl _ (by decide) (by simp [rangeIsWord])).1

/-- The offending insertions can be reached: enlarging a vector to `2^63 + 1` elements without an initial
value asks the allocator for 2 elements; an insertion then asks for 4 and the assertion fails. -/
example : (runVecD exS0 [.resize 9223372036854775809 none, .insertRange 0 [some 5]]).bind
    (fun r => contents r.2) = .ub .assertion := by decide +kernel

example : vecInsertRangeD ⟨{ exS.v with size := 9223372036854775809, cap := 2 }, exS.w⟩ 0
    (.ext [some 5]) 1 = .ub .assertion :=
  C120_wrap_negation (a := 0) (b := ⟨1, [some 10, some 20, some 30, none]⟩) rfl rfl (by decide)
    (by decide) rfl rfl (by decide) (by decide) (by decide) (by decide) (by decide)

end Zy
