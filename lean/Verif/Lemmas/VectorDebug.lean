import Verif.Spec.VectorDebug
import Verif.Spec.VectorRun
import Verif.Lemmas.Vector

/-!
# Lemmas: the vector functions with assertions
-/

namespace Zy

open Spec

variable {α β γ : Type}

theorem bind_same {x : Out β} {f g : β → Out γ} (h : ∀ r, x = .ret r → f r = g r) :
    x.bind f = x.bind g := by
  cases x with
  | ret r => exact h r rfl
  | ub w => rfl

theorem bind_ret {x : Out β} {f : β → Out γ} {r : γ} (h : x.bind f = .ret r) :
    ∃ q, x = .ret q ∧ f q = .ret r := by
  cases x with
  | ret q => exact ⟨q, rfl, h⟩
  | ub w => cases h

/-- What the assertions ask of a vector. -/
structure Usable (s : VS α) : Prop where
  esz : s.v.esz ≠ 0
  data : s.v.data.isSome
  cap : 1 ≤ s.v.cap
  growth : 1 ≤ s.v.growth
  growth255 : s.v.growth ≤ 255

theorem assertUsable_ok {s : VS α} (h : Usable s) (k : Out β) : assertUsable s.v k = k := by
  simp [assertUsable, assertThat, h.esz, h.data]

theorem reallocateD_eq {s : VS α} (h : Usable s) (c : Nat) : reallocateD s c = reallocate s c := by
  have := h.cap
  simp only [reallocateD, assertUsable_ok h]
  rw [assertThat, if_pos (by simpa using this)]
  rfl

theorem reallocTo_usable {s : VS α} (h : Usable s) {a c : Nat} (hc : 1 ≤ c) {r : Status × VS α}
    (e : reallocTo s a c = .ret r) :
    Usable r.2 ∧ r.2.v.size = s.v.size ∧ r.2.v.growth = s.v.growth ∧ r.2.v.cap = c := by
  obtain ⟨b, hb⟩ := Option.isSome_iff_exists.1 h.data
  simp only [reallocTo, hb, withData] at e
  split at e <;> (cases e; exact ⟨⟨h.esz, rfl, hc, h.growth, h.growth255⟩, rfl, rfl, rfl⟩)

theorem reallocate_usable {s : VS α} (h : Usable s) {c : Nat} {r : Status × VS α}
    (e : reallocate s c = .ret r) :
    Usable r.2 ∧ r.2.v.size = s.v.size ∧ r.2.v.growth = s.v.growth ∧
      (failed r.1 = false → c ≤ r.2.v.cap) := by
  unfold reallocate at e
  split at e
  · split at e
    · cases e; exact ⟨h, rfl, rfl, fun hf => absurd hf (by rw [show failed stInsufficient = true by decide]; decide)⟩
    · rename_i hc; cases e; exact ⟨h, rfl, rfl, fun _ => Nat.le_of_not_lt hc⟩
  · split at e
    · split at e
      · obtain ⟨h1, h2, h3, h4⟩ := reallocTo_usable h (Nat.le_refl 1) e
        exact ⟨h1, h2, h3, fun _ => by omega⟩
      · cases e; exact ⟨h, rfl, rfl, fun _ => by have := h.cap; omega⟩
    · obtain ⟨h1, h2, h3, h4⟩ := reallocTo_usable h (by omega) e
      exact ⟨h1, h2, h3, fun _ => by omega⟩

theorem growForD_eq {s : VS α} (h : Usable s) (n : Nat) : growForD s n = growFor s n := by
  unfold growForD growFor
  rw [reallocateD_eq h]

theorem growFor_usable {s : VS α} (h : Usable s) {n : Nat} (hn : n * 255 < 18446744073709551616)
    {r : Status × VS α} (e : growFor s n = .ret r) :
    Usable r.2 ∧ r.2.v.size = s.v.size ∧ (failed r.1 = false → n ≤ r.2.v.cap) := by
  unfold growFor shouldGrow at e
  split at e
  · obtain ⟨h1, h2, h3, h4⟩ := reallocate_usable h e
    refine ⟨h1, h2, fun hf => ?_⟩
    have hm : n * s.v.growth < 18446744073709551616 :=
      Nat.lt_of_le_of_lt (Nat.mul_le_mul_left _ h.growth255) hn
    have := h4 hf
    rw [mul64_eq hm] at this
    have := Nat.le_mul_of_pos_right n h.growth
    omega
  · rename_i hg
    cases e
    refine ⟨h, rfl, fun _ => ?_⟩
    simpa using hg

theorem destroyLoop_v : ∀ (n : Nat) {s s' : VS α} {i : Nat}, destroyLoop s i n = .ret s' → s'.v = s.v
  | 0, _, _, _, e => by cases e; rfl
  | n + 1, s, s', i, e => by
    unfold destroyLoop withData at e
    split at e
    · cases e
    · dsimp only at e
      split at e
      · cases e
      · exact (destroyLoop_v n e).trans rfl

theorem runDtors_v {s s' : VS α} {lo hi : Nat} (e : runDtors s lo hi = .ret s') : s'.v = s.v := by
  unfold runDtors at e
  split at e
  · exact destroyLoop_v _ e
  · cases e; rfl

theorem Usable.of_v {s s' : VS α} (h : Usable s) (e : s'.v = s.v) : Usable s' := by
  constructor <;> rw [e]
  · exact h.esz
  · exact h.data
  · exact h.cap
  · exact h.growth
  · exact h.growth255

theorem Usable.resized {s : VS α} (h : Usable s) (n : Nat) :
    Usable (α := α) ⟨{ s.v with size := n }, s.w⟩ := ⟨h.esz, h.data, h.cap, h.growth, h.growth255⟩

theorem Usable.stored {s : VS α} (h : Usable s) (n : Nat) (b : Block α) :
    Usable (α := α) ⟨{ s.v with data := some b, size := n }, s.w⟩ :=
  ⟨h.esz, rfl, h.cap, h.growth, h.growth255⟩

theorem shiftLeftD_eq {s : VS α} (h : Usable s) {i n : Nat} (hn : n ≠ 0) :
    shiftLeftD s i n = shiftLeft s i n := by
  simp only [shiftLeftD, assertUsable_ok h]
  rw [assertThat, if_pos (by simpa using Nat.pos_of_ne_zero hn)]
  rfl

theorem shiftLeft_usable {s s' : VS α} (h : Usable s) {i n : Nat} (e : shiftLeft s i n = .ret s') :
    Usable s' ∧ s'.v.size = s.v.size := by
  obtain ⟨b, hb⟩ := Option.isSome_iff_exists.1 h.data
  simp only [shiftLeft, hb, withData] at e
  obtain ⟨cs, _, e⟩ := bind_ret e
  cases e
  exact ⟨h.stored _ _, rfl⟩

theorem shiftRightD_eq {s : VS α} (h : Usable s) {i n : Nat} (hn : n ≠ 0)
    (hc : add64 s.v.size n ≤ s.v.cap) : shiftRightD s i n = shiftRight s i n := by
  simp only [shiftRightD, assertUsable_ok h]
  rw [assertThat, if_pos (by simpa using Nat.pos_of_ne_zero hn), assertThat, if_pos (by simpa using hc)]
  rfl

theorem shiftRight_usable {s s' : VS α} (h : Usable s) {i n : Nat} (e : shiftRight s i n = .ret s') :
    Usable s' ∧ s'.v.size = s.v.size := by
  obtain ⟨b, hb⟩ := Option.isSome_iff_exists.1 h.data
  simp only [shiftRight, hb, withData] at e
  obtain ⟨cs, _, e⟩ := bind_ret e
  cases e
  exact ⟨h.stored _ _, rfl⟩

theorem vecDestroyD_eq {s : VS α} (h : Usable s) : vecDestroyD s = vecDestroy s := by
  simp only [vecDestroyD, assertUsable_ok h]
  rfl

theorem vecSetD_eq {s : VS α} (h : Usable s) (i : Nat) (x : Src α) : vecSetD s i x = vecSet s i x := by
  simp only [vecSetD, assertUsable_ok h]
  rfl

theorem vecSet_usable {s : VS α} (h : Usable s) {i : Nat} {x : Src α} {r : Status × VS α}
    (e : vecSet s i x = .ret r) : Usable r.2 ∧ r.2.v.size = s.v.size := by
  unfold vecSet at e
  split at e
  · cases e; exact ⟨h, rfl⟩
  split at e
  · cases e; exact ⟨h, rfl⟩
  obtain ⟨s1, e1, e⟩ := bind_ret e
  have hv := runDtors_v e1
  unfold withData at e
  split at e
  · cases e
  obtain ⟨b', _, e⟩ := bind_ret e
  cases e
  exact ⟨(h.of_v hv).stored _ _, by rw [← hv]⟩

theorem vecPushBackD_eq {s : VS α} (h : Usable s) (x : Src α) : vecPushBackD s x = vecPushBack s x := by
  simp only [vecPushBackD, assertUsable_ok h, growForD_eq h]
  rfl

theorem vecPushBack_usable {s : VS α} (h : Usable s) (hn : (s.v.size + 1) * 255 < 18446744073709551616)
    {x : Src α} {r : Status × VS α} (e : vecPushBack s x = .ret r) :
    Usable r.2 ∧ r.2.v.size ≤ s.v.size + 1 := by
  have ha : add64 s.v.size 1 = s.v.size + 1 := add64_eq (by omega)
  unfold vecPushBack at e
  split at e
  · cases e; exact ⟨h, by simp⟩
  rw [ha] at e
  obtain ⟨q, e1, e⟩ := bind_ret e
  obtain ⟨h1, h2, h3⟩ := growFor_usable h hn e1
  split at e
  · cases e; exact ⟨h1, by omega⟩
  simp only [withData] at e
  split at e
  · cases e
  obtain ⟨b', _, e⟩ := bind_ret e
  cases e
  exact ⟨h1.stored _ _, by simp only [h2, ha]; omega⟩

theorem vecInsertRangeD_eq {s : VS α} (h : Usable s) {i n : Nat} {x : Src α}
    (hn : (s.v.size + n) * 255 < 18446744073709551616) :
    vecInsertRangeD s i x n = vecInsertRange s i x n := by
  have ha : add64 s.v.size n = s.v.size + n := add64_eq (by omega)
  unfold vecInsertRangeD vecInsertRange
  split
  · rfl
  rename_i hz
  split
  · rfl
  rw [assertUsable_ok h, growForD_eq h]
  refine bind_same fun r er => ?_
  rw [ha] at er
  obtain ⟨h1, h2, h3⟩ := growFor_usable h hn er
  split
  · rfl
  rename_i hf
  have : shiftRightD r.2 i n = shiftRight r.2 i n :=
    shiftRightD_eq h1 (fun h0 => hz (Or.inr h0)) (by rw [h2, ha]; exact h3 (by simpa using hf))
  simp only [this]

theorem vecInsertRange_usable {s : VS α} (h : Usable s) {i n : Nat} {x : Src α}
    (hn : (s.v.size + n) * 255 < 18446744073709551616) {r : Status × VS α}
    (e : vecInsertRange s i x n = .ret r) : Usable r.2 ∧ r.2.v.size ≤ s.v.size + n := by
  have ha : add64 s.v.size n = s.v.size + n := add64_eq (by omega)
  unfold vecInsertRange at e
  split at e
  · cases e; exact ⟨h, by simp⟩
  split at e
  · cases e; exact ⟨h, by simp⟩
  rw [ha] at e
  obtain ⟨q, e1, e⟩ := bind_ret e
  obtain ⟨h1, h2, h3⟩ := growFor_usable h hn e1
  split at e
  · cases e; exact ⟨h1, by omega⟩
  obtain ⟨s2, e2, e⟩ := bind_ret e
  have hs2 : Usable s2 ∧ s2.v.size = q.2.v.size := by
    split at e2
    · exact shiftRight_usable h1 e2
    · cases e2; exact ⟨h1, rfl⟩
  simp only [withData] at e
  split at e
  · cases e
  obtain ⟨b', _, e⟩ := bind_ret e
  cases e
  exact ⟨hs2.1.stored _ _, by simp only [hs2.2, h2, ha]; omega⟩

theorem vecEmplaceExD_eq {s : VS α} (h : Usable s) {i : Nat} {c : Ctor α}
    (hn : (s.v.size + 1) * 255 < 18446744073709551616) :
    vecEmplaceExD s i c = vecEmplaceEx s i c := by
  have ha : add64 s.v.size 1 = s.v.size + 1 := add64_eq (by omega)
  unfold vecEmplaceExD vecEmplaceEx
  split
  · rfl
  rw [assertUsable_ok h, growForD_eq h]
  refine bind_same fun r er => ?_
  rw [ha] at er
  obtain ⟨h1, h2, h3⟩ := growFor_usable h hn er
  split
  · rfl
  rename_i hf
  have : shiftRightD r.2 i 1 = shiftRight r.2 i 1 :=
    shiftRightD_eq h1 (by decide) (by rw [h2, ha]; exact h3 (by simpa using hf))
  simp only [this]
  rfl

theorem vecEmplaceEx_usable {s : VS α} (h : Usable s) {i : Nat} {c : Ctor α}
    (hn : (s.v.size + 1) * 255 < 18446744073709551616) {r : Status × VS α}
    (e : vecEmplaceEx s i c = .ret r) : Usable r.2 ∧ r.2.v.size ≤ s.v.size + 1 := by
  have ha : add64 s.v.size 1 = s.v.size + 1 := add64_eq (by omega)
  unfold vecEmplaceEx at e
  split at e
  · cases e; exact ⟨h, by simp⟩
  rw [ha] at e
  obtain ⟨q, e1, e⟩ := bind_ret e
  obtain ⟨h1, h2, h3⟩ := growFor_usable h hn e1
  split at e
  · cases e; exact ⟨h1, by omega⟩
  obtain ⟨s2, e2, e⟩ := bind_ret e
  have hs2 : Usable s2 ∧ s2.v.size = q.2.v.size := by
    split at e2
    · exact shiftRight_usable h1 e2
    · cases e2; exact ⟨h1, rfl⟩
  split at e
  · cases e
    exact ⟨hs2.1.resized _, by simp only [hs2.2, h2, ha]; omega⟩
  · simp only [withData] at e
    split at e
    · cases e
    split at e
    · cases e
    split at e
    · cases e
      exact ⟨hs2.1.stored _ _, by simp only [hs2.2, h2]; omega⟩
    · cases e
      exact ⟨hs2.1.stored _ _, by simp only [hs2.2, h2, ha]; omega⟩

theorem vecSwapD_eq {s : VS α} (h : Usable s) (i j : Nat) : vecSwapD s i j = vecSwap s i j := by
  simp only [vecSwapD, assertUsable_ok h]
  rfl

theorem vecSwap_usable {s : VS α} (h : Usable s) {i j : Nat} {r : Status × VS α}
    (e : vecSwap s i j = .ret r) : Usable r.2 ∧ r.2.v.size = s.v.size := by
  unfold vecSwap at e
  split at e
  · cases e; exact ⟨h, rfl⟩
  split at e
  · cases e; exact ⟨h, rfl⟩
  simp only [withData] at e
  split at e
  · cases e
  obtain ⟨_, _, e⟩ := bind_ret e
  obtain ⟨_, _, e⟩ := bind_ret e
  obtain ⟨_, _, e⟩ := bind_ret e
  cases e
  exact ⟨h.stored _ _, rfl⟩

theorem shrinkAfterD_eq {s : VS α} (h : Usable s) : shrinkAfterD s = shrinkAfter s := by
  unfold shrinkAfterD shrinkAfter
  rw [reallocateD_eq h]

theorem shrinkAfter_usable {s : VS α} (h : Usable s) {r : Status × VS α} (e : shrinkAfter s = .ret r) :
    Usable r.2 ∧ r.2.v.size = s.v.size := by
  unfold shrinkAfter at e
  split at e
  · obtain ⟨h1, h2, _⟩ := reallocate_usable h e
    exact ⟨h1, h2⟩
  · cases e; exact ⟨h, rfl⟩

theorem vecDeleteRangeD_eq {s : VS α} (h : Usable s) (i n : Nat) :
    vecDeleteRangeD s i n = vecDeleteRange s i n := by
  unfold vecDeleteRangeD vecDeleteRange
  split
  · rfl
  rename_i hz
  split
  · rfl
  refine bind_same fun s1 e1 => ?_
  have h1 := h.of_v (runDtors_v e1)
  rw [shiftLeftD_eq h1 hz]
  refine bind_same fun s2 e2 => ?_
  have h2 : Usable s2 := by
    split at e2
    · exact (shiftLeft_usable h1 e2).1
    · cases e2; exact h1
  exact shrinkAfterD_eq (h2.resized _)

theorem vecDeleteRange_usable {s : VS α} (h : Usable s) {i n : Nat} (hs : s.v.size < 18446744073709551616)
    (hn : i + n < 18446744073709551616) {r : Status × VS α}
    (e : vecDeleteRange s i n = .ret r) : Usable r.2 ∧ r.2.v.size ≤ s.v.size := by
  unfold vecDeleteRange at e
  split at e
  · cases e; exact ⟨h, by simp⟩
  split at e
  · cases e; exact ⟨h, by simp⟩
  rename_i hle
  rw [add64_eq hn] at hle e
  obtain ⟨s1, e1, e⟩ := bind_ret e
  obtain ⟨s2, e2, e⟩ := bind_ret e
  have hv := runDtors_v e1
  have h1 := h.of_v hv
  have h2 : Usable s2 ∧ s2.v.size = s1.v.size := by
    split at e2
    · exact shiftLeft_usable h1 e2
    · cases e2; exact ⟨h1, rfl⟩
  obtain ⟨h3, h4⟩ := shrinkAfter_usable (h2.1.resized _) e
  refine ⟨h3, ?_⟩
  rw [h4]
  have h5 : s2.v.size = s.v.size := by rw [h2.2, hv]
  show sub64 s2.v.size n ≤ _
  rw [h5, sub64_eq (by omega) hs]
  omega

theorem vecPopBackD_eq {s : VS α} (h : Usable s) : vecPopBackD s = vecPopBack s := by
  unfold vecPopBackD vecPopBack
  split
  · rfl
  refine bind_same fun s1 e1 => ?_
  exact shrinkAfterD_eq ((h.of_v (runDtors_v e1)).resized _)

theorem vecPopBack_usable {s : VS α} (h : Usable s) {r : Status × VS α}
    (e : vecPopBack s = .ret r) : Usable r.2 ∧ r.2.v.size ≤ s.v.size := by
  unfold vecPopBack at e
  split at e
  · cases e; exact ⟨h, by simp⟩
  obtain ⟨s1, e1, e⟩ := bind_ret e
  have hv := runDtors_v e1
  obtain ⟨h3, h4⟩ := shrinkAfter_usable ((h.of_v hv).resized _) e
  refine ⟨h3, ?_⟩
  rw [h4]
  show s1.v.size - 1 ≤ _
  rw [hv]
  omega

theorem vecResizeExD_eq {s : VS α} (h : Usable s) (n : Nat) (x : Src α) :
    vecResizeExD s n x = vecResizeEx s n x := by
  unfold vecResizeExD vecResizeEx
  split
  · rfl
  refine bind_same fun s1 e1 => ?_
  have h1 : Usable s1 := by
    split at e1
    · exact h.of_v (runDtors_v e1)
    · cases e1; exact h
  have hg := h1.growth
  have ha : (assertThat (s1.v.growth ≥ 1) (reallocateD s1 (mul64 n s1.v.growth))) =
      reallocate s1 (mul64 n s1.v.growth) := by
    rw [reallocateD_eq h1]
    simp [assertThat, hg]
  rw [ha]

theorem vecResizeEx_usable {s : VS α} (h : Usable s) {n : Nat} {x : Src α} {r : Status × VS α}
    (e : vecResizeEx s n x = .ret r) : Usable r.2 ∧ r.2.v.size ≤ max s.v.size n := by
  unfold vecResizeEx at e
  split at e
  · cases e; exact ⟨h, Nat.le_max_left _ _⟩
  obtain ⟨s1, e1, e⟩ := bind_ret e
  have h1 : s1.v = s.v := by
    split at e1
    · exact runDtors_v e1
    · cases e1; rfl
  obtain ⟨q, e2, e⟩ := bind_ret e
  have h2 : Usable q.2 ∧ q.2.v.size = s1.v.size := by
    split at e2
    · obtain ⟨a, b, _⟩ := reallocate_usable (h.of_v h1) e2
      exact ⟨a, b⟩
    · cases e2; exact ⟨h.of_v h1, rfl⟩
  have h3 : s1.v.size = s.v.size := by rw [h1]
  split at e
  · cases e; exact ⟨h2.1, by omega⟩
  simp only at e
  split at e
  · simp only [withData] at e
    split at e
    · cases e
    obtain ⟨b', _, e⟩ := bind_ret e
    cases e
    exact ⟨h2.1.stored _ _, by simp only; omega⟩
  · cases e
    exact ⟨h2.1.resized _, by simp only; omega⟩

theorem vecReserveD_eq {s : VS α} (h : Usable s) (c : Nat) : vecReserveD s c = vecReserve s c := by
  unfold vecReserveD vecReserve
  rw [reallocateD_eq h]

theorem vecReserve_usable {s : VS α} (h : Usable s) {c : Nat} {r : Status × VS α}
    (e : vecReserve s c = .ret r) : Usable r.2 ∧ r.2.v.size = s.v.size := by
  unfold vecReserve at e
  split at e
  · obtain ⟨q, e1, e⟩ := bind_ret e
    obtain ⟨a, b, _⟩ := reallocate_usable h e1
    split at e <;> (cases e; exact ⟨a, b⟩)
  · cases e; exact ⟨h, rfl⟩

theorem vecShrinkToFitD_eq {s : VS α} (h : Usable s) : vecShrinkToFitD s = vecShrinkToFit s :=
  reallocateD_eq h _

theorem vecFindExD_eq {s : VS α} (h : Usable s) (eq : Cell α → Bool) (i n : Nat) :
    vecFindExD s eq i n = vecFindEx s eq i n := by
  unfold vecFindExD vecFindEx
  rw [assertUsable_ok h]

theorem vecBinarySearchExD_eq {s : VS α} (h : Usable s) (cmp : Cell α → Int) (i n : Nat) :
    vecBinarySearchExD s cmp i n = vecBinarySearchEx s cmp i n := by
  unfold vecBinarySearchExD vecBinarySearchEx
  rw [assertUsable_ok h]

theorem vecGetD_eq {s : VS α} (h : Usable s) (i : Nat) : vecGetD s i = .ret (vecGet s i) := by
  unfold vecGetD vecGet
  rw [assertUsable_ok h]
  split <;> rfl

theorem vecGetPointerD_eq {s : VS α} (h : Usable s) (i : Nat) :
    vecGetPointerD s i = .ret (vecGetPointer s i) := by
  unfold vecGetPointerD vecGetPointer
  rw [assertUsable_ok h]
  split <;> rfl

theorem vecDuplicateExD_eq (w : World α) (src : Vec α) (c : Nat) (al : Option Nat) (g th : Nat) :
    vecDuplicateExD w src c al g th = vecDuplicateEx w src c al g th := by
  unfold vecDuplicateExD vecDuplicateEx
  simp only
  split
  · rfl
  split
  · rename_i hd
    rw [hd]
  rename_i d hd
  have : src.size ≤ d.cap := by
    unfold vecInitEx at hd
    split at hd
    · cases hd
    · split at hd
      · cases hd
      · cases hd
        simp only
        omega
  simp [assertThat, this, hd]

theorem vecDuplicateBufferD_eq (src : Vec α) (b : Option (Block α)) (c : Nat) :
    vecDuplicateBufferD src b c = vecDuplicateBuffer src b c := by
  unfold vecDuplicateBufferD vecDuplicateBuffer
  simp only
  split
  · rfl
  rename_i hc
  split
  · rfl
  split
  · rename_i hd
    rw [hd]
  rename_i d hd
  have : src.size ≤ d.cap := by
    unfold vecInitBuffer at hd
    split at hd
    · cases hd
    · split at hd
      · cases hd
      · cases hd
        simp only
        omega
  simp [assertThat, this, hd]

/-! ## Histories -/

theorem vecOpD_eq {s : VS α} (h : Usable s) (op : VOp α)
    (hn : (s.v.size + lengthens op) * 255 < 18446744073709551616) : vecOpD s op = vecOp s op := by
  cases op with
  | push x => exact vecPushBackD_eq h _
  | insertRange i xs => exact vecInsertRangeD_eq h hn
  | emplace i c => exact vecEmplaceExD_eq h hn
  | set i x => exact vecSetD_eq h _ _
  | swap i j => exact vecSwapD_eq h _ _
  | deleteRange i n => exact vecDeleteRangeD_eq h _ _
  | pop => exact vecPopBackD_eq h
  | clear => exact vecResizeExD_eq h _ _
  | resize n x => exact vecResizeExD_eq h _ _
  | reserve c => exact vecReserveD_eq h _
  | shrinkToFit => exact vecShrinkToFitD_eq h

theorem vecOp_usable {s : VS α} (h : Usable s) (op : VOp α)
    (hn : (s.v.size + lengthens op) * 255 < 18446744073709551616) (hw : rangeIsWord op)
    {r : Status × VS α} (e : vecOp s op = .ret r) :
    Usable r.2 ∧ r.2.v.size ≤ s.v.size + lengthens op := by
  cases op with
  | push x => exact vecPushBack_usable h hn e
  | insertRange i xs => exact vecInsertRange_usable h hn e
  | emplace i c => exact vecEmplaceEx_usable h hn e
  | set i x => obtain ⟨a, b⟩ := vecSet_usable h e; exact ⟨a, by simp only [lengthens]; omega⟩
  | swap i j => obtain ⟨a, b⟩ := vecSwap_usable h e; exact ⟨a, by simp only [lengthens]; omega⟩
  | deleteRange i n =>
    obtain ⟨a, b⟩ := vecDeleteRange_usable h (by omega) hw e
    exact ⟨a, by simp only [lengthens]; omega⟩
  | pop => obtain ⟨a, b⟩ := vecPopBack_usable h e; exact ⟨a, by simp only [lengthens]; omega⟩
  | clear =>
    obtain ⟨a, b⟩ := vecResizeEx_usable h e
    exact ⟨a, by simp only [lengthens]; omega⟩
  | resize n x =>
    obtain ⟨a, b⟩ := vecResizeEx_usable h e
    exact ⟨a, by simp only [lengthens]; omega⟩
  | reserve c => obtain ⟨a, b⟩ := vecReserve_usable h e; exact ⟨a, by simp only [lengthens]; omega⟩
  | shrinkToFit =>
    obtain ⟨a, b, _⟩ := reallocate_usable h e
    exact ⟨a, by simp only [lengthens]; omega⟩

/-- A bound on the final length bounds the length after the first call. -/
theorem first_bound {a b c : Nat} (h : (a + (b + c)) * 255 < 18446744073709551616) :
    (a + b) * 255 < 18446744073709551616 :=
  Nat.lt_of_le_of_lt (Nat.mul_le_mul_right 255 (by omega)) h

theorem rest_bound {a b c d : Nat} (h : (a + (b + c)) * 255 < 18446744073709551616) (hd : d ≤ a + b) :
    (d + c) * 255 < 18446744073709551616 :=
  Nat.lt_of_le_of_lt (Nat.mul_le_mul_right 255 (by omega)) h

theorem runVecD_eq (ops : List (VOp α)) : ∀ {s : VS α}, Usable s →
    (s.v.size + (ops.map lengthens).sum) * 255 < 18446744073709551616 →
    (∀ op ∈ ops, rangeIsWord op) → runVecD s ops = runVec s ops := by
  induction ops with
  | nil => intros; rfl
  | cons op ops ih =>
    intro s h hn hw
    rw [List.map_cons, List.sum_cons] at hn
    have h1 := first_bound hn
    unfold runVecD runVec
    rw [vecOpD_eq h op h1]
    refine bind_same fun r e => ?_
    obtain ⟨h2, h3⟩ := vecOp_usable h op h1 (hw op (by simp)) e
    rw [ih h2 (rest_bound hn h3) fun q hq => hw q (by simp [hq])]

theorem runVec_usable (ops : List (VOp α)) : ∀ {s : VS α}, Usable s →
    (s.v.size + (ops.map lengthens).sum) * 255 < 18446744073709551616 →
    (∀ op ∈ ops, rangeIsWord op) → ∀ {r}, runVec s ops = .ret r → Usable r.2 := by
  induction ops with
  | nil => intro s h _ _ r e; cases e; exact h
  | cons op ops ih =>
    intro s h hn hw r e
    rw [List.map_cons, List.sum_cons] at hn
    have h1 := first_bound hn
    unfold runVec at e
    obtain ⟨q, e1, e⟩ := bind_ret e
    obtain ⟨h2, h3⟩ := vecOp_usable h op h1 (hw op (by simp)) e1
    obtain ⟨q2, e2, e⟩ := bind_ret e
    cases e
    exact ih h2 (rest_bound hn h3) (fun q hq => hw q (by simp [hq])) (r := q2) e2

theorem init_usable {w w' : World α} {esz cap a g th : Nat} {dt : Bool} {st : Status} {v : Vec α}
    (hg : g ≤ 255) (hi : vecInitEx w esz cap dt (some a) g th = (st, some v, w'))
    (hst : failed st = false) : Usable ⟨v, w'⟩ ∧ v.size = 0 := by
  unfold vecInitEx at hi
  simp only at hi
  split at hi
  · cases hi
  rename_i hne
  have hz : ¬ esz = 0 ∧ 1 ≤ g := by omega
  simp only [Prod.mk.injEq, Option.some.injEq] at hi
  obtain ⟨e1, rfl, e3⟩ := hi
  refine ⟨⟨hz.1, ?_, ?_, hz.2, hg⟩, rfl⟩
  · show (allocate w a esz (max 1 cap)).2.1.isSome = true
    unfold allocate at e1 ⊢
    simp only at e1 ⊢
    split at e1
    · rename_i hf
      rw [← e1, hf] at hst
      cases hst
    · rename_i hf
      rw [if_neg hf]
      rfl
  · show 1 ≤ max 1 cap
    omega

theorem initBuffer_usable {w : World α} {esz cap : Nat} {dt : Bool} {st : Status} {b : Option (Block α)}
    {v : Vec α} (hi : vecInitBuffer esz b cap dt = (st, some v)) : Usable ⟨v, w⟩ ∧ v.size = 0 := by
  unfold vecInitBuffer at hi
  split at hi
  · cases hi
  split at hi
  · cases hi
  cases hi
  exact ⟨⟨by simp only; omega, rfl, by simp only; omega, by simp, by simp⟩, rfl⟩

/-! ## The functions without assertions have no failing assertion -/

/-- The outcome is not a failed assertion. -/
def Quiet (x : Out β) : Prop := x ≠ .ub .assertion

theorem Quiet.bind {x : Out β} {f : β → Out γ} (h : Quiet x) (h' : ∀ r, Quiet (f r)) :
    Quiet (x.bind f) := by
  cases x with
  | ret a => exact h' a
  | ub w => exact fun e => h (by simpa using e)

theorem quiet_ret (a : β) : Quiet (Out.ret a) := fun h => by cases h

theorem quiet_withData {d : Option (Block α)} {f : Block α → Out β} (h : ∀ b, Quiet (f b)) :
    Quiet (withData d f) := by
  cases d with
  | none => exact fun h => by cases h
  | some b => exact h b

theorem quiet_readRange (c : List (Cell α)) (i n : Nat) : Quiet (readRange c i n) := by
  unfold readRange
  split <;> exact fun h => by cases h

theorem quiet_writeRange (c : List (Cell α)) (i : Nat) (xs : List (Cell α)) :
    Quiet (writeRange c i xs) := by
  unfold writeRange
  split <;> exact fun h => by cases h

theorem quiet_memmove (c : List (Cell α)) (d s n : Nat) : Quiet (memmoveCells c d s n) :=
  (quiet_readRange _ _ _).bind fun _ => quiet_writeRange _ _ _

theorem quiet_memcpyIn (b : Block α) (d : Nat) (x : Src α) (n : Nat) : Quiet (memcpyIn b d x n) := by
  unfold memcpyIn
  split
  · exact fun h => by cases h
  · exact (quiet_readRange _ _ _).bind fun _ => (quiet_writeRange _ _ _).bind fun _ => quiet_ret _
  · split
    · split
      · exact fun h => by cases h
      · exact (quiet_readRange _ _ _).bind fun _ => (quiet_writeRange _ _ _).bind fun _ => quiet_ret _
    · exact fun h => by cases h

theorem quiet_reallocTo (s : VS α) (a c : Nat) : Quiet (reallocTo s a c) :=
  quiet_withData fun b => by simp only; split <;> exact quiet_ret _

theorem quiet_reallocate (s : VS α) (c : Nat) : Quiet (reallocate s c) := by
  unfold reallocate
  split
  · split <;> exact quiet_ret _
  · split
    · split
      · exact quiet_reallocTo _ _ _
      · exact quiet_ret _
    · exact quiet_reallocTo _ _ _

theorem quiet_shiftLeft (s : VS α) (i n : Nat) : Quiet (shiftLeft s i n) :=
  quiet_withData fun _ => (quiet_memmove _ _ _ _).bind fun _ => quiet_ret _

theorem quiet_shiftRight (s : VS α) (i n : Nat) : Quiet (shiftRight s i n) :=
  quiet_withData fun _ => (quiet_memmove _ _ _ _).bind fun _ => quiet_ret _

theorem quiet_destroyLoop : ∀ (n : Nat) (s : VS α) (i : Nat), Quiet (destroyLoop s i n)
  | 0, _, _ => quiet_ret _
  | n + 1, s, i => quiet_withData fun b => by
    split
    · exact fun h => by cases h
    · exact quiet_destroyLoop n _ _

theorem quiet_runDtors (s : VS α) (i n : Nat) : Quiet (runDtors s i n) := by
  unfold runDtors
  split
  · exact quiet_destroyLoop _ _ _
  · exact quiet_ret _

theorem quiet_growFor (s : VS α) (n : Nat) : Quiet (growFor s n) := by
  unfold growFor
  split
  · exact quiet_reallocate _ _
  · exact quiet_ret _

theorem quiet_shrinkAfter (s : VS α) : Quiet (shrinkAfter s) := by
  unfold shrinkAfter
  split
  · exact quiet_reallocate _ _
  · exact quiet_ret _

theorem quiet_fillLoop : ∀ (n : Nat) (b : Block α) (x : Src α) (i : Nat), Quiet (fillLoop b x i n)
  | 0, _, _, _ => quiet_ret _
  | n + 1, _, _, _ => (quiet_memcpyIn _ _ _ _).bind fun _ => quiet_fillLoop n _ _ _

theorem quiet_ite {c : Prop} [Decidable c] {x y : Out β} (hx : Quiet x) (hy : Quiet y) :
    Quiet (if c then x else y) := by
  split
  · exact hx
  · exact hy

theorem quiet_vecOp (s : VS α) (op : VOp α) : Quiet (vecOp s op) := by
  cases op with
  | push x =>
    show Quiet (vecPushBack s (.ext [x]))
    unfold vecPushBack
    refine quiet_ite (quiet_ret _) ((quiet_growFor _ _).bind fun r => quiet_ite (quiet_ret _) ?_)
    exact quiet_withData fun _ => (quiet_memcpyIn _ _ _ _).bind fun _ => quiet_ret _
  | insertRange i xs =>
    refine quiet_ite (quiet_ret _) (quiet_ite (quiet_ret _) ((quiet_growFor _ _).bind fun r =>
      quiet_ite (quiet_ret _) ((quiet_ite (quiet_shiftRight _ _ _) (quiet_ret _)).bind fun _ => ?_)))
    exact quiet_withData fun _ => (quiet_memcpyIn _ _ _ _).bind fun _ => quiet_ret _
  | emplace i c =>
    refine quiet_ite (quiet_ret _) ((quiet_growFor _ _).bind fun r =>
      quiet_ite (quiet_ret _) ((quiet_ite (quiet_shiftRight _ _ _) (quiet_ret _)).bind fun _ => ?_))
    cases c with
    | none => exact quiet_ret _
    | some c =>
      refine quiet_withData fun b => ?_
      split
      · exact fun h => by cases h
      · exact quiet_ite (quiet_ret _) (quiet_ret _)
  | set i x =>
    show Quiet (vecSet s i (.ext [x]))
    unfold vecSet
    refine quiet_ite (quiet_ret _) (quiet_ite (quiet_ret _) ((quiet_runDtors _ _ _).bind fun _ => ?_))
    exact quiet_withData fun _ => (quiet_memcpyIn _ _ _ _).bind fun _ => quiet_ret _
  | swap i j =>
    refine quiet_ite (quiet_ret _) (quiet_ite (quiet_ret _) (quiet_withData fun _ => ?_))
    exact (quiet_memmove _ _ _ _).bind fun _ => (quiet_memmove _ _ _ _).bind fun _ =>
      (quiet_memmove _ _ _ _).bind fun _ => quiet_ret _
  | deleteRange i n =>
    exact quiet_ite (quiet_ret _) (quiet_ite (quiet_ret _) ((quiet_runDtors _ _ _).bind fun _ =>
      (quiet_ite (quiet_shiftLeft _ _ _) (quiet_ret _)).bind fun _ => quiet_shrinkAfter _))
  | pop =>
    exact quiet_ite (quiet_ret _) ((quiet_runDtors _ _ _).bind fun _ => quiet_shrinkAfter _)
  | clear => exact quiet_resize s 0 _
  | resize n x => exact quiet_resize s n _
  | reserve c =>
    exact quiet_ite ((quiet_reallocate _ _).bind fun _ => quiet_ite (quiet_ret _) (quiet_ret _))
      (quiet_ret _)
  | shrinkToFit => exact quiet_reallocate _ _
where
  quiet_resize (s : VS α) (n : Nat) (x : Src α) : Quiet (vecResizeEx s n x) := by
    refine quiet_ite (quiet_ret _) ((quiet_ite (quiet_runDtors _ _ _) (quiet_ret _)).bind fun _ =>
      (quiet_ite (quiet_reallocate _ _) (quiet_ret _)).bind fun _ => quiet_ite (quiet_ret _)
      (quiet_ite ?_ (quiet_ret _)))
    exact quiet_withData fun _ => (quiet_fillLoop _ _ _ _).bind fun _ => quiet_ret _

theorem quiet_runVec : ∀ (ops : List (VOp α)) (s : VS α), Quiet (runVec s ops)
  | [], _ => quiet_ret _
  | op :: ops, s => (quiet_vecOp s op).bind fun _ => (quiet_runVec ops _).bind fun _ => quiet_ret _

end Zy
