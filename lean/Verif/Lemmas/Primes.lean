import Verif.Model.Primes
import Verif.Spec.Primes
import Verif.Lemmas.BitsetProps

/-!
# Lemmas: the sieve of Eratosthenes
-/

namespace Zy

open Spec

/-- The bit `k` is set. -/
def BitOn (t : Bits) (k : Nat) : Prop := (babsOf t).bits[k]? = some true

theorem reach_size {P : Params} {t : Bits} (h : BReach P t) : bsGetSize t = (babsOf t).bits.length := by
  obtain ⟨bytes, b, sl, R⟩ := h.rep
  exact R.size

theorem set_reach {P : Params} {t : Bits} (h : BReach P t) {i : Nat} (hi : i < (babsOf t).bits.length) :
    ∃ t', bsSet t i = .ret (stSuccess, t') ∧ BReach P t' ∧ (babsOf t').bits = (babsOf t).bits.set i true ∧
      (babsOf t').stray = (babsOf t).stray := by
  obtain ⟨bytes, b, sl, R⟩ := h.rep
  obtain ⟨t', bytes', b', sl', e, R'⟩ := bop_ok R (.set i) trivial
  have hstep : bstep P (babsOf t) (.set i) = (stSuccess, { babsOf t with bits := (babsOf t).bits.set i true }) := by
    simp only [bstep, change, List.getElem?_eq_getElem hi]
  rw [hstep] at e R'
  refine ⟨t', e, .step (op := .set i) h trivial e, ?_⟩
  rw [R'.abs_eq]
  exact ⟨rfl, rfl⟩

theorem resetAll_reach {P : Params} {t : Bits} (h : BReach P t) :
    ∃ t', bsResetAll t = .ret (stSuccess, t') ∧ BReach P t' ∧ ((babsOf t').bits = (babsOf t).bits.map fun _ => false) ∧
      ∀ x ∈ (babsOf t').stray, x = false := by
  obtain ⟨bytes, b, sl, R⟩ := h.rep
  obtain ⟨t', bytes', b', sl', e, R'⟩ := bop_ok R .resetAll trivial
  refine ⟨t', e, .step (op := .resetAll) h trivial e, ?_⟩
  rw [R'.abs_eq]
  refine ⟨rfl, fun x hx => ?_⟩
  obtain ⟨_, _, rfl⟩ := List.mem_map.1 hx
  rfl

theorem test_reach {P : Params} {t : Bits} (h : BReach P t) {i : Nat} (hi : i < (babsOf t).bits.length) :
    (BitOn t i ∧ bsTest t i = .ret stTrue) ∨ (¬ BitOn t i ∧ bsTest t i = .ret stFalse) := by
  obtain ⟨bytes, b, sl, R⟩ := h.rep
  rw [test_ok R, BitOn, List.getElem?_eq_getElem hi]
  cases (babsOf t).bits[i]
  · exact Or.inr ⟨by simp, rfl⟩
  · exact Or.inl ⟨rfl, rfl⟩

theorem bitOn_set {t t' : Bits} {i : Nat} (hi : i < (babsOf t).bits.length)
    (h : (babsOf t').bits = (babsOf t).bits.set i true) (k : Nat) : BitOn t' k ↔ BitOn t k ∨ k = i := by
  unfold BitOn
  rw [h, List.getElem?_set]
  by_cases hk : i = k
  · subst hk
    simp [hi]
  · rw [if_neg hk]
    constructor
    · exact Or.inl
    · rintro (h | h)
      · exact h
      · exact absurd h.symm hk

theorem add64_small {a b : Nat} (h : a + b < 18446744073709551616) : add64 a b = a + b := Nat.mod_eq_of_lt h

theorem strikeOut_ok {P : Params} {i len : Nat} (hi : 0 < i) (hil : i ≤ len) (hlen : len < 9223372036854775808) :
    ∀ (n j : Nat) {t : Bits}, BReach P t → (babsOf t).bits.length = len → len - j ≤ n →
    ∃ t', strikeOut i n j t = .ret (stSuccess, t') ∧ BReach P t' ∧ (babsOf t').bits.length = len ∧
      (babsOf t').stray = (babsOf t).stray ∧ ∀ k, BitOn t' k ↔ BitOn t k ∨ (k < len ∧ ∃ m, k = j + m * i) := by
  intro n
  induction n with
  | zero =>
    intro j t h hl hn
    refine ⟨t, rfl, h, hl, rfl, fun k => ⟨Or.inl, ?_⟩⟩
    rintro (h | ⟨h1, m, rfl⟩)
    · exact h
    · have : j ≤ j + m * i := Nat.le_add_right _ _
      omega
  | succ n ih =>
    intro j t h hl hn
    by_cases hj : j < len
    · obtain ⟨t1, e1, h1, g1, s1⟩ := set_reach h (i := j) (by omega)
      have l1 : (babsOf t1).bits.length = len := by rw [g1, List.length_set, hl]
      obtain ⟨t2, e2, h2, l2, s2, g2⟩ := ih (j + i) h1 l1 (by omega)
      refine ⟨t2, ?_, h2, l2, s2.trans s1, fun k => ?_⟩
      · rw [strikeOut, reach_size h, hl, if_pos hj, e1, Out.ret_bind']
        dsimp only
        rw [if_neg (by rw [failed_success]; decide), add64_small (by omega), e2]
      · rw [g2, bitOn_set (by omega) g1]
        constructor
        · rintro ((h | rfl) | ⟨hk, m, rfl⟩)
          · exact Or.inl h
          · exact Or.inr ⟨hj, 0, by simp⟩
          · exact Or.inr ⟨hk, m + 1, by rw [Nat.succ_mul]; omega⟩
        · rintro (h | ⟨hk, m, rfl⟩)
          · exact Or.inl (Or.inl h)
          · cases m with
            | zero => exact Or.inl (Or.inr (by simp))
            | succ m => exact Or.inr ⟨hk, m, by rw [Nat.succ_mul]; omega⟩
    · refine ⟨t, ?_, h, hl, rfl, fun k => ⟨Or.inl, ?_⟩⟩
      · rw [strikeOut, reach_size h, hl, if_neg hj]
      · rintro (h | ⟨h1, m, rfl⟩)
        · exact h
        · have : j ≤ j + m * i := Nat.le_add_right _ _
          omega

/-- `k` has a divisor from 2 to `i - 1` that is smaller than itself. -/
def Struck (i k : Nat) : Prop := ∃ d, 2 ≤ d ∧ d < i ∧ d ∣ k ∧ d < k

theorem struck_succ (i k : Nat) (hi : 2 ≤ i) : Struck (i + 1) k ↔ Struck i k ∨ ∃ m, k = i + i + m * i := by
  constructor
  · rintro ⟨d, h1, h2, ⟨c, hc⟩, h4⟩
    by_cases hd : d = i
    · subst hd
      match c, hc with
      | 0, hc => rw [Nat.mul_zero] at hc; omega
      | 1, hc => rw [Nat.mul_one] at hc; omega
      | c + 2, hc =>
        refine Or.inr ⟨c, ?_⟩
        rw [hc, Nat.mul_add, Nat.mul_comm d c]
        omega
    · exact Or.inl ⟨d, h1, by omega, ⟨c, hc⟩, h4⟩
  · rintro (⟨d, h1, h2, h3, h4⟩ | ⟨m, rfl⟩)
    · exact ⟨d, h1, by omega, h3, h4⟩
    · refine ⟨i, hi, by omega, ⟨m + 2, ?_⟩, ?_⟩
      · rw [Nat.mul_add, Nat.mul_comm i m]
        omega
      · have : 0 ≤ m * i := Nat.zero_le _
        omega

/-- The multiples of a number that is struck are struck. -/
theorem struck_multiple {i k : Nat} (h : Struck i i) (hk : ∃ m, k = i + i + m * i) : Struck i k := by
  obtain ⟨d, h1, h2, h3, h4⟩ := h
  obtain ⟨m, rfl⟩ := hk
  refine ⟨d, h1, h2, ?_, ?_⟩
  · exact Nat.dvd_add (Nat.dvd_add h3 h3) (Nat.dvd_trans h3 (Nat.dvd_mul_left i m))
  · have : 0 ≤ m * i := Nat.zero_le _
    omega

theorem sieveFrom_ok {P : Params} {len : Nat} (hlen : len < 9223372036854775808) :
    ∀ (n i : Nat) {t : Bits}, BReach P t → (babsOf t).bits.length = len → len - i ≤ n → 2 ≤ i →
    (∀ k, BitOn t k ↔ k < len ∧ Struck i k) →
    ∃ t' i', sieveFrom n i t = .ret (stSuccess, t') ∧ BReach P t' ∧ (babsOf t').bits.length = len ∧ len ≤ i' ∧
      (babsOf t').stray = (babsOf t).stray ∧ ∀ k, BitOn t' k ↔ k < len ∧ Struck i' k := by
  intro n
  induction n with
  | zero =>
    intro i t h hl hn _ hb
    exact ⟨t, i, rfl, h, hl, by omega, rfl, hb⟩
  | succ n ih =>
    intro i t h hl hn h2 hb
    by_cases hi : i < len
    · rcases test_reach h (i := i) (by omega) with ⟨hon, et⟩ | ⟨hoff, et⟩
      · obtain ⟨t', i', e', h', l', hi', s', g'⟩ := ih (i + 1) h hl (by omega) (by omega) (by
          intro k
          rw [hb, struck_succ i k h2]
          refine ⟨fun ⟨h1, h2⟩ => ⟨h1, Or.inl h2⟩, fun ⟨h1, h2⟩ => ⟨h1, h2.elim id ?_⟩⟩
          exact struck_multiple ((hb i).1 hon).2)
        refine ⟨t', i', ?_, h', l', hi', s', g'⟩
        rw [sieveFrom, reach_size h, hl, if_pos hi, et, Out.ret_bind', if_neg (by decide), add64_small (by omega), e']
      · obtain ⟨t1, e1, h1, l1, s1, g1⟩ := strikeOut_ok (i := i) (by omega) (by omega) hlen len (i + i) h hl (by omega)
        obtain ⟨t', i', e', h', l', hi', s', g'⟩ := ih (i + 1) h1 l1 (by omega) (by omega) (by
          intro k
          rw [g1, hb, struck_succ i k h2]
          constructor
          · rintro (⟨a, b⟩ | ⟨a, b⟩)
            · exact ⟨a, Or.inl b⟩
            · exact ⟨a, Or.inr b⟩
          · rintro ⟨a, b | b⟩
            · exact Or.inl ⟨a, b⟩
            · exact Or.inr ⟨a, b⟩)
        refine ⟨t', i', ?_, h', l', hi', s'.trans s1, g'⟩
        rw [sieveFrom, reach_size h, hl, if_pos hi, et, Out.ret_bind', if_pos rfl, add64_small (by omega), e1, Out.ret_bind']
        dsimp only
        rw [if_neg (by rw [failed_success]; decide), add64_small (by omega), e']
    · exact ⟨t, i, by rw [sieveFrom, reach_size h, hl, if_neg hi], h, hl, by omega, rfl, hb⟩

theorem struck_prime {i k : Nat} (h2 : 2 ≤ k) (hk : k ≤ i) : ¬ Struck i k ↔ IsPrime k := by
  constructor
  · intro h
    refine ⟨h2, fun d hd => ?_⟩
    have hle := Nat.le_of_dvd (by omega) hd
    by_cases h0 : d = 0
    · subst h0
      rw [Nat.zero_dvd] at hd
      omega
    · by_cases h1 : d = 1
      · exact Or.inl h1
      · by_cases hdk : d = k
        · exact Or.inr hdk
        · exact absurd ⟨d, by omega, by omega, hd, by omega⟩ h
  · rintro ⟨_, h⟩ ⟨d, h1, _, h3, h4⟩
    rcases h d h3 with rfl | rfl <;> omega

/-- The program as a whole. -/
theorem sievePrimes_ok {P : Params} {t : Bits} (h : BReach P t) (hs : (babsOf t).bits.length < 9223372036854775808) :
    ∃ t' i', sievePrimes t = .ret (stSuccess, t') ∧ BReach P t' ∧ (babsOf t').bits.length = (babsOf t).bits.length ∧
      (babsOf t).bits.length ≤ i' ∧ (∀ x ∈ (babsOf t').stray, x = false) ∧
      ∀ k, BitOn t' k ↔ k < (babsOf t).bits.length ∧ Struck i' k := by
  obtain ⟨t1, e1, h1, g1, s1⟩ := resetAll_reach h
  have l1 : (babsOf t1).bits.length = (babsOf t).bits.length := by rw [g1, List.length_map]
  obtain ⟨t', i', e', h', l', hi', s', g'⟩ := sieveFrom_ok hs (babsOf t).bits.length 2 h1 l1 (by omega) (Nat.le_refl 2) (by
    intro k
    constructor
    · intro hk
      unfold BitOn at hk
      rw [g1, List.getElem?_map] at hk
      cases hg : (babsOf t).bits[k]? with
      | none => rw [hg] at hk; cases hk
      | some b => rw [hg] at hk; cases hk
    · rintro ⟨_, d, a, b, _⟩
      omega)
  refine ⟨t', i', ?_, h', l', hi', by rw [s']; exact s1, g'⟩
  rw [sievePrimes, e1, Out.ret_bind']
  dsimp only
  rw [if_neg (by rw [failed_success]; decide), reach_size h1, l1, e']

/-- The set bits and the indices of the others are together as many as there are bits. -/
theorem count_unset (l : List Bool) : ∀ n, n ≤ l.length →
    (l.take n).count true + ((List.range n).filter fun k => decide (l[k]? ≠ some true)).length = n := by
  intro n
  induction n with
  | zero => intro _; rfl
  | succ n ih =>
    intro hn
    have hi := ih (by omega)
    rw [List.take_add_one, List.range_succ, List.count_append, List.filter_append, List.length_append,
      List.getElem?_eq_getElem (by omega)]
    cases hb : l[n] with
    | true => simp [List.getElem?_eq_getElem (show n < l.length by omega), hb] at hi ⊢; omega
    | false => simp [List.getElem?_eq_getElem (show n < l.length by omega), hb] at hi ⊢; omega

end Zy
