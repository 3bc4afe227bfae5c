import Verif.Model.Targets
import Verif.Lemmas.Format
import Verif.Lemmas.StringProps

/-! # Lemmas about the choices of the target -/

namespace Zy

open Spec

/-- The decimal functions depend on the size of the local buffer only in what they can hold. -/
theorem decWith_same (t : Str) {value : Nat} (padding : Nat) (hv : value < 10000000000) :
    strAppendDecWith 10 t value padding = strAppendDecWith 20 t value padding := by
  obtain ⟨b0, p0, r0, b1, p1, h1, h2, h3, h4⟩ := decBuffer_ok (maxchars := 10) (value := value) (by decide)
    (by decide) (by omega) (by omega)
  obtain ⟨c0, q0, s0, c1, q1, k1, k2, k3, k4⟩ := decBuffer_ok (maxchars := 20) (value := value) (by decide)
    (by decide) (by omega) (by omega)
  unfold strAppendDecWith
  rw [h1, k1, Out.ret_bind', Out.ret_bind']
  dsimp only
  rw [h2, k2, Out.ret_bind', Out.ret_bind']
  dsimp only
  rw [h3, k3, h4, k4]

theorem high_zero {value : Nat} (hv : value < 18446744073709551616)
    (h : value &&& 0xFFFFFFFF00000000 = 0) : value < 4294967296 := by
  have e : value &&& 0xFFFFFFFF00000000 = value / 4294967296 * 4294967296 := by
    have h1 := Nat.and_two_pow_sub_one_eq_mod value 64
    apply Nat.eq_of_testBit_eq
    intro i
    rw [Nat.testBit_and, show (18446744069414584320 : Nat) = (2 ^ 32 - 1) * 2 ^ 32 from rfl,
      show (4294967296 : Nat) = 2 ^ 32 from rfl, Nat.testBit_mul_two_pow, Nat.testBit_mul_two_pow,
      Nat.testBit_two_pow_sub_one, Nat.testBit_div_two_pow]
    by_cases hi : 32 ≤ i
    · have : i - 32 + 32 = i := by omega
      simp only [hi, decide_true, Bool.true_and, this]
      by_cases h64 : i - 32 < 32
      · simp [h64]
      · have : value.testBit i = false :=
          Nat.testBit_lt_two_pow (Nat.lt_of_lt_of_le hv (by
            rw [show (18446744073709551616 : Nat) = 2 ^ 64 from rfl]
            exact Nat.pow_le_pow_right (by decide) (by omega)))
        simp [this]
    · simp [hi]
  omega

theorem promote_back (signed : Bool) : ∀ a : Byte, (promote signed a).setWidth 8 = a := by
  cases signed <;> decide +kernel

theorem promote_inj (signed : Bool) (a b : Byte) : promote signed a = promote signed b ↔ a = b := by
  constructor
  · intro h
    rw [← promote_back signed a, h, promote_back]
  · intro h; rw [h]

theorem promote_xor (signed : Bool) : ∀ a : Byte, promote signed a ^^^ 32#32 = promote signed (a ^^^ 32#8) := by
  cases signed <;> decide +kernel

theorem eqExactOn_eq (signed : Bool) : eqExactOn signed = eqExact := by
  funext a b
  rw [Bool.eq_iff_iff]
  simp [eqExactOn, eqExact, promote_inj]

theorem eqFoldOn_eq (signed : Bool) : eqFoldOn signed = eqFold := by
  funext a b
  rw [Bool.eq_iff_iff]
  simp [eqFoldOn, eqFold, promote_xor, promote_inj]

theorem lowerByteOn_eq (signed : Bool) : lowerByteOn signed = lowerByte := by
  funext a
  revert a
  cases signed <;> decide +kernel

theorem upperByteOn_eq (signed : Bool) : upperByteOn signed = upperByte := by
  funext a
  revert a
  cases signed <;> decide +kernel

theorem ltFoldOn_signed : ∀ a b : Byte, ltFoldOn true a b = decide ((a ||| 32#8).toInt < (b ||| 32#8).toInt) := by
  have key : ∀ a : Byte, (promote true a ||| 32#32).toInt = (a ||| 32#8).toInt := by decide +kernel
  intro a b
  unfold ltFoldOn
  rw [key, key]

theorem ltFoldOn_unsigned : ∀ a b : Byte,
    ltFoldOn false a b = decide ((a ||| 32#8).toNat < (b ||| 32#8).toNat) := by
  have key : ∀ a : Byte, (promote false a ||| 32#32).toInt = (a ||| 32#8).toNat := by decide +kernel
  intro a b
  unfold ltFoldOn
  rw [key, key]
  simp

theorem toInt_of_ascii : ∀ a : Byte, a < 128#8 → (a ||| 32#8).toInt = (a ||| 32#8).toNat := by
  decide +kernel

theorem toInt_of_high : ∀ a : Byte, 128#8 ≤ a → (a ||| 32#8).toInt = (a ||| 32#8).toNat - 256 := by
  decide +kernel

/-- The result of comparing two texts at the first place where they differ. -/
theorem compareOn_same (signed fold : Bool) {x y : List Byte} {rest rest' : List (Cell Byte)}
    (hl : x.length = y.length) (hb : x.length + 1 < 18446744073709551616) :
    (strCompareOn signed fold (termView x rest) (termView y rest') = .ret (stTrue, 0) ∧
      ∀ j (hj : j < x.length) (hj' : j < y.length), (if fold then eqFold else eqExact) x[j] y[j] = true) ∨
    (∃ k, ∃ hk : k < x.length, ∃ hk' : k < y.length, (if fold then eqFold else eqExact) x[k] y[k] = false ∧
      (∀ j (hj : j < x.length) (hj' : j < y.length), j < k →
        (if fold then eqFold else eqExact) x[j] y[j] = true) ∧
      strCompareOn signed fold (termView x rest) (termView y rest') = .ret (stFalse,
        if ltFoldOn signed x[k] y[k] = true then -1 else 1)) := by
  have hrefl : ∀ a, (if fold then eqFold else eqExact) a a = true := by
    intro a; cases fold <;> simp [eqFold, eqExact]
  have e1 : termView x rest = openView x (some 0#8 :: rest) := rfl
  have e2 : termView y rest' = openView y (some 0#8 :: rest') := rfl
  have h1 : (openView x (some 0#8 :: rest)).size = x.length + 1 := rfl
  have h2 : (openView y (some 0#8 :: rest')).size = y.length + 1 := rfl
  have hE : ∀ a b, eqExactOn signed a b = true ↔ a = b := by
    intro a b; rw [eqExactOn_eq]; simp [eqExact]
  obtain ⟨k, hk, _, hk2, hk3, hk4⟩ := cmpLoop_ok (if fold then eqFold else eqExact)
    (rest := some 0#8 :: rest) (rest' := some 0#8 :: rest') hl hb x.length 0 (x.length + 1 + 1) (by omega)
    (by omega)
  rw [e1, e2]
  unfold strCompareOn
  rw [eqFoldOn_eq, show (if fold = true then eqFold else eqExactOn signed) =
    (if fold = true then eqFold else eqExact) by rw [eqExactOn_eq]]
  rw [h1, h2, if_neg (by omega), if_neg (by omega), hk, Out.ret_bind']
  by_cases hke : k = x.length
  · left
    have hx : rdChar (openView x (some 0#8 :: rest)).mem (k : Int) = .ret 0#8 := by
      rw [hke]; exact rdChar_end
    have hy : rdChar (openView y (some 0#8 :: rest')).mem (k : Int) = .ret 0#8 := by
      rw [hke, hl]; exact rdChar_end
    rw [hx, Out.ret_bind', hy, Out.ret_bind', if_pos ((hE _ _).2 rfl)]
    exact ⟨rfl, fun j hj hj' => hk3 j hj hj' (by omega) (by omega)⟩
  · right
    have hkx : k < x.length := by omega
    have hky : k < y.length := by omega
    have hx : rdChar (openView x (some 0#8 :: rest)).mem (k : Int) = .ret x[k] := rdChar_some hkx
    have hy : rdChar (openView y (some 0#8 :: rest')).mem (k : Int) = .ret y[k] := rdChar_some hky
    have hne : ¬ x[k] = y[k] := by
      intro h
      have := hk4 hkx hky
      rw [h, hrefl] at this
      exact absurd this (by decide)
    refine ⟨k, hkx, hky, hk4 hkx hky, fun j hj hj' hjk => hk3 j hj hj' (by omega) hjk, ?_⟩
    rw [hx, Out.ret_bind', hy, Out.ret_bind', if_neg (fun h => hne ((hE _ _).1 h))]
    split <;> rfl

/-- Both settings find the first difference at the same place. -/
theorem compareOn_both (fold : Bool) {x y : List Byte} {rest rest' : List (Cell Byte)}
    (hl : x.length = y.length) (hb : x.length + 1 < 18446744073709551616) :
    (∀ signed, strCompareOn signed fold (termView x rest) (termView y rest') = .ret (stTrue, 0)) ∨
    (∃ k, ∃ hk : k < x.length, ∃ hk' : k < y.length, (if fold then eqFold else eqExact) x[k] y[k] = false ∧
      ∀ signed, strCompareOn signed fold (termView x rest) (termView y rest') = .ret (stFalse,
        if ltFoldOn signed x[k] y[k] = true then -1 else 1)) := by
  rcases compareOn_same true fold (rest := rest) (rest' := rest') hl hb with ⟨h1, h2⟩ | ⟨k, hk, hk', h1, h2, h3⟩
  · left
    intro signed
    rcases compareOn_same signed fold (rest := rest) (rest' := rest') hl hb with ⟨h3, _⟩ | ⟨k, hk, hk', h3, _⟩
    · exact h3
    · rw [h2 k hk hk'] at h3; exact absurd h3 (by decide)
  · right
    refine ⟨k, hk, hk', h1, ?_⟩
    intro signed
    rcases compareOn_same signed fold (rest := rest) (rest' := rest') hl hb with ⟨_, h4⟩ | ⟨m, hm, hm', h4, h5, h6⟩
    · rw [h4 k hk hk'] at h1; exact absurd h1 (by decide)
    · have : m = k := by
        rcases Nat.lt_trichotomy m k with h | h | h
        · rw [h2 m hm hm' h] at h4; exact absurd h4 (by decide)
        · exact h
        · rw [h5 k hk hk' h] at h1; exact absurd h1 (by decide)
      subst this
      exact h6

theorem lt_halves : ∀ a b : Byte, a < 128#8 → 128#8 ≤ b →
    ltFoldOn true a b = false ∧ ltFoldOn false a b = true ∧ ltFoldOn true b a = true ∧ ltFoldOn false b a = false ∧
    eqFold a b = false ∧ eqFold b a = false := by
  intro a b ha hb
  rw [ltFoldOn_signed, ltFoldOn_unsigned, ltFoldOn_signed, ltFoldOn_unsigned]
  have h1 := toInt_of_ascii a ha
  have h2 := toInt_of_high b hb
  have h3 : (a ||| 32#8).toNat < 128 := by revert a; decide +kernel
  have h4 : 128 ≤ (b ||| 32#8).toNat := by revert b; decide +kernel
  have h5 := (b ||| 32#8).isLt
  have h6 : (a ^^^ 32#8) < 128#8 := by revert a; decide +kernel
  have h7 : 128#8 ≤ (b ^^^ 32#8) := by revert b; decide +kernel
  rw [BitVec.lt_def] at ha h6
  rw [BitVec.le_def] at hb h7
  have hf : eqFold a b = false ∧ eqFold b a = false := by
    constructor
    all_goals
      rw [Bool.eq_false_iff]
      intro h
      simp only [eqFold, Bool.or_eq_true, beq_iff_eq] at h
      rcases h with h | h
    · rw [h] at ha; omega
    · rw [h] at h6; omega
    · rw [← h] at ha; omega
    · rw [h] at h7; omega
  refine ⟨?_, ?_, ?_, ?_, hf⟩
  all_goals simp only [decide_eq_true_eq, decide_eq_false_iff_not]
  all_goals omega

end Zy
