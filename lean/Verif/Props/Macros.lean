import Verif.Lemmas.Macros
import Verif.Props.Vector

/-!
# Property theorems: status codes, macros, comparison functions

The vocabulary (`NextMultiple`, `PreviousMultiple`, `BitLength`, `ThreeWay`) is in `Verif.Spec.Macros`.
-/

namespace Zy

open Zy.Spec

/-! ## C65 -/

/-- C65, fields: a status made from an error bit, an 11-bit module and a 20-bit code has these fields,
and is a failure exactly if the bit is set. -/
theorem C65_fields (e m c : Nat) (he : e < 2) (hm : m < 2048) (hc : c < 1048576) :
    (statusModule (makeStatus (.ofNat 32 e) (.ofNat 32 m) (.ofNat 32 c))).toNat = m ∧
    (statusCode (makeStatus (.ofNat 32 e) (.ofNat 32 m) (.ofNat 32 c))).toNat = c ∧
    (failed (makeStatus (.ofNat 32 e) (.ofNat 32 m) (.ofNat 32 c)) = true ↔ e = 1) := by
  have h := makeStatus_toNat (.ofNat 32 e) (.ofNat 32 m) (.ofNat 32 c)
  simp only [BitVec.toNat_ofNat, Nat.reducePow] at h
  rw [module_toNat, code_toNat, failed_iff, h]
  refine ⟨by omega, by omega, ?_⟩
  simp only [Nat.reducePow]
  omega

/-- C65, wide arguments: superfluous high bits of the arguments are ignored. -/
theorem C65_masked (e m c : BitVec 32) : makeStatus e m c =
    makeStatus (.ofNat 32 (e.toNat % 2)) (.ofNat 32 (m.toNat % 2048)) (.ofNat 32 (c.toNat % 1048576)) := by
  apply BitVec.eq_of_toNat_eq
  rw [makeStatus_toNat, makeStatus_toNat]
  simp only [BitVec.toNat_ofNat, Nat.reducePow]
  omega

/-- C65, round trip: every 32-bit status is the one made from its fields. -/
theorem C65_round_trip (s : Status) :
    makeStatus (if failed s then 1 else 0) (statusModule s) (statusCode s) = s := by
  apply BitVec.eq_of_toNat_eq
  rw [makeStatus_toNat, module_toNat, code_toNat]
  have h := failed_iff s
  have hs := s.isLt
  simp only [Nat.reducePow] at h
  by_cases hf : failed s = true
  · have := h.1 hf
    rw [if_pos hf]
    simp only [show (1 : BitVec 32).toNat = 1 from rfl]
    omega
  · have : ¬ 2147483648 ≤ s.toNat := fun hh => hf (h.2 hh)
    rw [if_neg hf]
    simp only [show (0 : BitVec 32).toNat = 0 from rfl]
    omega

/-- C65: the checks for success and failure are complementary, and decided by the top bit alone. -/
theorem C65_complementary (s : Status) :
    (failed s = true ↔ 2147483648 ≤ s.toNat) ∧ (succeeded s = true ↔ s.toNat < 2147483648) := by
  have h := failed_iff s
  simp only [Nat.reducePow] at h
  refine ⟨h, ?_⟩
  rw [show succeeded s = !failed s from rfl, Bool.not_eq_true', ← Bool.not_eq_true, h]
  omega

/-- C65: the predefined codes are distinct; success, true and false are the ones that are no failures. -/
theorem C65_predefined : predefined.Nodup ∧
    predefined.filter succeeded = [stSuccess, stTrue, stFalse] := by decide

example : (statusModule (makeStatus (.ofNat 32 1) (.ofNat 32 1023) (.ofNat 32 77))).toNat = 1023 ∧
    (statusCode (makeStatus (.ofNat 32 1) (.ofNat 32 1023) (.ofNat 32 77))).toNat = 77 ∧
    (failed (makeStatus (.ofNat 32 1) (.ofNat 32 1023) (.ofNat 32 77)) = true ↔ 1 = 1) :=
  C65_fields 1 1023 77 (by decide) (by decide) (by decide)
example : statusModule 0xBFF0004D#32 = 1023#32 ∧ statusCode 0xBFF0004D#32 = 77#32 := by decide
example : makeStatus 3 0x801 0x100002 = 0x80100002#32 := by decide

/-! ## C66 -/

/-- C66: for an alignment that is a power of two, aligning up gives the next multiple, if it is
representable in the type. -/
theorem C66_align_up {w k : Nat} {x a : BitVec w} (ha : a.toNat = 2 ^ k) (hx : x.toNat + 2 ^ k ≤ 2 ^ w) :
    NextMultiple (alignUp x a).toNat x.toNat (2 ^ k) := by
  have hp := Nat.two_pow_pos k
  have e : (x + a - 1).toNat = x.toNat + (2 ^ k - 1) := by
    rw [bv_add_sub, BitVec.toNat_add, mask_toNat ha, Nat.mod_eq_of_lt (by omega)]
  unfold alignUp
  rw [and_not_mask ha, e]
  exact next_multiple hp

/-- C66: if the next multiple is not representable, the result is zero. -/
theorem C66_align_up_wraps {w k : Nat} {x a : BitVec w} (ha : a.toNat = 2 ^ k)
    (hx : 2 ^ w < x.toNat + 2 ^ k) : alignUp x a = 0 := by
  have hp := Nat.two_pow_pos k
  have hxw := x.isLt
  have haw := a.isLt
  have e : (x + a - 1).toNat = x.toNat + (2 ^ k - 1) - 2 ^ w := by
    rw [bv_add_sub, BitVec.toNat_add, mask_toNat ha, Nat.mod_eq_sub_mod (by omega),
      Nat.mod_eq_of_lt (by omega)]
  apply BitVec.eq_of_toNat_eq
  unfold alignUp
  rw [and_not_mask ha, e, Nat.mod_eq_of_lt (by omega)]
  simp

/-- C66: the check for alignment accepts exactly the multiples. -/
theorem C66_is_aligned {w k : Nat} {x a : BitVec w} (ha : a.toNat = 2 ^ k) :
    isAlignedTo x a = true ↔ 2 ^ k ∣ x.toNat := by
  have h := and_mask ha x
  unfold isAlignedTo
  rw [beq_iff_eq, Nat.dvd_iff_mod_eq_zero, ← h]
  constructor
  · intro e; rw [e]; simp
  · intro e; exact BitVec.eq_of_toNat_eq (by rw [e]; simp)

example : NextMultiple (alignUp 4097#64 4096#64).toNat 4097 4096 :=
  C66_align_up (k := 12) (by rfl) (by decide)
example : alignUp 4097#64 4096#64 = 8192#64 ∧ alignUp 4096#64 4096#64 = 4096#64 ∧ alignUp 0#64 8#64 = 0#64 ∧
    isAlignedTo 24#64 8#64 = true ∧ isAlignedTo 20#64 8#64 = false := by decide
example : alignUp 0xFFFFFFFFFFFFFFF9#64 8#64 = 0 := C66_align_up_wraps (k := 3) (by rfl) (by decide)

/-! ## C67 -/

/-- C67. The property demands the conclusion for every value.

Missing: all multiples of the alignment, see `C67_align_down_negation`. -/
theorem C67_align_down_partial {w k : Nat} {x a : BitVec w} (ha : a.toNat = 2 ^ k)
    (hx : ¬ 2 ^ k ∣ x.toNat) : PreviousMultiple (alignDown x a).toNat x.toNat (2 ^ k) := by
  have hp := Nat.two_pow_pos k
  have hx' : x.toNat % 2 ^ k ≠ 0 := fun e => hx (Nat.dvd_of_mod_eq_zero e)
  have hx0 : 1 ≤ x.toNat := by
    rcases Nat.eq_zero_or_pos x.toNat with h | h
    · rw [h] at hx'; simp at hx'
    · exact h
  have e : (x - 1).toNat = x.toNat - 1 := by
    have h1 : (1 : BitVec w).toNat = 1 % 2 ^ w := by simp
    have h2 : 1 % 2 ^ w ≤ 1 := Nat.mod_le _ _
    have hxw := x.isLt
    have h3 : 1 % 2 ^ w = 1 := Nat.mod_eq_of_lt (by omega)
    rw [BitVec.toNat_sub_of_le (by rw [BitVec.le_def, h1]; omega), h1, h3]
  unfold alignDown
  rw [and_not_mask ha, e, previous_pred hp hx']
  exact previous_multiple hp

/-- C67 is false for every multiple of the alignment: such a value is not kept but lowered by the
alignment (zero becomes the greatest multiple). -/
theorem C67_align_down_negation {w k : Nat} {x a : BitVec w} (ha : a.toNat = 2 ^ k)
    (hx : 2 ^ k ∣ x.toNat) :
    alignDown x a = x - a ∧ ¬ PreviousMultiple (alignDown x a).toNat x.toNat (2 ^ k) := by
  have hp := Nat.two_pow_pos k
  have haw := a.isLt
  have hxw := x.isLt
  have e : alignDown x a = x - a := by
    have h1 : x - 1 = (x - a) + (a - 1) := by
      rw [← bv_add_sub, BitVec.sub_add_cancel]
    have hd : (x - a).toNat % 2 ^ k = 0 := by
      have hkw : 2 ^ k ∣ 2 ^ w := Nat.pow_dvd_pow 2 (by
        rw [ha] at haw
        exact Nat.le_of_lt ((Nat.pow_lt_pow_iff_right (by omega)).1 haw))
      rw [BitVec.toNat_sub, ha]
      obtain ⟨c, hc⟩ := hx
      obtain ⟨d, hd⟩ := hkw
      apply Nat.mod_eq_zero_of_dvd
      rw [Nat.dvd_mod_iff ⟨d, hd⟩]
      exact (Nat.dvd_add_iff_left ⟨c, hc⟩).1 ((Nat.dvd_sub ⟨d, hd⟩ (Nat.dvd_refl _)))
    have h2 := Nat.div_add_mod (x - a).toNat (2 ^ k)
    have hlt := (x - a).isLt
    have h3 : (x - 1).toNat = (x - a).toNat + (2 ^ k - 1) := by
      rw [h1, BitVec.toNat_add, mask_toNat ha, Nat.mod_eq_of_lt]
      have hkw : 2 ^ k ∣ 2 ^ w := Nat.pow_dvd_pow 2 (by
        rw [ha] at haw
        exact Nat.le_of_lt ((Nat.pow_lt_pow_iff_right (by omega)).1 haw))
      obtain ⟨d, hd'⟩ := hkw
      obtain ⟨c, hc⟩ := Nat.dvd_of_mod_eq_zero hd
      rw [hc, hd'] at hlt ⊢
      have := Nat.lt_of_mul_lt_mul_left hlt
      have := Nat.mul_le_mul_left (2 ^ k) (show c + 1 ≤ d from this)
      rw [Nat.mul_add, Nat.mul_one] at this
      omega
    apply BitVec.eq_of_toNat_eq
    unfold alignDown
    obtain ⟨c, hc⟩ := Nat.dvd_of_mod_eq_zero hd
    rw [and_not_mask ha, h3, hc, Nat.mul_add_mod, Nat.mod_eq_of_lt (by omega)]
    omega
  refine ⟨e, ?_⟩
  rintro ⟨_, h2, h3⟩
  have h4 := h3 x.toNat hx (Nat.le_refl _)
  rw [e] at h2 h4
  have h5 : x - a = x := BitVec.eq_of_toNat_eq (by omega)
  have h6 := bv_sub_self h5
  rw [h6] at ha
  simp at ha
  omega

example : PreviousMultiple (alignDown 4097#64 4096#64).toNat 4097 4096 :=
  C67_align_down_partial (k := 12) (by rfl) (by decide)
example : alignDown 8192#64 4096#64 = 8192#64 - 4096#64 ∧
    ¬ PreviousMultiple (alignDown 8192#64 4096#64).toNat 8192 4096 :=
  C67_align_down_negation (k := 12) (by rfl) (by decide)
example : alignDown 4097#64 4096#64 = 4096#64 ∧ alignDown 8192#64 4096#64 = 4096#64 ∧
    alignDown 0#64 8#64 = 0xFFFFFFFFFFFFFFF8#64 ∧ alignDown 5#64 1#64 = 4#64 := by decide

/-! ## C68 -/

/-- C68: the check accepts exactly zero and the powers of two. -/
theorem C68_power_of_two {w : Nat} (x : BitVec w) :
    isPowerOf2 x = true ↔ x.toNat = 0 ∨ ∃ k, x.toNat = 2 ^ k := by
  unfold isPowerOf2
  rw [beq_iff_eq]
  by_cases hx : x.toNat = 0
  · have : x = 0 := BitVec.eq_of_toNat_eq (by rw [hx]; simp)
    simp [this]
  · have h1 : (1 : BitVec w).toNat = 1 % 2 ^ w := by simp
    have hxw := x.isLt
    have h3 : 1 % 2 ^ w = 1 := Nat.mod_eq_of_lt (by omega)
    have e : (x - 1).toNat = x.toNat - 1 := by
      rw [BitVec.toNat_sub_of_le (by rw [BitVec.le_def, h1]; omega), h1, h3]
    have h := Nat.and_sub_one_eq_zero_iff_isPowerOfTwo hx
    rw [Nat.isPowerOfTwo] at h
    constructor
    · intro hz
      right
      apply h.1
      rw [← e, ← BitVec.toNat_and, hz]
      simp
    · rintro (h0 | hk)
      · exact absurd h0 hx
      · apply BitVec.eq_of_toNat_eq
        rw [BitVec.toNat_and, e, h.2 hk]
        simp

example : isPowerOf2 4096#64 = true ∧ isPowerOf2 0#64 = true ∧ isPowerOf2 6#64 = false ∧
    isPowerOf2 0x8000000000000000#64 = true := by decide

/-! ## C69 -/

/-- C69. The property demands the conclusion for every value; `l` is the width of `unsigned long`.

Missing: values of more than 32 bits, see the theorems below. -/
theorem C69_bits_partial {l n : Nat} (hl : 32 ≤ l) (hn : n < 2 ^ 32) : BitLength (bitsToRepresent l n) n := by
  obtain ⟨k, hk⟩ := bitLength_exists n
  have hnl : n < 2 ^ l := Nat.lt_of_lt_of_le hn (Nat.pow_le_pow_right (by omega) hl)
  have := sum_needs hnl hk 32
  have hk32 := hk.2 32 hn
  unfold bitsToRepresent
  rw [this, Nat.min_eq_right hk32]
  exact hk

/-- C69: a bit is needed exactly if the value is not below its weight. -/
theorem C69_needs_bit {l n : Nat} (b : Nat) (hn : n < 2 ^ l) : needsBit l n b = true ↔ 2 ^ b ≤ n :=
  needs_iff hn

/-- C69 is false for every value of more than 32 bits: with a 64-bit `unsigned long` the result is
always 32. -/
theorem C69_bits_negation {n : Nat} (h1 : 2 ^ 32 ≤ n) (h2 : n < 2 ^ 64) :
    bitsToRepresent 64 n = 32 ∧ ¬ BitLength (bitsToRepresent 64 n) n := by
  obtain ⟨k, hk⟩ := bitLength_exists n
  have hk32 : 32 ≤ k := by
    rcases Nat.lt_or_ge k 32 with h | h
    · have := hk.1
      have := Nat.pow_le_pow_right (show 0 < 2 by omega) (show k ≤ 32 by omega)
      omega
    · exact h
  have e : bitsToRepresent 64 n = 32 := by
    unfold bitsToRepresent
    rw [sum_needs h2 hk 32, Nat.min_eq_left hk32]
  refine ⟨e, fun h => ?_⟩
  rw [e] at h
  have := h.1
  omega

/-- C69 is false for every value of more than 32 bits also if `unsigned long` has 32 bits: only the low
half counts. -/
theorem C69_bits_negation_32 {n : Nat} (h1 : 2 ^ 32 ≤ n) :
    bitsToRepresent 32 n = bitsToRepresent 32 (n % 2 ^ 32) ∧ ¬ BitLength (bitsToRepresent 32 n) n := by
  have e : bitsToRepresent 32 n = bitsToRepresent 32 (n % 2 ^ 32) := by
    unfold bitsToRepresent needsBit
    simp only [Nat.mod_mod]
  refine ⟨e, fun h => ?_⟩
  have h2 := C69_bits_partial (l := 32) (n := n % 2 ^ 32) (by omega) (Nat.mod_lt _ (Nat.two_pow_pos 32))
  rw [← e] at h2
  have h3 := h2.2 32 (Nat.mod_lt _ (Nat.two_pow_pos 32))
  have h4 := h.1
  have := Nat.pow_le_pow_right (show 0 < 2 by omega) h3
  omega

example : BitLength (bitsToRepresent 64 1000) 1000 := C69_bits_partial (by decide) (by decide)
example : bitsToRepresent 64 1000 = 10 ∧ bitsToRepresent 64 0 = 0 ∧ bitsToRepresent 32 4294967295 = 32 := by
  decide +kernel
example : bitsToRepresent 64 4294967296 = 32 ∧ ¬ BitLength (bitsToRepresent 64 4294967296) 4294967296 :=
  C69_bits_negation (by decide) (by decide)
example : bitsToRepresent 32 4294967298 = 2 := by decide +kernel

/-! ## C70 -/

/-- C70: the predefined comparison functions are three-way comparisons of a total order in which only
identical values are equal. -/
theorem C70_numeric (w : Nat) :
    ThreeWay (fun x y : BitVec w => (compareNumeric x y).toInt) id := by
  refine threeWay_of _ _ (fun b => (b.toNat : Int)) (fun a b h => BitVec.eq_of_toNat_eq (by omega)) ?_
  intro x y
  simp only [compareNumeric, id]
  rw [cmp_toInt]
  simp only [BitVec.ult, decide_eq_true_eq, Int.ofNat_lt]

/-- C70: the same for comparison functions declared for a signed type. -/
theorem C70_signed (w : Nat) : ThreeWay (fun x y : BitVec w => (compareSigned x y).toInt) id := by
  refine threeWay_of _ _ BitVec.toInt (fun a b h => BitVec.eq_of_toInt_eq h) ?_
  intro x y
  simp only [compareSigned, id]
  rw [cmp_toInt]
  simp only [BitVec.slt, decide_eq_true_eq]

/-- C70: the same for comparison functions declared for a field of a struct. -/
theorem C70_field {α : Type} {w : Nat} (field : α → BitVec w) :
    ThreeWay (fun x y : α => (compareField field x y).toInt) field := by
  refine threeWay_of _ _ (fun b => (b.toNat : Int)) (fun a b h => BitVec.eq_of_toNat_eq (by omega)) ?_
  intro x y
  simp only [compareField]
  rw [cmp_toInt]
  simp only [BitVec.ult, decide_eq_true_eq, Int.ofNat_lt]

/-- C70: the comparison functions agree with the equality functions. -/
theorem C70_agree {α : Type} {w : Nat} (field : α → BitVec w) (x y : α) (a b : BitVec w) :
    (equalsNumeric a b = 1 ↔ compareNumeric a b = 0) ∧ (equalsNumeric a b = 1 ↔ a = b) ∧
    (equalsField field x y = 1 ↔ compareField field x y = 0) := by
  have h1 : ∀ c : BitVec 32, c = 0 ↔ c.toInt = 0 := fun c =>
    ⟨fun h => by rw [h]; rfl, fun h => BitVec.eq_of_toInt_eq (by rw [h]; rfl)⟩
  have h2 : ∀ p : Prop, [Decidable p] → ((if p then (1 : ZBool) else 0) = 1 ↔ p) := by
    intro p _; by_cases h : p <;> simp [h]
  refine ⟨?_, ?_, ?_⟩
  · rw [h1, (C70_numeric w).zero a b]
    exact h2 _
  · exact h2 _
  · rw [h1, (C70_field field).zero x y]
    exact h2 _

/-- C70: therefore these functions are valid callbacks for the binary search of vectors: on the elements
of a vector they satisfy the condition of `C09_binary_search_lower_bound`. -/
theorem C70_valid_for_search {α : Type} {w : Nat} (field : α → BitVec w) (d : α) :
    Consistent (fun x y : Cell α => (compareField field (x.getD d) (y.getD d)).toInt) := by
  have h := C70_field field
  refine ⟨fun x y z => h.trans _ _ _, ?_, fun x => (h.zero _ _).2 rfl⟩
  intro x y z h1 h2
  rcases Int.lt_or_le (compareField field (x.getD d) (z.getD d)).toInt 0 with hlt | hge
  · exact hlt
  · exfalso
    have e1 := h.swap (x.getD d) (z.getD d)
    have h3 := h.trans (z.getD d) (x.getD d) (y.getD d) (by omega) h1
    have e2 := h.swap (y.getD d) (z.getD d)
    omega

example : compareNumeric 200#8 100#8 = 1 ∧ compareNumeric 100#8 200#8 = -1 ∧ compareNumeric 5#64 5#64 = 0 ∧
    compareSigned 200#8 100#8 = -1 := by decide
example : compareField (fun p : BitVec 8 × BitVec 32 => p.2) (9, 1) (3, 2) = -1 ∧
    equalsField (fun p : BitVec 8 × BitVec 32 => p.2) (9, 2) (3, 2) = 1 := by decide
example : Consistent (fun x y : Cell (BitVec 32) => (compareField id (x.getD 0) (y.getD 0)).toInt) :=
  C70_valid_for_search id 0

/-! ## C91 -/

/-- C91: the minimum and the maximum of two values are one of them and bound both, by the order of the
type (unsigned or signed). -/
theorem C91_min_max {w : Nat} (a b : BitVec w) :
    (zyMin BitVec.ult a b).toNat = min a.toNat b.toNat ∧ (zyMax BitVec.ult a b).toNat = max a.toNat b.toNat ∧
    (zyMin BitVec.slt a b).toInt = min a.toInt b.toInt ∧ (zyMax BitVec.slt a b).toInt = max a.toInt b.toInt := by
  refine ⟨?_, ?_, ?_, ?_⟩
  · unfold zyMin BitVec.ult; by_cases h : a.toNat < b.toNat <;> simp [h] <;> omega
  · unfold zyMax BitVec.ult; by_cases h : b.toNat < a.toNat <;> simp [h] <;> omega
  · unfold zyMin BitVec.slt; by_cases h : a.toInt < b.toInt <;> simp [h] <;> omega
  · unfold zyMax BitVec.slt; by_cases h : b.toInt < a.toInt <;> simp [h] <;> omega

/-- C91: the absolute value is right for every signed value but the least one.

Missing: the least value, see `C91_abs_negation`. -/
theorem C91_abs_partial {w : Nat} {a : BitVec w} (h : a ≠ BitVec.intMin w) :
    ∃ r, zyAbs a = .ret r ∧ r.toInt = a.toInt.natAbs := by
  unfold zyAbs
  by_cases hn : a.slt 0
  · refine ⟨-a, by rw [if_pos hn, if_neg h], ?_⟩
    have : a.toInt < 0 := by simpa [BitVec.slt] using hn
    rw [BitVec.toInt_neg_of_ne_intMin h]
    omega
  · refine ⟨a, by rw [if_neg hn], ?_⟩
    have : ¬ a.toInt < 0 := by simpa [BitVec.slt] using hn
    omega

/-- C91 is false for the least value of every signed type: its negation overflows. -/
theorem C91_abs_negation {w : Nat} (hw : 0 < w) : zyAbs (BitVec.intMin w) = .ub .other := by
  have h : (BitVec.intMin w).slt 0 = true := by
    rw [BitVec.slt, decide_eq_true_eq, show (0 : BitVec w).toInt = 0 from BitVec.toInt_zero]
    have := BitVec.toInt_intMin (w := w)
    have hp : 0 < 2 ^ (w - 1) := Nat.two_pow_pos _
    have hlt : 2 ^ (w - 1) < 2 ^ w := Nat.pow_lt_pow_right (by omega) (by omega)
    rw [this, Nat.mod_eq_of_lt hlt]
    omega
  rw [zyAbs, if_pos h, if_pos rfl]

example : ∃ r, zyAbs (-5#64) = .ret r ∧ r.toInt = (-5#64).toInt.natAbs := C91_abs_partial (by decide)
example : zyAbs (-5#64) = .ret 5#64 ∧ zyAbs 0x8000000000000000#64 = .ub .other ∧
    zyMin BitVec.slt (-5#32) 3#32 = -5#32 ∧ zyMin BitVec.ult (-5#32) 3#32 = 3#32 := by decide

/-! ## C92 -/

/-- C92: the four extractors recover the fields of a version number, and the version of the library is
1.5.0.0. -/
theorem C92_version (a b c d : BitVec 16) :
    versionMajor (a ++ b ++ c ++ d) = a ∧ versionMinor (a ++ b ++ c ++ d) = b ∧
    versionPatch (a ++ b ++ c ++ d) = c ∧ versionBuild (a ++ b ++ c ++ d) = d := by
  have ha := a.isLt
  have hb := b.isLt
  have hc := c.isLt
  have hd := d.isLt
  have e : (a ++ b ++ c ++ d).toNat =
      a.toNat * 281474976710656 + b.toNat * 4294967296 + c.toNat * 65536 + d.toNat := by
    rw [BitVec.toNat_append, BitVec.toNat_append, BitVec.toNat_append,
      ← Nat.shiftLeft_add_eq_or_of_lt hb, ← Nat.shiftLeft_add_eq_or_of_lt hc, ← Nat.shiftLeft_add_eq_or_of_lt hd]
    simp only [Nat.shiftLeft_eq, Nat.reducePow]
    omega
  have e0 : ∀ v : BitVec 64, versionBuild v = ((v &&& 0xFFFF) >>> 0).setWidth 16 := by
    intro v; simp [versionBuild]
  refine ⟨?_, ?_, ?_, ?_⟩ <;> apply BitVec.eq_of_toNat_eq
  · unfold versionMajor
    rw [field_toNat _ _ 48 (by decide) (by decide), e]
    omega
  · unfold versionMinor
    rw [field_toNat _ _ 32 (by decide) (by decide), e]
    omega
  · unfold versionPatch
    rw [field_toNat _ _ 16 (by decide) (by decide), e]
    omega
  · rw [e0, field_toNat _ _ 0 (by decide) (by decide), e]
    omega

/-- C92: the reported version. -/
theorem C92_reported_version : (versionMajor getVersion, versionMinor getVersion, versionPatch getVersion,
    versionBuild getVersion) = (1, 5, 0, 0) := by decide

example : versionMinor (0x0002#16 ++ 0xFFFF#16 ++ 0x0003#16 ++ 0x0004#16) = 0xFFFF#16 := by decide

/-! ## C93 -/

/-- C93. The property demands the conclusion for every 64-bit value whose next multiple is representable.

Missing: values whose next multiple has more than 32 bits, see `C93_narrow_alignment_negation`. -/
theorem C93_narrow_alignment_partial {k : Nat} {x : BitVec 64} {a : BitVec 32} (ha : a.toNat = 2 ^ k)
    (hx : x.toNat + 2 ^ k ≤ 2 ^ 32) : NextMultiple (alignUpNarrow x a).toNat x.toNat (2 ^ k) := by
  have haw := a.isLt
  have hp := Nat.two_pow_pos k
  have hx2 : x.toNat < 2 ^ 32 := by omega
  have h := C66_align_up (x := x.setWidth 32) ha (by rw [BitVec.toNat_setWidth, Nat.mod_eq_of_lt hx2]; exact hx)
  have e : (alignUpNarrow x a).toNat = (alignUp (x.setWidth 32) a).toNat := by
    unfold alignUpNarrow alignUp
    rw [BitVec.toNat_and, BitVec.toNat_and]
    congr 1
    · have e2 : (a.setWidth 64).toNat = 2 ^ k := by
        rw [BitVec.toNat_setWidth, ha]; exact Nat.mod_eq_of_lt (by omega)
      rw [bv_add_sub, BitVec.toNat_add, mask_toNat e2, bv_add_sub, BitVec.toNat_add,
        mask_toNat ha, BitVec.toNat_setWidth, Nat.mod_eq_of_lt hx2, Nat.mod_eq_of_lt (by omega),
        Nat.mod_eq_of_lt (by omega)]
  rw [e]
  rw [BitVec.toNat_setWidth, Nat.mod_eq_of_lt hx2] at h
  exact h

/-- C93 is false for every value of more than 32 bits: the high half of the result is zero. -/
theorem C93_narrow_alignment_negation {x : BitVec 64} {a : BitVec 32} (hx : 2 ^ 32 ≤ x.toNat) :
    (alignUpNarrow x a).toNat < 2 ^ 32 ∧ ¬ NextMultiple (alignUpNarrow x a).toNat x.toNat a.toNat := by
  have h : (alignUpNarrow x a).toNat < 2 ^ 32 := by
    unfold alignUpNarrow
    rw [BitVec.toNat_and]
    refine Nat.lt_of_le_of_lt Nat.and_le_right ?_
    rw [BitVec.toNat_setWidth]
    have := (~~~(a - 1)).isLt
    exact Nat.lt_of_le_of_lt (Nat.mod_le _ _) this
  refine ⟨h, fun hn => ?_⟩
  have := hn.2.1
  omega

example : NextMultiple (alignUpNarrow 4097#64 4096#32).toNat 4097 4096 :=
  C93_narrow_alignment_partial (k := 12) (by rfl) (by decide)
example : (alignUpNarrow 0x100000001#64 4096#32).toNat < 2 ^ 32 ∧
    ¬ NextMultiple (alignUpNarrow 0x100000001#64 4096#32).toNat 0x100000001 4096 :=
  C93_narrow_alignment_negation (by decide)
example : alignUpNarrow 0x100000001#64 4096#32 = 0x1000#64 := by decide

end Zy
