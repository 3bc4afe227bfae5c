import Verif.Model.Macros
import Verif.Spec.Macros

/-!
# Helper lemmas for the macros
-/

namespace Zy

open Spec

theorem mask_toNat {w k : Nat} {a : BitVec w} (ha : a.toNat = 2 ^ k) : (a - 1).toNat = 2 ^ k - 1 := by
  have h := a.isLt
  have hp : 0 < 2 ^ k := Nat.two_pow_pos k
  rw [BitVec.toNat_sub, ha]
  rw [ha] at h
  have h1 : (1 : BitVec w).toNat = 1 % 2 ^ w := by simp
  rw [h1]
  rcases Nat.eq_or_lt_of_le (show 1 ≤ 2 ^ w from Nat.two_pow_pos w) with hw | hw
  · omega
  · rw [Nat.mod_eq_of_lt hw]
    rw [show 2 ^ w - 1 + 2 ^ k = 2 ^ w + (2 ^ k - 1) by omega, Nat.add_mod_left]
    exact Nat.mod_eq_of_lt (by omega)

theorem and_mask {w k : Nat} {a : BitVec w} (ha : a.toNat = 2 ^ k) (x : BitVec w) :
    (x &&& (a - 1)).toNat = x.toNat % 2 ^ k := by
  rw [BitVec.toNat_and, mask_toNat ha, Nat.and_two_pow_sub_one_eq_mod]

theorem and_not_mask {w k : Nat} {a : BitVec w} (ha : a.toNat = 2 ^ k) (x : BitVec w) :
    (x &&& ~~~(a - 1)).toNat = x.toNat - x.toNat % 2 ^ k := by
  have h1 : (x &&& ~~~(a - 1)) + (x &&& (a - 1)) = x := by
    rw [BitVec.add_eq_or_of_and_eq_zero]
    · ext i; simp; cases x[i] <;> cases (a - 1)[i] <;> simp
    · ext i; simp; cases x[i] <;> cases (a - 1)[i] <;> simp
  have h2 := and_mask ha x
  have h3 : (x &&& ~~~(a - 1)) = x - (x &&& (a - 1)) := by
    rw [BitVec.eq_sub_iff_add_eq]
    exact h1
  rw [h3, BitVec.toNat_sub_of_le, h2]
  rw [BitVec.le_def, h2]
  exact Nat.mod_le _ _

theorem next_multiple {x a : Nat} (ha : 0 < a) : NextMultiple ((x + (a - 1)) - (x + (a - 1)) % a) x a := by
  have h1 := Nat.div_add_mod (x + (a - 1)) a
  have h2 := Nat.mod_lt (x + (a - 1)) ha
  refine ⟨?_, by omega, ?_⟩
  · exact ⟨(x + (a - 1)) / a, by omega⟩
  · rintro y ⟨c, rfl⟩ hy
    rcases Nat.lt_or_ge c ((x + (a - 1)) / a) with h | h
    · have := Nat.mul_le_mul_left a (show c + 1 ≤ (x + (a - 1)) / a from h)
      rw [Nat.mul_add, Nat.mul_one] at this
      omega
    · have := Nat.mul_le_mul_left a h
      omega

theorem previous_multiple {x a : Nat} (ha : 0 < a) : PreviousMultiple (x - x % a) x a := by
  have h1 := Nat.div_add_mod x a
  have h2 := Nat.mod_lt x ha
  refine ⟨⟨x / a, by omega⟩, by omega, ?_⟩
  rintro y ⟨c, rfl⟩ hy
  rcases Nat.lt_or_ge (x / a) c with h | h
  · have := Nat.mul_le_mul_left a (show x / a + 1 ≤ c from h)
    rw [Nat.mul_add, Nat.mul_one] at this
    omega
  · have := Nat.mul_le_mul_left a h
    omega

/-- Below a number that is not a multiple, its predecessor has the same multiple. -/
theorem previous_pred {x a : Nat} (ha : 0 < a) (hx : x % a ≠ 0) : (x - 1) - (x - 1) % a = x - x % a := by
  have h1 := Nat.div_add_mod x a
  have h2 := Nat.mod_lt x ha
  have e : x - 1 = a * (x / a) + (x % a - 1) := by omega
  have e2 : (x - 1) % a = x % a - 1 := by
    rw [e, Nat.mul_add_mod]
    exact Nat.mod_eq_of_lt (by omega)
  omega

/-! ## Number of bits -/

theorem needs_iff {l n b : Nat} (hn : n < 2 ^ l) : needsBit l n b = true ↔ 2 ^ b ≤ n := by
  unfold needsBit
  rw [Nat.mod_eq_of_lt hn, Nat.shiftRight_eq_div_pow, decide_eq_true_eq]
  have hp := Nat.two_pow_pos b
  constructor
  · intro h
    rcases Nat.lt_or_ge n (2 ^ b) with h' | h'
    · rw [Nat.div_eq_of_lt h'] at h; omega
    · exact h'
  · intro h
    exact Nat.div_pos h hp

/-- Of the first `m` bit positions, those below the bit length are needed. -/
theorem sum_needs {l n k : Nat} (hn : n < 2 ^ l) (hk : BitLength k n) : ∀ m,
    ((List.range m).map fun b => (needsBit l n b).toNat).sum = min m k := by
  intro m
  induction m with
  | zero => simp
  | succ m ih =>
    rw [List.range_succ, List.map_append, List.sum_append, ih]
    simp only [List.map_cons, List.map_nil, List.sum_cons, List.sum_nil, Nat.add_zero]
    by_cases h : 2 ^ m ≤ n
    · rw [(needs_iff hn).2 h]
      have : m < k := by
        rcases Nat.lt_or_ge m k with h' | h'
        · exact h'
        · have := Nat.pow_le_pow_right (show 0 < 2 by omega) h'
          have := hk.1
          omega
      simp; omega
    · have hf : needsBit l n m = false := by
        cases hb : needsBit l n m with
        | false => rfl
        | true => exact absurd ((needs_iff hn).1 hb) h
      rw [hf]
      have := hk.2 m (by omega)
      simp; omega

theorem bitLength_exists (n : Nat) : ∃ k, BitLength k n := by
  by_cases h : n = 0
  · exact ⟨0, by simp [h], fun j _ => Nat.zero_le j⟩
  · refine ⟨n.log2 + 1, Nat.lt_log2_self, fun j hj => ?_⟩
    have h1 := Nat.log2_self_le h
    exact (Nat.pow_lt_pow_iff_right (show 1 < 2 by omega)).1 (Nat.lt_of_le_of_lt h1 hj)

/-! ## Status codes -/

theorem failed_iff (s : Status) : failed s = true ↔ 2 ^ 31 ≤ s.toNat := by
  have h := and_not_mask (w := 32) (k := 31) (a := 0x80000000#32) (by rfl) s
  have e : ~~~(0x80000000#32 - 1) = 0x80000000#32 := by decide
  rw [e] at h
  have hs := s.isLt
  unfold failed
  rw [bne_iff_ne]
  constructor
  · intro hne
    rcases Nat.lt_or_ge s.toNat (2 ^ 31) with hlt | hge
    · exact absurd (BitVec.eq_of_toNat_eq (by rw [h, Nat.mod_eq_of_lt hlt]; simp)) hne
    · exact hge
  · intro hge hz
    rw [hz] at h
    simp at h
    omega

theorem makeStatus_toNat (e m c : BitVec 32) : (makeStatus e m c).toNat =
    e.toNat % 2 * 2147483648 + m.toNat % 2048 * 1048576 + c.toNat % 1048576 := by
  have he := and_mask (w := 32) (k := 1) (a := 2#32) (by rfl) e
  have hm := and_mask (w := 32) (k := 11) (a := 0x800#32) (by rfl) m
  have hc := and_mask (w := 32) (k := 20) (a := 0x100000#32) (by rfl) c
  rw [show (2#32 - 1) = 1#32 from by decide] at he
  rw [show (0x800#32 - 1) = 0x7FF#32 from by decide] at hm
  rw [show (0x100000#32 - 1) = 0xFFFFF#32 from by decide] at hc
  unfold makeStatus
  simp only [BitVec.toNat_or, BitVec.toNat_shiftLeft]
  rw [he, hm, hc, Nat.shiftLeft_eq, Nat.shiftLeft_eq]
  generalize hE : e.toNat % 2 = E
  generalize hM : m.toNat % 2048 = M
  generalize hC : c.toNat % 1048576 = C
  have hE' : E < 2 := by omega
  have hM' : M < 2048 := by omega
  have hC' : C < 2 ^ 20 := by omega
  simp only [Nat.reducePow]
  have e1 : E * 2147483648 % 4294967296 = E <<< 31 := by
    simp only [Nat.shiftLeft_eq, Nat.reducePow]; exact Nat.mod_eq_of_lt (by omega)
  have e2 : M * 1048576 % 4294967296 = M <<< 20 := by
    simp only [Nat.shiftLeft_eq, Nat.reducePow]; exact Nat.mod_eq_of_lt (by omega)
  have h1 : M <<< 20 < 2 ^ 31 := by simp only [Nat.shiftLeft_eq, Nat.reducePow]; omega
  rw [e1, e2, ← Nat.shiftLeft_add_eq_or_of_lt h1]
  have e3 : E <<< 31 + M <<< 20 = (E * 2048 + M) <<< 20 := by
    simp only [Nat.shiftLeft_eq, Nat.reducePow]; omega
  rw [e3, ← Nat.shiftLeft_add_eq_or_of_lt hC']
  simp only [Nat.shiftLeft_eq, Nat.reducePow]
  omega

theorem module_toNat (s : Status) : (statusModule s).toNat = s.toNat / 1048576 % 2048 := by
  unfold statusModule
  have h := and_mask (w := 32) (k := 11) (a := 0x800#32) (by rfl) (s >>> 20)
  rw [show (0x800#32 - 1) = 0x7FF#32 from by decide] at h
  rw [h, BitVec.toNat_ushiftRight, Nat.shiftRight_eq_div_pow]

theorem code_toNat (s : Status) : (statusCode s).toNat = s.toNat % 1048576 := by
  unfold statusCode
  have h := and_mask (w := 32) (k := 20) (a := 0x100000#32) (by rfl) s
  rw [show (0x100000#32 - 1) = 0xFFFFF#32 from by decide] at h
  rw [h]

/-! ## The version -/

/-- A field of sixteen bits. -/
theorem field_toNat (v : BitVec 64) (mask : BitVec 64) (k : Nat) (h : mask = 0xFFFF#64 <<< k) (hk : k ≤ 48) :
    (((v &&& mask) >>> k).setWidth 16).toNat = v.toNat / 2 ^ k % 65536 := by
  have e : (v &&& mask) >>> k = (v >>> k) &&& 0xFFFF#64 := by
    rw [h, BitVec.ushiftRight_and_distrib]
    congr 1
    apply BitVec.eq_of_toNat_eq
    rw [BitVec.toNat_ushiftRight, BitVec.toNat_shiftLeft, Nat.shiftLeft_eq, Nat.shiftRight_eq_div_pow]
    have hp : (2 : Nat) ^ k ≤ 2 ^ 48 := Nat.pow_le_pow_right (by omega) hk
    have h2 := Nat.two_pow_pos k
    have hf : (0xFFFF#64).toNat = 65535 := rfl
    rw [hf, Nat.mod_eq_of_lt (by omega), Nat.mul_div_cancel _ h2]
  have hm := and_mask (w := 64) (k := 16) (a := 0x10000#64) (by rfl) (v >>> k)
  rw [show (0x10000#64 - 1) = 0xFFFF#64 from by decide, ← e, BitVec.toNat_ushiftRight (x := v),
    Nat.shiftRight_eq_div_pow] at hm
  rw [BitVec.toNat_setWidth, hm]
  omega

/-! ## Comparisons -/

theorem cmp_toInt (a b : Prop) [Decidable a] [Decidable b] :
    (if a then (-1 : BitVec 32) else if b then 1 else 0).toInt = if a then -1 else if b then 1 else 0 := by
  by_cases ha : a <;> by_cases hb : b <;> simp [ha, hb]

theorem threeWay_of {α β : Type} (cmp : α → α → Int) (key : α → β) (val : β → Int)
    (inj : ∀ a b, val a = val b → a = b)
    (h : ∀ x y, cmp x y = if val (key x) < val (key y) then -1 else if val (key y) < val (key x) then 1 else 0) :
    ThreeWay cmp key := by
  refine ⟨?_, ?_, ?_, ?_⟩
  · intro x y; rw [h]; split
    · simp
    · split <;> simp
  · intro x y
    rw [h]
    constructor
    · intro he
      refine inj _ _ ?_
      split at he
      · simp at he
      · split at he
        · simp at he
        · omega
    · intro he; simp [he]
  · intro x y
    rw [h, h]
    split <;> split <;> first | omega | skip
    all_goals split <;> omega
  · intro x y z h1 h2
    rw [h] at h1 h2 ⊢
    split at h1 <;> split at h2 <;> (try split at h1) <;> (try split at h2) <;> split <;> (try split) <;> omega

theorem bv_add_sub {w : Nat} (x y z : BitVec w) : x + y - z = x + (y - z) := by
  rw [BitVec.sub_eq_add_neg, BitVec.sub_eq_add_neg, BitVec.add_assoc]

theorem bv_sub_self {w : Nat} {x a : BitVec w} (h : x - a = x) : a = 0#w := by
  have h2 : x = x + a := by
    have := congrArg (fun z => z + a) h
    rwa [BitVec.sub_add_cancel] at this
  have h3 : a + x = 0#w + x := by rw [BitVec.add_comm, ← h2, BitVec.zero_add]
  have := congrArg (fun z => z - x) h3
  simpa [BitVec.add_sub_cancel] using this

end Zy
