import Verif.Spec.Api

/-!
# Lemmas about the memory functions
-/

namespace Zy

open Zy.Spec

theorem pageCount_lt {ps size : Nat} (hp : 0 < ps) (i : Nat) : i < pageCount ps size ↔ i * ps < size := by
  unfold pageCount
  rw [Nat.lt_iff_add_one_le, Nat.le_div_iff_mul_le hp, Nat.add_mul, Nat.one_mul]
  omega

/-- The pages that a range touches, if it begins at a page boundary. -/
theorem touches_iff {ps addr size : Nat} (hp : 0 < ps) (ha : addr % ps = 0) (q : Nat) :
    Touches ps addr size q ↔ addr / ps ≤ q ∧ q < addr / ps + pageCount ps size := by
  have e : addr = addr / ps * ps := by
    have := Nat.div_add_mod addr ps
    rw [ha, Nat.mul_comm] at this; omega
  generalize addr / ps = f at *
  constructor
  · rintro ⟨b, h1, h2, rfl⟩
    have h3 : f ≤ b / ps := (Nat.le_div_iff_mul_le hp).2 (by omega)
    refine ⟨h3, ?_⟩
    have h4 : b / ps - f < pageCount ps size := by
      rw [pageCount_lt hp, Nat.sub_mul]
      have := Nat.div_mul_le_self b ps
      have := Nat.mul_le_mul_right ps h3
      omega
    omega
  · rintro ⟨h1, h2⟩
    have h3 : q - f < pageCount ps size := by omega
    rw [pageCount_lt hp, Nat.sub_mul] at h3
    have := Nat.mul_le_mul_right ps h1
    exact ⟨q * ps, by omega, by omega, Nat.mul_div_cancel q hp⟩

theorem allMapped_iff (s : Pages) : ∀ (n f : Nat),
    allMapped s f n = true ↔ ∀ q, f ≤ q → q < f + n → (s q).isSome = true
  | 0, f => by simp [allMapped]; intro q h1 h2; omega
  | n + 1, f => by
    rw [allMapped, Bool.and_eq_true, allMapped_iff s n (f + 1)]
    constructor
    · rintro ⟨h1, h2⟩ q h3 h4
      rcases Nat.eq_or_lt_of_le h3 with e | e
      · rw [← e]; exact h1
      · exact h2 q e (by omega)
    · intro h
      exact ⟨h f (Nat.le_refl _) (by omega), fun q h1 h2 => h q (by omega) (by omega)⟩

theorem setPages_out {s : Pages} {f n q : Nat} {v : Option (BitVec 32)} {b : Bool}
    (h : ¬ (f ≤ q ∧ q < f + n)) : setPages s f n v b q = s q := by
  unfold setPages
  exact if_neg fun h' => h ⟨h'.1, h'.2.1⟩

theorem sysStatus_success (e : Option Errno) : sysStatus e = stSuccess ↔ e = none := by
  cases e with
  | none => simp [sysStatus]
  | some x => simp [sysStatus]; decide

theorem bits_accessBit (p : PageProt) (a : Access) :
    p.bits.getLsbD (accessBit a) = true ↔ a ∈ promises p := by
  cases p <;> cases a <;> decide

end Zy
