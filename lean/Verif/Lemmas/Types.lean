import Verif.Model.Types

/-! # Lemmas about the checks on the integer types -/

namespace Zy

theorem signCheck_eq : ∀ n ∈ [1, 2, 4, 8], ∀ a b : Bool, signCheck ⟨n, a⟩ ⟨n, b⟩ = (a != b) := by decide +kernel

theorem signCheck_of {i u : CInt} {n : Nat} (hn : n ∈ [1, 2, 4, 8]) (hi : i.bytes = n) (hu : u.bytes = n) :
    signCheck i u = true ↔ i.signed ≠ u.signed := by
  obtain ⟨ib, is⟩ := i
  obtain ⟨ub, us⟩ := u
  subst hi
  simp only at hu hn
  subst hu
  rw [signCheck_eq _ hn, bne_iff_ne]

end Zy
