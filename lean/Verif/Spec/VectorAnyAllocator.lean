import Verif.Spec.VectorRun

/-!
# Specification: vectors whose allocator may refuse

The same vector in a world where the allocator gives other answers, and what "the same until the first
refusal" means.
-/

namespace Zy

variable {α : Type}

/-- The vector `s` in a world where the allocator gives the answers `o` from now on. -/
def answering (o : Nat → Status) (s : VS α) : VS α := { s with w := { s.w with oracle := o } }

end Zy
