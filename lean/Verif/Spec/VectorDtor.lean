import Verif.Base

/-!
# Specification: what a destructor leaves behind
-/

namespace Zy.Spec

open Zy

variable {α : Type}

/-- The contents of consecutive slots after the destructor was called for each of them, the first call being the
`k`-th event. -/
def remains (d : Nat → Cell α → Cell α) : Nat → List (Cell α) → List (Cell α)
  | _, [] => []
  | k, x :: xs => d k x :: remains d (k + 1) xs

end Zy.Spec
