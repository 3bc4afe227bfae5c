import Verif.Spec.VectorSorted

/-!
# Specification: merging

Nothing in this file refers to the model of the code.
-/

namespace Zy.Spec

variable {β : Type}

/-- `l` holds the elements of `xs` and `ys` in ascending order; among equal elements, those of `xs` come first, and each in
their order. -/
structure MergedFrom (cmp : β → β → Int) (xs ys l : List β) : Prop where
  ascending : Ascending cmp l
  same : l.Perm (xs ++ ys)
  order : ∀ k, (l.filter fun x => cmp x k == 0) = (xs.filter fun x => cmp x k == 0) ++ ys.filter fun x => cmp x k == 0

end Zy.Spec
