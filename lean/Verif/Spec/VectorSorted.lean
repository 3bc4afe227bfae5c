import Verif.Base

/-!
# Specification: sorted lists

Nothing in this file refers to the model of the code.
-/

namespace Zy.Spec

variable {β : Type}

/-- A three-way comparison of a total preorder: exchanging the operands reverses the sign, and "not
greater" is transitive. -/
structure Comparator (cmp : β → β → Int) : Prop where
  flip : ∀ x y, cmp x y ≤ 0 ↔ 0 ≤ cmp y x
  trans : ∀ x y z, cmp x y ≤ 0 → cmp y z ≤ 0 → cmp x z ≤ 0

/-- No element of the list is greater than a later one. -/
def Ascending (cmp : β → β → Int) (l : List β) : Prop := l.Pairwise fun x y => cmp x y ≤ 0

/-- `l` holds the elements of `es` and `xs` in ascending order; among equal elements, those of `xs` come
first, the last one of `xs` foremost, and those of `es` follow in their order. -/
structure SortedInto (cmp : β → β → Int) (es xs l : List β) : Prop where
  ascending : Ascending cmp l
  same : l.Perm (es ++ xs)
  order : ∀ k, (l.filter fun x => cmp x k == 0) =
    (xs.filter fun x => cmp x k == 0).reverse ++ es.filter fun x => cmp x k == 0

end Zy.Spec
