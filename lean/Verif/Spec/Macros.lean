/-!
# Specification of the macros

Plain statements about natural numbers.
-/

namespace Zy.Spec

/-- `r` is the least multiple of `a` that is not below `x`. -/
def NextMultiple (r x a : Nat) : Prop := a ∣ r ∧ x ≤ r ∧ ∀ y, a ∣ y → x ≤ y → r ≤ y

/-- `r` is the greatest multiple of `a` that does not exceed `x`. -/
def PreviousMultiple (r x a : Nat) : Prop := a ∣ r ∧ r ≤ x ∧ ∀ y, a ∣ y → y ≤ x → y ≤ r

/-- `k` is the number of bits that `n` needs. -/
def BitLength (k n : Nat) : Prop := n < 2 ^ k ∧ ∀ j, n < 2 ^ j → k ≤ j

/-- A three-way comparison with the results -1, 0 and 1 that belongs to a total order of the keys. -/
structure ThreeWay {α β : Type} (cmp : α → α → Int) (key : α → β) : Prop where
  range : ∀ x y, cmp x y = -1 ∨ cmp x y = 0 ∨ cmp x y = 1
  zero : ∀ x y, cmp x y = 0 ↔ key x = key y
  swap : ∀ x y, cmp y x = - cmp x y
  trans : ∀ x y z, cmp x y ≤ 0 → cmp y z ≤ 0 → cmp x z ≤ 0

end Zy.Spec
