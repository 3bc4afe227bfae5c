/-!
# Specification: primes

Nothing in this file refers to the model of the code.
-/

namespace Zy.Spec

/-- `k` is a prime: at least two, and only divisible by one and itself. -/
def IsPrime (k : Nat) : Prop := 2 ≤ k ∧ ∀ d, d ∣ k → d = 1 ∨ d = k

end Zy.Spec
