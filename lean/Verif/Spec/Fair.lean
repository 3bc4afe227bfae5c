/-!
# Specification: fair schedules
-/

namespace Zy.Spec

/-- An endless schedule is fair for `n` threads: each of them gets its turn again and again. -/
def Fair (n : Nat) (sched : Nat → Nat) : Prop := ∀ t, t < n → ∀ i, ∃ j, i ≤ j ∧ sched j = t

/-- The first `k` steps of an endless schedule. -/
def firstSteps (sched : Nat → Nat) (k : Nat) : List Nat := (List.range k).map sched

/-- In each round every one of `n` threads gets its turn at least once. -/
def FullRounds (n : Nat) (rounds : List (List Nat)) : Prop := ∀ r ∈ rounds, ∀ t, t < n → t ∈ r

end Zy.Spec
