import Verif.Model.LockOrder

/-!
# Specification: entering several critical sections in the same order
-/

namespace Zy.Spec

open Zy

/-- The rule for a thread that is inside of the critical sections `held` (as often as they occur there): it enters only a
section that it is inside of already, less often than the limit of the system, or one with a greater number than all
of those; it leaves only sections that it is inside of, in any order; at the end it is outside of all. -/
def InOrder (limit : Nat) : List Nat → List LockItem → Prop
  | held, [] => held = []
  | held, .work :: p => InOrder limit held p
  | held, .enter k _ :: p =>
    ((k ∈ held ∧ held.count k < limit) ∨ ∀ j ∈ held, j < k) ∧ InOrder limit (k :: held) p
  | held, .leave k :: p => k ∈ held ∧ InOrder limit (held.erase k) p

/-- Before the first step: nobody is inside, all sections were initialised. -/
def lockStart (locks : Nat → Mutex) (progs : Nat → List LockItem) : LockState := ⟨locks, progs, false⟩

end Zy.Spec
