import Verif.Spec.List

/-!
# Where an element of a queue goes

Nothing in this file refers to the model of the code.
-/

namespace Zy.Spec

variable {α : Type}

/-- The position to which the element at position `k` of a queue of `n` elements moves by an operation; `ok` tells
whether the operation reported success. No position means that the element is removed. -/
def track (n : Nat) (ok : Bool) (k : Nat) : LOp α → Option Nat
  | .pushFront _ => some (if ok then k + 1 else k)
  | .pushFrontOf _ => some (if ok then k + 1 else k)
  | .emplaceFront _ => some (if ok then k + 1 else k)
  | .popFront => if k = 0 then none else some (k - 1)
  | .popBack => if k + 1 = n then none else some k
  | .clear => none
  | .resize m _ => if m ≤ k then none else some k
  | _ => some k

end Zy.Spec
