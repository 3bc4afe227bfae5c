import Verif.Spec.NullPointers
import Verif.Model.Initializers

/-!
# Calls on containers that were never initialised
-/

namespace Zy

variable {α : Type}

/-- The indices and counts of the call are numbers of the machine whose sum does not wrap. -/
def VecCall.NoWrap : VecCall α → Prop
  | .delete i => i + 1 < 18446744073709551616
  | .deleteRange i n | .findEx _ _ i n | .binarySearchEx _ _ i n => i + n < 18446744073709551616
  | .insertRange _ _ n => n < 18446744073709551616
  | _ => True

/-- The calls on a vector that ask for nothing an empty vector without storage does not have. -/
def VecCall.Modest : VecCall α → Prop
  | .destroy | .clear | .shrinkToFit | .binarySearch .. | .getCapacity _ | .getSize _ => True
  | .reserve n | .resize n | .resizeEx n _ => n = 0
  | .binarySearchEx _ _ i n => i = 0 ∧ n = 0
  | _ => False

/-- The call does not ask for a larger size. -/
def VecCall.NoResize : VecCall α → Prop
  | .resize n | .resizeEx n _ => n = 0
  | _ => True

/-- The calls on a list that ask for nothing an empty list without storage does not have. -/
def ListCall.Modest : ListCall α → Prop
  | .destroy | .clear | .getHead _ | .getTail _ | .getSize _ | .remove _ | .removeRange .. => True
  | .resize n | .resizeEx n _ => n = 0
  | _ => False

/-- The call does not name a node of the list. -/
def ListCall.NoNode : ListCall α → Prop
  | .setNodeData node _ => node = none
  | _ => True

end Zy
