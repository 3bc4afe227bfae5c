import Verif.Spec.StringRun
import Verif.Spec.Format

/-!
# Specification: the order of numbers
-/

namespace Zy.Spec

/-- What a comparison should answer for two numbers: "not equal, below", "equal" or "not equal, above". -/
def numbersCompared (a b : Int) : Status × Int :=
  if a < b then (stFalse, -1) else if a = b then (stTrue, 0) else (stFalse, 1)

end Zy.Spec
