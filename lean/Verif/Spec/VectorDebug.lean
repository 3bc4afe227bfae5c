import Verif.Model.VectorDebug
import Verif.Spec.VectorRun

/-!
# Histories of vector calls in a build with assertions
-/

namespace Zy

open Spec

variable {α : Type}

/-- Reading of an API operation as a call of the function with its assertions. -/
def vecOpD (s : VS α) : VOp α → Out (Status × VS α)
  | .push x => vecPushBackD s (.ext [x])
  | .insertRange i xs => vecInsertRangeD s i (.ext xs) xs.length
  | .emplace i c => vecEmplaceExD s i c
  | .set i x => vecSetD s i (.ext [x])
  | .swap i j => vecSwapD s i j
  | .deleteRange i n => vecDeleteRangeD s i n
  | .pop => vecPopBackD s
  | .clear => vecResizeExD s 0 .null
  | .resize n init => vecResizeExD s n (initSrc init)
  | .reserve c => vecReserveD s c
  | .shrinkToFit => vecShrinkToFitD s

/-- A history of API calls in a build with assertions. -/
def runVecD (s : VS α) : List (VOp α) → Out (List Status × VS α)
  | [] => .ret ([], s)
  | op :: ops =>
    (vecOpD s op).bind fun r => (runVecD r.2 ops).bind fun q => .ret (r.1 :: q.1, q.2)

/-- By how many elements a call can lengthen a vector; the requested size for a change of size. -/
def lengthens : VOp α → Nat
  | .push _ => 1
  | .insertRange _ xs => xs.length
  | .emplace _ _ => 1
  | .resize n _ => n
  | _ => 0

/-- The range that a call deletes ends at an index that is a machine word. -/
def rangeIsWord : VOp α → Prop
  | .deleteRange i n => i + n < 18446744073709551616
  | _ => True

end Zy
