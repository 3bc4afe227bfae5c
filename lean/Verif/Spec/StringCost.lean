import Verif.Spec.StringRun
import Verif.Spec.VectorCost

/-!
# Specification: what a string costs

The cost of a history is, as for vectors (`Spec/VectorCost`), the number of bytes for which it asks the
allocator to find a new place. It is compared to the number of characters the caller asked for.
-/

namespace Zy.Spec

open Zy

/-- The number of characters a request adds, removes, or asks room for. (The requests that deal with the
whole string also count the terminator.) -/
def stouched (a : SState) : SOp → Nat
  | .append x => x.length
  | .appendEx _ _ n => n
  | .insert _ x => x.length
  | .insertEx _ _ _ n => n
  | .delete _ n => n
  | .truncate i => a.text.length - i
  | .clear => a.text.length + 1
  | .setChar _ _ => 0
  | .lower _ _ => 0
  | .upper _ _ => 0
  | .resize n => (n - a.text.length) + (a.text.length - n)
  | .reserve c => c
  | .shrinkToFit => a.text.length + 2

/-- The number of characters all requests of a history add, remove, or ask room for. -/
def stouchedRun (t : Str) : List SOp → Nat
  | [] => 0
  | op :: ops =>
    stouched (sabsOf t) op +
      match strOp t op with
      | .ret r => stouchedRun r.2 ops
      | .ub _ => 0

end Zy.Spec
