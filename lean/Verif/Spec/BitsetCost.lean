import Verif.Spec.BitsetRun
import Verif.Spec.VectorCost

/-!
# Specification: what a bitset costs

The cost of a history is, as for vectors (`Spec/VectorCost`), the number of bytes for which it asks the
allocator to find a new place. It is compared to the number of bytes the caller asked for.
-/

namespace Zy.Spec

/-- The number of bytes a request adds, removes, or asks room for. Only every eighth bit needs a new byte. -/
def btouched (s : BState) : BOp → Nat
  | .push _ => if s.bits.length % 8 = 0 then 1 else 0
  | .pop => if s.bits.length % 8 = 1 then 1 else 0
  | .clear => bytesFor s.bits.length
  | .reserve n => n / 8
  | .shrinkToFit => bytesFor s.bits.length + 1
  | _ => 0

/-- The number of bytes all requests of a history add, remove, or ask room for. -/
def btouchedRun (P : Params) (s : BState) : List BOp → Nat
  | [] => 0
  | op :: ops => btouched s op + btouchedRun P (bstep P s op).2 ops

end Zy.Spec
