import Verif.Spec.VectorRun

/-!
# Specification: what a vector costs

The cost of a history is the number of elements for which it asks the allocator to find a new place: the
sum of the counts of its successful reallocations. It is compared to the work the caller asked for.
-/

namespace Zy.Spec

open Zy

variable {α : Type}

/-- The number of elements of a reallocation; other events are free. -/
def asked : Event α → Nat
  | .realloc _ _ _ _ n => n
  | _ => 0

/-- The number of elements of all reallocations of a trace. -/
def spent (t : List (Event α)) : Nat := (t.map asked).sum

/-- The number of elements a request adds, removes, or asks room for. (A construction in place counts
twice: the element may be taken back.) -/
def touched (a : LState α) : VOp α → Nat
  | .push _ => 1
  | .insertRange _ xs => xs.length
  | .emplace _ _ => 2
  | .set _ _ => 0
  | .swap _ _ => 0
  | .deleteRange _ n => n
  | .pop => 1
  | .clear => a.elems.length
  | .resize n _ => (n - a.elems.length) + (a.elems.length - n)
  | .reserve c => c
  | .shrinkToFit => a.elems.length + 1

/-- The number of elements all requests of a history add, remove, or ask room for. -/
def touchedRun (s : VS α) : List (VOp α) → Nat
  | [] => 0
  | op :: ops =>
    touched (absOf s) op +
      match vecOp s op with
      | .ret r => touchedRun r.2 ops
      | .ub _ => 0

end Zy.Spec
