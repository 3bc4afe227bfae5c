import Verif.Spec.VectorSorted

/-!
# Exchanging elements of lists

Nothing in this file refers to the model of the code.
-/

namespace Zy.Spec

variable {β : Type}

/-- The list in which the elements at two positions are exchanged. -/
def exchange (l : List β) (i j : Nat) : List β :=
  match l[i]?, l[j]? with
  | some x, some y => (l.set i y).set j x
  | _, _ => l

/-- The list after several exchanges. -/
def exchanges (l : List β) (ps : List (Nat × Nat)) : List β :=
  ps.foldl (fun l p => exchange l p.1 p.2) l

/-- Both positions of each pair are positions of a list with `n` elements. -/
def Positions (n : Nat) (ps : List (Nat × Nat)) : Prop := ∀ p ∈ ps, p.1 < n ∧ p.2 < n

end Zy.Spec
