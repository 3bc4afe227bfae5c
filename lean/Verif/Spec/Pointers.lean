import Verif.Spec.Vector

/-!
# Which requests make a vector move, and which elements they leave where they are

Nothing in this file refers to the model of the code. `LState` is the list of elements with its capacity.
-/

namespace Zy.Spec

variable {α : Type}

/-- So few elements that the vector gives memory back. -/
def Loose (P : Params) (cap n : Nat) : Prop := P.thr ≠ 0 ∧ n * P.thr < cap

/-- The requests for which a vector needs other memory. A vector on a buffer of the caller never does. -/
def Moves (P : Params) (l : LState α) : VOp α → Prop
  | .push _ => P.allocator.isSome ∧ l.cap < l.elems.length + 1
  | .insertRange i xs =>
    P.allocator.isSome ∧ (xs ≠ [] ∧ i ≤ l.elems.length) ∧ l.cap < l.elems.length + xs.length
  | .emplace i _ => P.allocator.isSome ∧ i ≤ l.elems.length ∧ l.cap < l.elems.length + 1
  | .set _ _ => False
  | .swap _ _ => False
  | .deleteRange i n =>
    P.allocator.isSome ∧ (n ≠ 0 ∧ i + n ≤ l.elems.length) ∧ Loose P l.cap (l.elems.length - n)
  | .pop => P.allocator.isSome ∧ l.elems ≠ [] ∧ Loose P l.cap (l.elems.length - 1)
  | .clear => P.allocator.isSome ∧ l.elems ≠ [] ∧ Loose P l.cap 0 ∧ 1 < l.cap
  | .resize n _ =>
    P.allocator.isSome ∧ n ≠ l.elems.length ∧ (l.cap < n ∨ Loose P l.cap n) ∧ (n ≠ 0 ∨ 1 < l.cap)
  | .reserve c => P.allocator.isSome ∧ l.cap < c
  | .shrinkToFit => P.allocator.isSome ∧ (l.elems ≠ [] ∨ 1 < l.cap)

/-- The requests that leave the element at position `k` where and what it is. -/
def Spares (l : LState α) (k : Nat) : VOp α → Prop
  | .push _ => True
  | .insertRange i _ => k < i
  | .emplace i _ => k < i
  | .set i _ => k ≠ i
  | .swap i j => k ≠ i ∧ k ≠ j
  | .deleteRange i _ => k < i
  | .pop => k + 1 < l.elems.length
  | .clear => False
  | .resize n _ => k < n
  | .reserve _ => True
  | .shrinkToFit => True

/-- No request of the history needs other memory or touches the element at position `k`, whatever the unspecified
elements are. -/
inductive AtRest (P : Params) (k : Nat) : LState α → List (VOp α) → Prop where
  | nil (l : LState α) : AtRest P k l []
  | cons {l : LState α} {op : VOp α} {ops : List (VOp α)} (h : ¬ Moves P l op) (hs : Spares l k op)
      (t : ∀ junk, junk.length = junkLen l op → AtRest P k (step P junk l op).2 ops) : AtRest P k l (op :: ops)

end Zy.Spec
