import Verif.Spec.Vector

/-!
# Specification: a list without capacity

`plainStep` says what an operation does to a list of elements that has neither a capacity nor parameters: the status,
the elements afterwards, and the elements that are destroyed, in this order.
-/

namespace Zy.Spec

open Zy

variable {α : Type}

/-- What an operation does to a plain list. -/
def plainStep (xs : List (Cell α)) : VOp α → Status × List (Cell α) × List (Cell α)
  | .push x => (stSuccess, xs ++ [x], [])
  | .insertRange i ys =>
    if ys = [] then (stInvalidArgument, xs, [])
    else if i ≤ xs.length then (stSuccess, xs.take i ++ ys ++ xs.drop i, [])
    else (stOutOfRange, xs, [])
  | .emplace i (some f) =>
    if i ≤ xs.length then
      if failed (f none).1 then ((f none).1, xs, []) else (stSuccess, xs.take i ++ [(f none).2] ++ xs.drop i, [])
    else (stOutOfRange, xs, [])
  | .emplace i none =>
    if i ≤ xs.length then (stSuccess, xs.take i ++ [none] ++ xs.drop i, []) else (stOutOfRange, xs, [])
  | .set i x => match xs[i]? with
    | some old => (stSuccess, xs.set i x, [old])
    | none => (stOutOfRange, xs, [])
  | .swap i j => match xs[i]?, xs[j]? with
    | some x, some y => (stSuccess, (xs.set i y).set j x, [])
    | _, _ => (stOutOfRange, xs, [])
  | .deleteRange i n =>
    if n = 0 then (stInvalidArgument, xs, [])
    else if i + n ≤ xs.length then (stSuccess, xs.take i ++ xs.drop (i + n), (xs.drop i).take n)
    else (stOutOfRange, xs, [])
  | .pop => match xs.getLast? with
    | some x => (stSuccess, xs.dropLast, [x])
    | none => (stOutOfRange, xs, [])
  | .clear => (stSuccess, [], xs)
  | .resize n init =>
    (stSuccess, xs.take n ++ List.replicate (n - xs.length) (init.getD none), xs.drop n)
  | .reserve _ => (stSuccess, xs, [])
  | .shrinkToFit => (stSuccess, xs, [])

/-- A history: the statuses, the elements at the end, and all elements destroyed. -/
def plainRun (xs : List (Cell α)) : List (VOp α) → List Status × List (Cell α) × List (Cell α)
  | [] => ([], xs, [])
  | op :: ops =>
    let r := plainStep xs op
    let q := plainRun r.2.1 ops
    (r.1 :: q.1, q.2.1, r.2.2 ++ q.2.2)

/-- How many slots an operation needs. -/
def demand (xs : List (Cell α)) : VOp α → Nat
  | .push _ => xs.length + 1
  | .insertRange i ys => if i ≤ xs.length then xs.length + ys.length else 0
  | .emplace i _ => if i ≤ xs.length then xs.length + 1 else 0
  | .resize n _ => n
  | .reserve c => c
  | _ => 0

/-- A history that never needs more than `cap` slots. -/
def Within (cap : Nat) : List (Cell α) → List (VOp α) → Prop
  | _, [] => True
  | xs, op :: ops => demand xs op ≤ cap ∧ Within cap (plainStep xs op).2.1 ops

/-- Operations without unspecified elements, and without swapping. -/
def Plain : VOp α → Prop
  | .emplace _ (some f) => ∀ x y, f x = f y
  | .emplace _ none => False
  | .resize _ none => False
  | .swap _ _ => False
  | _ => True

end Zy.Spec
