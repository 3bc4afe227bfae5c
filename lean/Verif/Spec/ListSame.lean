import Verif.Spec.List
import Verif.Spec.ListTarget

/-!
# Specification: a queue that always gets its memory

`lineStep` is a queue without memory: nothing is ever refused for lack of it. `Granted` says that a source of nodes has
all nodes that one operation wants, `Serves` that it has all nodes of a history.
-/

namespace Zy.Spec

open Zy

variable {α : Type}

/-- What an operation does to a queue that always has memory. The status of a constructor is ignored, as the library does
(C87). -/
def lineStep (xs : List (Cell α)) : LOp α → Status × List (Cell α)
  | .pushBack x => (stSuccess, xs ++ [x])
  | .pushFront x => (stSuccess, x :: xs)
  | .pushBackOf i => match xs[i]? with
    | some x => (stSuccess, xs ++ [x])
    | none => (stInvalidArgument, xs)
  | .pushFrontOf i => match xs[i]? with
    | some x => (stSuccess, x :: xs)
    | none => (stInvalidArgument, xs)
  | .emplaceBack c => (stSuccess, xs ++ [constructed c none])
  | .emplaceFront c => (stSuccess, constructed c none :: xs)
  | .popBack => if xs = [] then (stInvalidOperation, xs) else (stSuccess, xs.dropLast)
  | .popFront => if xs = [] then (stInvalidOperation, xs) else (stSuccess, xs.tail)
  | .set i x => if i < xs.length then (stSuccess, xs.set i x) else (stInvalidArgument, xs)
  | .clear => (stSuccess, [])
  | .resize n init => (stSuccess, xs.take n ++ List.replicate (n - xs.length) (init.getD none))

/-- A history of such a queue: the statuses and the elements at the end. -/
def lineRun (xs : List (Cell α)) : List (LOp α) → List Status × List (Cell α)
  | [] => ([], xs)
  | op :: ops => ((lineStep xs op).1 :: (lineRun (lineStep xs op).2 ops).1, (lineRun (lineStep xs op).2 ops).2)

/-- How many new nodes an operation wants. -/
def wants (xs : List (Cell α)) : LOp α → Nat
  | .pushBack _ | .pushFront _ | .emplaceBack _ | .emplaceFront _ => 1
  | .pushBackOf i | .pushFrontOf i => if i < xs.length then 1 else 0
  | .resize n _ => n - xs.length
  | .popBack | .popFront | .set _ _ | .clear => 0

/-- How many new nodes a history wants. -/
def wantsAll (xs : List (Cell α)) : List (LOp α) → Nat
  | [] => 0
  | op :: ops => wants xs op + wantsAll (lineStep xs op).2 ops

/-- All nodes that an operation wants are there: the allocator, asked `asked` times before, does not refuse the next
requests; the buffer is large enough. -/
def Granted (K : Source) (asked : Nat) (xs : List (Cell α)) (op : LOp α) : Prop :=
  match K with
  | .dynamic answer => ∀ k < wants xs op, failed (answer (asked + k)) = false
  | .fixed n => xs.length + wants xs op ≤ n ∨ wants xs op = 0

/-- All nodes that a history wants are there. -/
def Serves (K : Source) : Nat → List (Cell α) → List (LOp α) → Prop
  | _, _, [] => True
  | asked, xs, op :: ops => Granted K asked xs op ∧ Serves K (asked + wants xs op) (lineStep xs op).2 ops

end Zy.Spec
