import Verif.Spec.ListSame
import Verif.Spec.VectorSame
import Verif.Spec.Bitset

/-!
# Specification: undoing what was done to a container

For every operation of a list, a vector or a bitset, the calls that take it back. They are chosen from what the container
had before the operation; a program that wants to undo something keeps the elements that it overwrites or removes.
-/

namespace Zy.Spec

open Zy

variable {α : Type}

/-- What undoes an operation on a list that had the elements `xs`. -/
def undoList (xs : List (Cell α)) : LOp α → List (LOp α)
  | .pushBack _ | .emplaceBack _ => [.popBack]
  | .pushFront _ | .emplaceFront _ => [.popFront]
  | .pushBackOf i => if i < xs.length then [.popBack] else []
  | .pushFrontOf i => if i < xs.length then [.popFront] else []
  | .popBack => xs.getLast?.toList.map .pushBack
  | .popFront => xs.head?.toList.map .pushFront
  | .set i _ => xs[i]?.toList.map (.set i)
  | .clear => xs.map .pushBack
  | .resize n _ => (xs.drop n).map .pushBack ++ List.replicate (n - xs.length) .popBack

/-- What undoes a history: the last operation is undone first. -/
def undoListAll (xs : List (Cell α)) : List (LOp α) → List (LOp α)
  | [] => []
  | op :: ops => undoListAll (lineStep xs op).2 ops ++ undoList xs op

/-- What undoes an operation on a vector that had the elements `xs`. -/
def undoVec (xs : List (Cell α)) : VOp α → List (VOp α)
  | .push _ => [.pop]
  | .insertRange i ys => if ys = [] ∨ xs.length < i then [] else [.deleteRange i ys.length]
  | .emplace i (some f) => if xs.length < i ∨ failed (f none).1 then [] else [.deleteRange i 1]
  | .emplace i none => if xs.length < i then [] else [.deleteRange i 1]
  | .set i _ => xs[i]?.toList.map (.set i)
  | .swap i j => if i < xs.length ∧ j < xs.length then [.swap i j] else []
  | .deleteRange i n => if n = 0 ∨ xs.length < i + n then [] else [.insertRange i ((xs.drop i).take n)]
  | .pop => xs.getLast?.toList.map .push
  | .clear => if xs = [] then [] else [.insertRange 0 xs]
  | .resize n _ =>
    if n < xs.length then [.insertRange n (xs.drop n)]
    else if xs.length < n then [.deleteRange xs.length (n - xs.length)] else []
  | .reserve _ | .shrinkToFit => []

/-- What undoes a history of a vector. -/
def undoVecAll (xs : List (Cell α)) : List (VOp α) → List (VOp α)
  | [] => []
  | op :: ops => undoVecAll (plainStep xs op).2.1 ops ++ undoVec xs op

/-- The calls that write the bits of `bs` one by one, from position `i` on. -/
def assignFrom (i : Nat) : List Bool → List BOp
  | [] => []
  | b :: bs => .assign i b :: assignFrom (i + 1) bs

/-- What undoes an operation on a bitset that had the bits `bs`. -/
def undoBits (bs : List Bool) : BOp → List BOp
  | .push _ => [.pop]
  | .pop => bs.getLast?.toList.map .push
  | .set i | .reset i | .assign i _ => bs[i]?.toList.map (.assign i)
  | .toggle i => [.toggle i]
  | .setAll | .resetAll => assignFrom 0 bs
  | .flip => [.flip]
  | .clear => bs.map .push
  | .reserve _ | .shrinkToFit => []

/-- What undoes a history of a bitset. -/
def undoBitsAll (bs : List Bool) : List BOp → List BOp
  | [] => []
  | op :: ops => undoBitsAll (plain bs op) ops ++ undoBits bs op

end Zy.Spec
