import Verif.Spec.List
import Verif.Spec.Vector

/-!
# Specification: work lists

Going through everything that can be reached from some first items, where `f x` are the items found at `x`: level by level
with a queue, or depth first with a stack. Nothing in this file refers to the model of the code.
-/

namespace Zy.Spec

open Zy

variable {β : Type}

/-- `n` rounds with a queue: the items in the order in which they are visited, and what is still in the queue. -/
def levels (f : β → List β) : Nat → List β → List β × List β
  | 0, q => ([], q)
  | _ + 1, [] => ([], [])
  | n + 1, x :: q => (x :: (levels f n (q ++ f x)).1, (levels f n (q ++ f x)).2)

/-- `n` rounds with a stack, whose top is the end of the list. -/
def depths (f : β → List β) : Nat → List β → List β × List β
  | 0, q => ([], q)
  | n + 1, q =>
    match q.getLast? with
    | none => ([], [])
    | some x => (x :: (depths f n (q.dropLast ++ f x)).1, (depths f n (q.dropLast ++ f x)).2)

/-- The source of nodes has enough for a list of `m` elements: an allocator never refuses, and `m` is a machine word; a
buffer has room for `m` nodes. -/
def Plenty (K : Source) (m : Nat) : Prop :=
  match K with
  | .dynamic answer => (∀ k, failed (answer k) = false) ∧ m < 18446744073709551616
  | .fixed c => m ≤ c

/-- There is room for a vector of `m` elements: their size fits into a machine word, and without an allocator the buffer
has `m` slots. -/
def RoomFor (P : Params) (cap m : Nat) : Prop := Fits P m ∧ (P.allocator.isSome ∨ m ≤ cap)

end Zy.Spec
