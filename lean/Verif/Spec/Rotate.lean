import Verif.Spec.ListSame

/-!
# Specification: turning and mirroring a list

A program that works through the elements of a list in turns moves the first element to the end, again and again. There are
two ways to write this with the functions of the library, and they differ in the memory they need.
-/

namespace Zy.Spec

open Zy

variable {α : Type}

/-- The elements after the first one was moved to the end `k` times. -/
def rotated (xs : List (Cell α)) (k : Nat) : List (Cell α) := xs.drop (k % xs.length) ++ xs.take (k % xs.length)

/-- `k` times: append the first element of the list to the list, then remove the first element. -/
def turns (α : Type) : Nat → List (LOp α)
  | 0 => []
  | k + 1 => .pushBackOf 0 :: .popFront :: turns α k

/-- `k` times: remember the first element, remove it, append what was remembered. -/
def carries : List (Cell α) → Nat → List (LOp α)
  | x :: xs, k + 1 => .popFront :: .pushBack x :: carries (xs ++ [x]) k
  | _, _ => []

/-- Write the elements again, the last one to the first place, and so on. -/
def mirror (xs : List (Cell α)) : List (LOp α) := xs.reverse.zipIdx.map fun p => .set p.2 p.1

/-- The allocator, asked `asked` times before, does not refuse the next `k` requests. A buffer is not asked. -/
def NextGranted (K : Source) (asked k : Nat) : Prop :=
  match K with
  | .dynamic answer => ∀ i < k, failed (answer (asked + i)) = false
  | .fixed _ => True

/-- A buffer has room for more than `len` elements. -/
def Spare (K : Source) (len : Nat) : Prop :=
  match K with
  | .dynamic _ => True
  | .fixed n => len < n

end Zy.Spec
