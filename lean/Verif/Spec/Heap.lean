import Verif.Model.Vector

/-!
# Specification: the memory that the allocators have handed out

Nothing in this file refers to the functions of the library; it reads only the log of the requests that the
allocators have received.
-/

namespace Zy.Spec

open Zy

variable {α : Type}

/-- What is known of a block that is in use: who handed it out, the size of an element, how many elements. -/
structure Extent where
  a : Nat
  esz : Nat
  n : Nat
deriving DecidableEq, Repr

/-- The blocks in use. -/
abbrev Heap := Nat → Option Extent

/-- No block is in use. -/
def Heap.empty : Heap := fun _ => none

/-- Another entry for one block. -/
def Heap.put (h : Heap) (b : Nat) (e : Option Extent) : Heap := fun k => if k = b then e else h k

/-- The effect of one request on the blocks in use. There is none (`none`) for an improper request: a block
number is handed out that is in use; a block is moved or given back that is not in use, or with another
allocator, element size or (when it is given back) another number of elements. -/
def heapStep (h : Heap) : Event α → Option Heap
  | .destroy _ => some h
  | .refused _ => some h
  | .alloc a b esz n => if h b = none then some (h.put b (some ⟨a, esz, n⟩)) else none
  | .realloc a o b esz n =>
    match h o with
    | some e => if e.a = a ∧ e.esz = esz ∧ h b = none then some ((h.put o none).put b (some ⟨a, esz, n⟩)) else none
    | none => none
  | .dealloc a b esz n => if h b = some ⟨a, esz, n⟩ then some (h.put b none) else none

/-- The blocks in use after a log of requests. -/
def heapFrom (h : Heap) : List (Event α) → Option Heap
  | [] => some h
  | e :: es => (heapStep h e).bind fun h' => heapFrom h' es

/-- The blocks in use after a log that starts with no block in use. -/
def heapOf (t : List (Event α)) : Option Heap := heapFrom .empty t

end Zy.Spec
