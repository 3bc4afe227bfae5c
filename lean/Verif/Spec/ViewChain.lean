import Verif.Spec.StringRun

/-!
# Specification: views of views
-/

namespace Zy.Spec

open Zy

/-- The text that is left when ranges (index and number of characters) are taken one from the other. -/
def cutAll (x : List Byte) : List (Nat × Nat) → List Byte
  | [] => x
  | r :: rs => cutAll ((x.drop r.1).take r.2) rs

/-- Each range lies in the one before it; the first one in a text of `len` characters. -/
def AllInside (len : Nat) : List (Nat × Nat) → Prop
  | [] => True
  | r :: rs => r.1 + r.2 ≤ len ∧ AllInside r.2 rs

/-- Each range lies in the one before it and does not contain its last character. -/
def WellInside (len : Nat) : List (Nat × Nat) → Prop
  | [] => True
  | r :: rs => r.1 + r.2 < len ∧ WellInside r.2 rs

/-- A program that takes views of views and stops when one is refused. -/
def viewChain (v : View) : List (Nat × Nat) → Option View
  | [] => some v
  | r :: rs => match (viewInsideViewEx v r.1 r.2).2 with
    | some v' => viewChain v' rs
    | none => none

/-- A program that takes a view of everything it sees, again and again. -/
def wholeViews (v : View) : Nat → Option View
  | 0 => some v
  | k + 1 => match (viewInsideViewEx v 0 (viewGetSize v)).2 with
    | some v' => wholeViews v' k
    | none => none

end Zy.Spec
