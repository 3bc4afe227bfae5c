import Verif.Spec.String
import Verif.Spec.Vector

/-!
# Specification: a vector of strings that owns its strings

Nothing in this file refers to the model of the code. A row of texts, and what a program does with it.
-/

namespace Zy.Spec

open Zy

/-- A row of items, and the number of items its memory has room for. -/
structure Row (β : Type) where
  items : List β
  cap : Nat

/-- What can be done with a row as a whole. New items are put in by `push`, `insert` and `set` only. -/
inductive Move (β : Type) where
  | push (x : β)
  | insert (i : Nat) (x : β)
  | set (i : Nat) (x : β)
  | swap (i j : Nat)
  | delete (i n : Nat)
  | pop
  | clear
  | shrinkTo (n : Nat)
  | reserve (c : Nat)
  | fit

/-- The new item. -/
def Move.item {β : Type} : Move β → Option β
  | .push x => some x
  | .insert _ x => some x
  | .set _ x => some x
  | _ => none

/-- The same with another item. -/
def Move.map {β γ : Type} (f : β → γ) : Move β → Move γ
  | .push x => .push (f x)
  | .insert i x => .insert i (f x)
  | .set i x => .set i (f x)
  | .swap i j => .swap i j
  | .delete i n => .delete i n
  | .pop => .pop
  | .clear => .clear
  | .shrinkTo n => .shrinkTo n
  | .reserve c => .reserve c
  | .fit => .fit

/-- What becomes of the row, and the status. -/
def Row.does {β : Type} (P : Params) (r : Row β) : Move β → Status × Row β
  | .push x =>
    match room P r.cap (r.items.length + 1) with
    | none => (stInsufficient, r)
    | some c => (stSuccess, ⟨r.items ++ [x], c⟩)
  | .insert i x =>
    if r.items.length < i then (stOutOfRange, r)
    else match room P r.cap (r.items.length + 1) with
      | none => (stInsufficient, r)
      | some c => (stSuccess, ⟨r.items.take i ++ [x] ++ r.items.drop i, c⟩)
  | .set i x => if i < r.items.length then (stSuccess, ⟨r.items.set i x, r.cap⟩) else (stOutOfRange, r)
  | .swap i j =>
    match r.items[i]?, r.items[j]? with
    | some x, some y =>
      if r.items.length = r.cap then (stInsufficient, r) else (stSuccess, ⟨(r.items.set i y).set j x, r.cap⟩)
    | _, _ => (stOutOfRange, r)
  | .delete i n =>
    if n = 0 then (stInvalidArgument, r)
    else if r.items.length < i + n then (stOutOfRange, r)
    else (stSuccess, ⟨r.items.take i ++ r.items.drop (i + n), trim P r.cap (r.items.length - n)⟩)
  | .pop =>
    if r.items.length = 0 then (stOutOfRange, r)
    else (stSuccess, ⟨r.items.dropLast, trim P r.cap (r.items.length - 1)⟩)
  | .clear => if r.items.length = 0 then (stSuccess, r) else (stSuccess, ⟨[], trim P r.cap 0⟩)
  | .shrinkTo n => if n = r.items.length then (stSuccess, r) else (stSuccess, ⟨r.items.take n, trim P r.cap n⟩)
  | .reserve c =>
    if c ≤ r.cap then (stSuccess, r)
    else if P.allocator.isSome then (stSuccess, ⟨r.items, c⟩) else (stInsufficient, r)
  | .fit => (stSuccess, if P.allocator.isSome then ⟨r.items, max 1 r.items.length⟩ else r)

/-- The requests for which sizes fit into the machine word; `shrinkTo` does not add items. -/
def Row.allows {β : Type} (P : Params) (r : Row β) : Move β → Prop
  | .push _ => Fits P (r.items.length + 1)
  | .insert _ _ => Fits P (r.items.length + 1)
  | .delete i n => i + n < 18446744073709551616
  | .shrinkTo n => n ≤ r.items.length ∧ Fits P n
  | .reserve c => c * P.esz < 18446744073709551616
  | _ => True

/-- What a program with a vector of strings does next: it puts a new string with a given text into the row, or changes
the row, or changes string number `k` where it is. -/
inductive Order where
  | move (m : Move (List (Cell Byte)))
  | edit (k : Nat) (op : SOp)

/-- Strings have the default allocator, growth factor and shrink threshold. -/
def textP : Params := ⟨some 0, 2, 4, 1, false⟩

/-- A new string to which a text was appended. -/
def made (x : List (Cell Byte)) : SState := (appendText textP ⟨[], 33⟩ x).2

/-- What becomes of the row of texts. `junk` are unspecified characters (see `sstep`). -/
def Row.wants (P : Params) (junk : List (Cell Byte)) (r : Row SState) : Order → Status × Row SState
  | .move m => r.does P (m.map made)
  | .edit k op =>
    match r.items[k]? with
    | none => (stOutOfRange, r)
    | some y => ((sstep textP junk y op).1, ⟨r.items.set k (sstep textP junk y op).2, r.cap⟩)

/-- How many unspecified characters are needed. -/
def Row.unknown (r : Row SState) : Order → Nat
  | .move _ => 0
  | .edit k op =>
    match r.items[k]? with
    | none => 0
    | some y => sjunkLen y op

/-- The commands whose sizes fit into the machine word. -/
def Row.accepts (P : Params) (r : Row SState) : Order → Prop
  | .move m => r.allows P (m.map made) ∧ ∀ x, m.item = some x → SFits (x.length + 1)
  | .edit k op => ∀ y, r.items[k]? = some y → SInDomain y op

/-- A whole program. -/
inductive Row.Lives (P : Params) : Row SState → List Order → List Status → Row SState → Prop where
  | nil (r : Row SState) : Row.Lives P r [] [] r
  | cons {r r' : Row SState} {c : Order} {cs : List Order} {sts : List Status} (junk : List (Cell Byte))
      (hj : junk.length = r.unknown c) (t : Row.Lives P (r.wants P junk c).2 cs sts r') :
      Row.Lives P r (c :: cs) ((r.wants P junk c).1 :: sts) r'

/-- Every command of the program is accepted, whatever the unspecified characters are. -/
inductive Row.AcceptsAll (P : Params) : Row SState → List Order → Prop where
  | nil (r : Row SState) : Row.AcceptsAll P r []
  | cons {r : Row SState} {c : Order} {cs : List Order} (h : r.accepts P c)
      (t : ∀ junk, junk.length = r.unknown c → Row.AcceptsAll P (r.wants P junk c).2 cs) :
      Row.AcceptsAll P r (c :: cs)

end Zy.Spec
