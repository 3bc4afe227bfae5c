import Verif.Spec.Vector

/-!
# Specification of strings: a character sequence with a storage size

Nothing in this file refers to the model of the code. An abstract string is its text and the number of
bytes of storage it owns, one of which is for the terminator. The growth and shrink policy is the one of
`Spec/Vector` (`room`, `trim`), applied to the text plus terminator.
-/

namespace Zy.Spec

open Zy

/-- An abstract string. -/
structure SState where
  text : List (Cell Byte)
  bytes : Nat
deriving DecidableEq, Repr

/-- Operations of the string API. Source texts are lists of characters. -/
inductive SOp where
  | append (x : List (Cell Byte))
  | appendEx (x : List (Cell Byte)) (j n : Nat)
  | insert (i : Nat) (x : List (Cell Byte))
  | insertEx (i : Nat) (x : List (Cell Byte)) (j n : Nat)
  | delete (i n : Nat)
  | truncate (i : Nat)
  | clear
  | setChar (i : Nat) (c : Byte)
  | lower (i n : Nat)
  | upper (i n : Nat)
  | resize (n : Nat)
  | reserve (c : Nat)
  | shrinkToFit

/-- Lower-case form of an ASCII letter, other characters unchanged. -/
def lowerChar (c : Byte) : Byte := if 65 ≤ c.toNat ∧ c.toNat ≤ 90 then BitVec.ofNat 8 (c.toNat + 32) else c

/-- Upper-case form of an ASCII letter, other characters unchanged. -/
def upperChar (c : Byte) : Byte := if 97 ≤ c.toNat ∧ c.toNat ≤ 122 then BitVec.ofNat 8 (c.toNat - 32) else c

/-- Storage after making the text plus terminator `need` bytes long by appending or resizing: unlike an
insertion, this may also release memory. -/
def extend (P : Params) (bytes need : Nat) : Option Nat :=
  if need ≤ bytes then some (trim P bytes need) else room P bytes need

/-- Append the characters `x`. -/
def appendText (P : Params) (s : SState) (x : List (Cell Byte)) : Status × SState :=
  if x = [] then (stSuccess, s)
  else match extend P s.bytes (s.text.length + x.length + 1) with
    | none => (stInsufficient, s)
    | some c => (stSuccess, ⟨s.text ++ x, c⟩)

/-- Insert the characters `x` before position `i`. -/
def insertText (P : Params) (s : SState) (i : Nat) (x : List (Cell Byte)) : Status × SState :=
  if x = [] then (stInvalidArgument, s)
  else match room P s.bytes (s.text.length + x.length + 1) with
    | none => (stInsufficient, s)
    | some c => (stSuccess, ⟨s.text.take i ++ x ++ s.text.drop i, c⟩)

/-- Apply `f` to the characters `[i, i+n)`. -/
def mapRange (f : Byte → Byte) (text : List (Cell Byte)) (i n : Nat) : List (Cell Byte) :=
  text.take i ++ ((text.drop i).take n).map (Option.map f) ++ text.drop (i + n)

/-- What a character sequence would do. The position one behind the end of the text (the one behind the
terminator) is accepted by the insertion functions as an alias of the end. `junk` supplies the
unspecified new characters of a growing `resize`. -/
def sstep (P : Params) (junk : List (Cell Byte)) (s : SState) : SOp → Status × SState
  | .append x => appendText P s x
  | .appendEx x j n =>
    if j + n > x.length then (stOutOfRange, s) else appendText P s ((x.drop j).take n)
  | .insert i x =>
    if i = s.text.length + 1 then appendText P s x
    else if i > s.text.length then (stOutOfRange, s)
    else insertText P s i x
  | .insertEx i x j n =>
    if i > s.text.length + 1 ∨ j + n > x.length then (stOutOfRange, s)
    else if i = s.text.length + 1 then appendText P s ((x.drop j).take n)
    else insertText P s i ((x.drop j).take n)
  | .delete i n =>
    if i + n > s.text.length then (stOutOfRange, s)
    else if n = 0 then (stInvalidArgument, s)
    else (stSuccess, ⟨s.text.take i ++ s.text.drop (i + n), trim P s.bytes (s.text.length + 1 - n)⟩)
  | .truncate i =>
    if i > s.text.length then (stOutOfRange, s)
    else if i = s.text.length then (stInvalidArgument, s)
    else (stSuccess, ⟨s.text.take i, trim P s.bytes (i + 1)⟩)
  | .clear => (stSuccess, ⟨[], trim P s.bytes 0⟩)
  | .setChar i c =>
    if i < s.text.length then (stSuccess, { s with text := s.text.set i (some c) }) else (stOutOfRange, s)
  | .lower i n =>
    if i + n > s.text.length then (stOutOfRange, s)
    else (stSuccess, { s with text := mapRange lowerChar s.text i n })
  | .upper i n =>
    if i + n > s.text.length then (stOutOfRange, s)
    else (stSuccess, { s with text := mapRange upperChar s.text i n })
  | .resize n =>
    if n = s.text.length then (stSuccess, s)
    else if n < s.text.length then (stSuccess, ⟨s.text.take n, trim P s.bytes (n + 1)⟩)
    else match extend P s.bytes (n + 1) with
      | none => (stInsufficient, s)
      | some c => (stSuccess, ⟨s.text ++ junk, c⟩)
  | .reserve c =>
    if c ≤ s.bytes then (stSuccess, s)
    else if P.allocator.isSome then (stSuccess, { s with bytes := c }) else (stInsufficient, s)
  | .shrinkToFit =>
    (stSuccess, if P.allocator.isSome then { s with bytes := s.text.length + 1 } else s)

/-- How many unspecified characters the operation needs. -/
def sjunkLen (s : SState) : SOp → Nat
  | .resize n => n - s.text.length
  | _ => 0

/-- `n` bytes are few enough that the size computations of the library fit into 64 bits. -/
def SFits (n : Nat) : Prop := n * 255 < 18446744073709551616

/-- All characters of the range have a determinate value. -/
def Determinate (text : List (Cell Byte)) (i n : Nat) : Prop :=
  ∀ x ∈ (text.drop i).take n, x ≠ none

/-- The requests for which the library keeps the promise of `sstep`: sizes fit into the machine word,
`index + count` does not wrap around, and case conversion is not applied to characters that were
never written. -/
def SInDomain (s : SState) : SOp → Prop
  | .append x => SFits (s.text.length + x.length + 1)
  | .appendEx x j n => SFits (s.text.length + x.length + 1) ∧ j + n < 18446744073709551616
  | .insert _ x => SFits (s.text.length + x.length + 1)
  | .insertEx _ x j n => SFits (s.text.length + x.length + 1) ∧ j + n < 18446744073709551616
  | .delete i n => i + n < 18446744073709551616
  | .lower i n => i + n < 18446744073709551616 ∧ Determinate s.text i n
  | .upper i n => i + n < 18446744073709551616 ∧ Determinate s.text i n
  | .resize n => SFits (n + 1)
  | .reserve c => c < 18446744073709551616
  | .setChar i _ => i < 18446744073709551616
  | _ => True

/-- A history of operations with the statuses they return. -/
inductive SRuns (P : Params) : SState → List SOp → List Status → SState → Prop where
  | nil (s : SState) : SRuns P s [] [] s
  | cons {s s' s'' : SState} {op : SOp} {ops : List SOp} {st : Status} {sts : List Status}
      (junk : List (Cell Byte)) (hj : junk.length = sjunkLen s op)
      (h : sstep P junk s op = (st, s')) (t : SRuns P s' ops sts s'') :
      SRuns P s (op :: ops) (st :: sts) s''

/-- Every operation of the history is in the domain, whatever the unspecified characters are. -/
inductive SAllInDomain (P : Params) : SState → List SOp → Prop where
  | nil (s : SState) : SAllInDomain P s []
  | cons {s : SState} {op : SOp} {ops : List SOp} (h : SInDomain s op)
      (t : ∀ junk, junk.length = sjunkLen s op → SAllInDomain P (sstep P junk s op).2 ops) :
      SAllInDomain P s (op :: ops)

/-! ## Searching -/

/-- The needle `x` stands in the text `h` at position `p`, up to the character relation `r`. -/
def OccursAt (r : Byte → Byte → Prop) (h x : List Byte) (p : Nat) : Prop :=
  p + x.length ≤ h.length ∧ ∀ k (hk : k < x.length) (hp : p + k < h.length), r h[p + k] x[k]

/-- `p` is the smallest position of `x` inside the characters `[lo, hi)` of `h`. -/
def Leftmost (r : Byte → Byte → Prop) (h x : List Byte) (lo hi p : Nat) : Prop :=
  lo ≤ p ∧ p + x.length ≤ hi ∧ OccursAt r h x p ∧
    ∀ q, lo ≤ q → q + x.length ≤ hi → OccursAt r h x q → p ≤ q

/-- `p` is the largest position of `x` inside the characters `[lo, hi)` of `h`. -/
def Rightmost (r : Byte → Byte → Prop) (h x : List Byte) (lo hi p : Nat) : Prop :=
  lo ≤ p ∧ p + x.length ≤ hi ∧ OccursAt r h x p ∧
    ∀ q, lo ≤ q → q + x.length ≤ hi → OccursAt r h x q → q ≤ p

/-- The needle does not occur inside the characters `[lo, hi)`. -/
def Absent (r : Byte → Byte → Prop) (h x : List Byte) (lo hi : Nat) : Prop :=
  ∀ q, lo ≤ q → q + x.length ≤ hi → ¬ OccursAt r h x q

/-- Two characters are the same up to the case of ASCII letters. -/
def SameLetter (a b : Byte) : Prop := lowerChar a = lowerChar b

/-- An ASCII letter. -/
def IsLetter (c : Byte) : Prop := (65 ≤ c.toNat ∧ c.toNat ≤ 90) ∨ (97 ≤ c.toNat ∧ c.toNat ≤ 122)

end Zy.Spec
