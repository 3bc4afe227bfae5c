import Verif.Model.LibCMem

/-!
# Specification of the C library functions

The vocabulary of the standard: objects of bytes, strings, and pure functions on lists of bytes.
Nothing in this file refers to the modelled functions.
-/

namespace Zy.Spec

open Zy

/-- The bytes at the addresses from `p` on are `xs`. -/
def Holds (m : Mem) : Nat → List Byte → Prop
  | _, [] => True
  | p, x :: xs => m[p]? = some (.byte x) ∧ Holds m (p + 1) xs

/-- At `p` there is a string with the characters `xs`: these characters are not NUL, and a NUL
follows. -/
def CString (m : Mem) (p : Nat) (xs : List Byte) : Prop := 0#8 ∉ xs ∧ Holds m p (xs ++ [0#8])

/-- The `n` bytes from `p` on belong to an object. Their values may be indeterminate. -/
def Object (m : Mem) (p n : Nat) : Prop := ∀ i < n, ∃ c, m[p + i]? = some c ∧ c ≠ .gone

/-- The two ranges have no address in common. -/
def Apart (p n q k : Nat) : Prop := p + n ≤ q ∨ q + k ≤ p

/-- `m'` is `m` except for the `n` bytes from `p` on. -/
def SameOutside (m m' : Mem) (p n : Nat) : Prop :=
  m'.length = m.length ∧ ∀ i, i < p ∨ p + n ≤ i → m'[i]? = m[i]?

/-- The first `n` characters of a string, with its terminator if it is reached. -/
def firstChars (xs : List Byte) (n : Nat) : List Byte := (xs ++ [0#8]).take n

/-- Lexicographic order by unsigned bytes. -/
def LexLess : List Byte → List Byte → Prop
  | [], [] => False
  | [], _ :: _ => True
  | _ :: _, [] => False
  | a :: as, b :: bs => a.toNat < b.toNat ∨ a = b ∧ LexLess as bs

/-- `r` has the sign of the comparison of `xs` and `ys`. -/
def IsComparison (r : Int) (xs ys : List Byte) : Prop :=
  (r = 0 ↔ xs = ys) ∧ (r < 0 ↔ LexLess xs ys) ∧ (0 < r ↔ LexLess ys xs)

/-- `r` is the address of the first element of `xs` that satisfies `P`, where `xs` is stored at `p`,
or null if there is none. -/
def FirstAt (r : Option Nat) (p : Nat) (xs : List Byte) (P : Byte → Prop) : Prop :=
  (∃ (i : Nat) (b : Byte), r = some (p + i) ∧ xs[i]? = some b ∧ P b ∧
    ∀ (j : Nat) (c : Byte), j < i → xs[j]? = some c → ¬ P c) ∨
  (r = none ∧ ∀ b ∈ xs, ¬ P b)

/-- `r` is the address of the last element of `xs` that satisfies `P`, or null if there is none. -/
def LastAt (r : Option Nat) (p : Nat) (xs : List Byte) (P : Byte → Prop) : Prop :=
  (∃ (i : Nat) (b : Byte), r = some (p + i) ∧ xs[i]? = some b ∧ P b ∧
    ∀ (j : Nat) (c : Byte), i < j → xs[j]? = some c → ¬ P c) ∨
  (r = none ∧ ∀ b ∈ xs, ¬ P b)

/-- `r` is the address of the first occurrence of `ys` in `xs`, or null if there is none. -/
def FirstOccurrence (r : Option Nat) (p : Nat) (xs ys : List Byte) : Prop :=
  (∃ i, r = some (p + i) ∧ i ≤ xs.length ∧ ys <+: xs.drop i ∧ ∀ j < i, ¬ ys <+: xs.drop j) ∨
  (r = none ∧ ¬ ys <:+: xs)

/-- The pieces into which the delimiters cut a string, including empty ones. -/
def pieces (ds : List Byte) : List Byte → List (List Byte)
  | [] => [[]]
  | c :: cs =>
    if c ∈ ds then [] :: pieces ds cs
    else
      match pieces ds cs with
      | [] => [[c]]
      | t :: ts => (c :: t) :: ts

/-- The tokens of a string: its non-empty pieces. -/
def tokens (ds xs : List Byte) : List (List Byte) := (pieces ds xs).filter fun t => !t.isEmpty

/-! ## Decidability, for the examples -/

instance decHolds (m : Mem) : (p : Nat) → (xs : List Byte) → Decidable (Holds m p xs)
  | _, [] => .isTrue trivial
  | p, x :: xs =>
    have := decHolds m (p + 1) xs
    inferInstanceAs (Decidable (m[p]? = some (.byte x) ∧ Holds m (p + 1) xs))

instance (m : Mem) (p : Nat) (xs : List Byte) : Decidable (CString m p xs) :=
  inferInstanceAs (Decidable (_ ∧ _))

instance (p n q k : Nat) : Decidable (Apart p n q k) := inferInstanceAs (Decidable (_ ∨ _))

instance (m : Mem) (p n : Nat) : Decidable (Object m p n) :=
  decidable_of_iff (∀ i < n, m[p + i]? ≠ none ∧ m[p + i]? ≠ some .gone) (by
    refine forall_congr' fun i => forall_congr' fun _ => ?_
    cases m[p + i]? <;> simp)

end Zy.Spec
