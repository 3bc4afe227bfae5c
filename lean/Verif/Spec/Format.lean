import Verif.Spec.String

/-!
# Specification of number formatting

Nothing in this file refers to the model of the code.
-/

namespace Zy.Spec

open Zy

/-- The digits of `n` in the given base, most significant first; a single digit for `n < base`. -/
def digits (base n : Nat) : List Nat :=
  if _h : base < 2 ∨ n < base then [n] else digits base (n / base) ++ [n % base]
termination_by n
decreasing_by exact Nat.div_lt_self (by omega) (by omega)

/-- The character of a digit: `0`-`9`, then `A`-`F` or `a`-`f`. -/
def digitChar (upper : Bool) (d : Nat) : Byte :=
  BitVec.ofNat 8 (if d < 10 then 48 + d else if upper then 55 + d else 87 + d)

/-- The usual way to write the number `n`: no leading zeros, "0" for zero. -/
def numeral (base : Nat) (upper : Bool) (n : Nat) : List Byte := (digits base n).map (digitChar upper)

/-- A numeral padded with '0' on the left to at least `w` characters. -/
def padded (w : Nat) (x : List Byte) : List Byte := List.replicate (w - x.length) 48#8 ++ x

/-- The value of a digit character. -/
def digitValue (c : Byte) : Nat :=
  if 48 ≤ c.toNat ∧ c.toNat ≤ 57 then c.toNat - 48
  else if 65 ≤ c.toNat ∧ c.toNat ≤ 70 then c.toNat - 55
  else c.toNat - 87

/-- Reading a numeral back. -/
def readNumeral (base : Nat) (x : List Byte) : Nat := x.foldl (fun acc c => acc * base + digitValue c) 0

/-- The characters in front of the digits of a signed number: the sign and the prefix. -/
def signPrefix (value : Int) (forceSign : Bool) (pre : List Byte) : List Byte :=
  (if value < 0 then [45#8] else if forceSign then [43#8] else []) ++ pre

/-- The sign alone. -/
def signOf (value : Int) (forceSign : Bool) : List Byte :=
  if value < 0 then [45#8] else if forceSign then [43#8] else []

/-- What is written of a text given in pieces if there is room for `n` characters and writing stops in front
of the first piece that does not fit as a whole. -/
def fittingPieces {α : Type} (n : Nat) : List (List α) → List α
  | [] => []
  | p :: ps => if p.length ≤ n then p ++ fittingPieces (n - p.length) ps else []

/-- The value of the low 32 bits of `n` as a signed number. -/
def asInt32 (n : Nat) : Int :=
  if n % 4294967296 < 2147483648 then (n % 4294967296 : Nat) else (n % 4294967296 : Nat) - 4294967296

/-- What a formatter that produces the text `x` writes if it is told that there is room for `n` characters
and a NUL. -/
def written (n : Nat) (x : List Byte) : List (Cell Byte) := (x.take n).map some ++ [some 0#8]

end Zy.Spec
