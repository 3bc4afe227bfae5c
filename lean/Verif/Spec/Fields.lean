import Verif.Spec.Split
import Verif.Spec.Format
import Verif.Model.Format

/-!
# Specification: lines of fields in different formats

A program that writes numbers to a string, each in its own format: unsigned or signed, decimal or hexadecimal, with its own
width, with a separator between them. Another one (`splitLoop`) finds the fields again.
-/

namespace Zy.Spec

open Zy

/-- The format of a number: the function that appends it, and its options. -/
inductive FieldFmt where
  /-- `ZyanStringAppendDecU` -/
  | decU
  /-- `ZyanStringAppendHexU` -/
  | hexU (upper : Bool)
  /-- `ZyanStringAppendDecS` -/
  | decS (forceSign : Bool)
  /-- `ZyanStringAppendHexS` -/
  | hexS (upper forceSign : Bool)
deriving DecidableEq

/-- A number together with the way it is to be written. -/
structure Field where
  fmt : FieldFmt
  width : Nat
  bits : BitVec 64
deriving DecidableEq

/-- The number meant by the 64 bits. -/
def Field.value (f : Field) : Int :=
  match f.fmt with
  | .decU | .hexU _ => f.bits.toNat
  | .decS _ | .hexS _ _ => f.bits.toInt

/-- Append one field (src/Format.c lines 424-503). -/
def writeField (t : Str) (f : Field) : Out (Status × Str) :=
  match f.fmt with
  | .decU => strAppendDecU t f.bits.toNat f.width
  | .hexU upper => strAppendHexU t f.bits.toNat f.width upper
  | .decS forceSign => strAppendDecS t f.bits f.width forceSign none
  | .hexS upper forceSign => strAppendHexS t f.bits f.width upper forceSign none

/-- Append the fields, with `sep` between them (`ZyanStringAppend`: src/String.c lines 453-467). -/
def writeFields (sep : View) : Str → List Field → Out (Status × Str)
  | t, [] => .ret (stSuccess, t)
  | t, [f] => writeField t f
  | t, f :: rest =>
    (writeField t f).bind fun a =>
      if failed a.1 then .ret a
      else (strAppend a.2 sep).bind fun b => if failed b.1 then .ret b else writeFields sep b.2 rest

/-- Read a number with an optional sign. -/
def readSigned (base : Nat) : List Byte → Int
  | [] => 0
  | c :: x =>
    if c = 45#8 then -(readNumeral base x : Int) else if c = 43#8 then readNumeral base x else readNumeral base (c :: x)

/-- Read a field whose format is known. -/
def readField : FieldFmt → List Byte → Int
  | .decU, x => readNumeral 10 x
  | .hexU _, x => readNumeral 16 x
  | .decS _, x => readSigned 10 x
  | .hexS _ _, x => readSigned 16 x

/-- How a field should look. -/
def fieldText (f : Field) : List Byte :=
  match f.fmt with
  | .decU => padded f.width (numeral 10 false f.bits.toNat)
  | .hexU upper => padded f.width (numeral 16 upper f.bits.toNat)
  | .decS forceSign => signOf f.bits.toInt forceSign ++ padded f.width (numeral 10 false f.bits.toInt.natAbs)
  | .hexS upper forceSign => signOf f.bits.toInt forceSign ++ padded f.width (numeral 16 upper f.bits.toInt.natAbs)

/-- The character does not occur in numbers, and is not the end of a C string. -/
def SetsApart (c : Byte) : Prop := c ≠ 0#8 ∧ c ≠ 43#8 ∧ c ≠ 45#8 ∧ ∀ d < 16, c ≠ digitChar false d ∧ c ≠ digitChar true d

end Zy.Spec
