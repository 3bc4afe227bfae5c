import Verif.Spec.Split
import Verif.Spec.Format
import Verif.Model.Format

/-!
# Specification: numbers written one behind the other

A program that appends numbers with `ZyanStringAppendDecU` and a separator between them with `ZyanStringAppend`. Another one
(`splitLoop`) finds the numbers again.
-/

namespace Zy.Spec

open Zy

/-- Append the numbers to the string, at least `w` digits wide, with `sep` between them (`ZyanStringAppendDecU`:
src/Format.c lines 424-436, `ZyanStringAppend`: src/String.c lines 453-467). -/
def writeNumbers (sep : View) (w : Nat) : Str → List Nat → Out (Status × Str)
  | t, [] => .ret (stSuccess, t)
  | t, [n] => strAppendDecU t n w
  | t, n :: rest =>
    (strAppendDecU t n w).bind fun a =>
      if failed a.1 then .ret a
      else (strAppend a.2 sep).bind fun b => if failed b.1 then .ret b else writeNumbers sep w b.2 rest

/-- The character is not a decimal digit and not the end of a C string. -/
def Separates (c : Byte) : Prop := c ≠ 0#8 ∧ ∀ d < 10, c ≠ digitChar false d

end Zy.Spec
