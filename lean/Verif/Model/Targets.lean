import Verif.Model.Format

/-!
# What the target decides

Two choices that the other models fix: which of the number formatting functions are used (src/Format.c
lines 424-436 and 464-477), and whether `char` is signed (it is with the default settings of x86 compilers,
and is not on ARM Linux). The functions of src/String.c that look at characters are given here with the integer
promotions of the source.

Simplifications: those of `Model/String` and `Model/Format`; `ZyanUSize` has 64 bits.
-/

namespace Zy

/-! ## Number formatting on targets without 64-bit registers -/

/-- `ZyanStringAppendDecU`: src/Format.c lines 424-436, the branch for other targets. -/
def strAppendDecUNarrow (t : Str) (value padding : Nat) : Out (Status × Str) :=
  if value &&& 0xFFFFFFFF00000000 ≠ 0 then strAppendDecU64 t value padding
  else strAppendDecU32 t (value % 4294967296) padding

/-- `ZyanStringAppendHexU`: src/Format.c lines 464-477, the branch for other targets. -/
def strAppendHexUNarrow (t : Str) (value padding : Nat) (upper : Bool) : Out (Status × Str) :=
  if value &&& 0xFFFFFFFF00000000 ≠ 0 then strAppendHexU64 t value padding upper
  else strAppendHexU32 t (value % 4294967296) padding upper

/-- `ZyanStringAppendDecS`: src/Format.c lines 438-462 on such a target. -/
def strAppendDecSNarrow (t : Str) (value : BitVec 64) (padding : Nat) (forceSign : Bool) (pre : Option View) :
    Out (Status × Str) :=
  strAppendSigned (fun t m => strAppendDecUNarrow t m padding) t value forceSign pre

/-- `ZyanStringAppendHexS`: src/Format.c lines 479-503 on such a target. -/
def strAppendHexSNarrow (t : Str) (value : BitVec 64) (padding : Nat) (upper forceSign : Bool)
    (pre : Option View) : Out (Status × Str) :=
  strAppendSigned (fun t m => strAppendHexUNarrow t m padding upper) t value forceSign pre

/-! ## Signed and unsigned characters -/

/-- The promotion of a `char` to `int`. -/
def promote (signed : Bool) (c : Byte) : BitVec 32 := if signed then c.signExtend 32 else c.setWidth 32

/-- The negation of `*s != *b`: src/String.c lines 591 and 729. -/
def eqExactOn (signed : Bool) (c1 c2 : Byte) : Bool := promote signed c1 == promote signed c2

/-- The negation of `(c1 != c2) && ((c1 ^ 32) != c2)`: src/String.c lines 660, 679, 800 and 819; and
`(a[i] == b[i]) || ((a[i] ^ 32) == b[i])`: line 907. -/
def eqFoldOn (signed : Bool) (c1 c2 : Byte) : Bool :=
  promote signed c1 == promote signed c2 || (promote signed c1 ^^^ 32#32) == promote signed c2

/-- `(a[i] | 32) < (b[i] | 32)`: src/String.c lines 871 and 921. -/
def ltFoldOn (signed : Bool) (a b : Byte) : Bool :=
  decide ((promote signed a ||| 32#32).toInt < (promote signed b ||| 32#32).toInt)

/-- `if ((c >= 'A') && (c <= 'Z')) *s = c | 32;`: src/String.c lines 965-969. -/
def lowerByteOn (signed : Bool) (c : Byte) : Byte :=
  if (65#32).toInt ≤ (promote signed c).toInt ∧ (promote signed c).toInt ≤ (90#32).toInt then
    (promote signed c ||| 32#32).setWidth 8
  else c

/-- `if ((c >= 'a') && (c <= 'z')) *s = c & ~32;`: src/String.c lines 1006-1010. -/
def upperByteOn (signed : Bool) (c : Byte) : Byte :=
  if (97#32).toInt ≤ (promote signed c).toInt ∧ (promote signed c).toInt ≤ (122#32).toInt then
    (promote signed c &&& ~~~32#32).setWidth 8
  else c

/-- `ZyanStringLPosEx` and `ZyanStringLPosIEx`: src/String.c lines 566-618 and 631-689. -/
def strLPosExOn (signed fold : Bool) :=
  strLPosExWith (if fold then eqFoldOn signed else eqExactOn signed)

/-- `ZyanStringRPosEx` and `ZyanStringRPosIEx`: src/String.c lines 703-756 and 770-829. -/
def strRPosExOn (signed fold : Bool) :=
  strRPosExWith (if fold then eqFoldOn signed else eqExactOn signed)

/-- `ZyanStringCompare` and `ZyanStringCompareI`: src/String.c lines 835-879 and 881-929. -/
def strCompareOn (signed fold : Bool) (s1 s2 : View) : Out (Status × Int) :=
  if s1.size < s2.size then .ret (stFalse, -1)
  else if s1.size > s2.size then .ret (stFalse, 1)
  else
    (cmpLoop (if fold then eqFoldOn signed else eqExactOn signed) s1 s2 (s1.size + 1) 0).bind fun i =>
    (rdChar s1.mem i).bind fun a =>
    (rdChar s2.mem i).bind fun b =>
    if eqExactOn signed a b then .ret (stTrue, 0)
    else if ltFoldOn signed a b then .ret (stFalse, -1)
    else .ret (stFalse, 1)

/-- `ZyanStringToLowerCaseEx` and `ZyanStringToUpperCaseEx`: src/String.c lines 945-974 and 986-1015. -/
def strCaseExOn (signed upper : Bool) := strCaseEx (if upper then upperByteOn signed else lowerByteOn signed)

end Zy
