import Verif.Base

/-!
# Model of the macros and of the generated comparison functions

`include/Zycore/Defines.h` 413-552, `include/Zycore/Status.h` 113-132, `include/Zycore/Zycore.h` 48-86,
`include/Zycore/Comparison.h` 84-306, `src/Zycore.c` 33-36. The status codes and the checks are in
`Verif.Base`.

Simplification: the operands of a macro are two values of one unsigned integer type of `w` bits, `w` at
least the width of `int` (narrower operands are promoted to `int` and never wrap). A macro with operands
of different widths is modelled where the difference matters (`alignUpNarrow`).
-/

namespace Zy

/-! ## Status fields -/

/-- `ZYAN_STATUS_MODULE`: Status.h lines 120-121. -/
def statusModule (s : Status) : BitVec 32 := (s >>> 20) &&& 0x7FF#32

/-- `ZYAN_STATUS_CODE`: Status.h lines 130-131. -/
def statusCode (s : Status) : BitVec 32 := s &&& 0xFFFFF#32

/-- The predefined status codes: Status.h lines 163-277. -/
def predefined : List Status :=
  [stSuccess, stFailed, stTrue, stFalse, stInvalidArgument, stInvalidOperation, stAccessDenied, stNotFound,
    stOutOfRange, stInsufficient, stNoMemory, stBadSystemcall, stOutOfResources, stMissingDependency,
    stArgNotUnderstood, stTooFewArgs, stTooManyArgs, stArgMissesValue, stRequiredArgMissing]

/-! ## Arithmetic -/

/-- `ZYAN_MIN`: Defines.h line 422, for operands compared by `lt`. -/
def zyMin {α : Type} (lt : α → α → Bool) (a b : α) : α := if lt a b then a else b

/-- `ZYAN_MAX`: Defines.h line 432; `a > b` is `b < a`. -/
def zyMax {α : Type} (lt : α → α → Bool) (a b : α) : α := if lt b a then a else b

/-- `ZYAN_ABS` on a signed integer type of `w` bits: Defines.h line 441. The negation of the least value
is a signed overflow. -/
def zyAbs {w : Nat} (a : BitVec w) : Out (BitVec w) :=
  if a.slt 0 then (if a = BitVec.intMin w then .ub .other else .ret (-a)) else .ret a

/-- `ZYAN_IS_POWER_OF_2`: Defines.h line 452. -/
def isPowerOf2 {w : Nat} (x : BitVec w) : Bool := (x &&& (x - 1)) == 0

/-- `ZYAN_IS_ALIGNED_TO`: Defines.h line 459. -/
def isAlignedTo {w : Nat} (x align : BitVec w) : Bool := (x &&& (align - 1)) == 0

/-- `ZYAN_ALIGN_UP`: Defines.h line 471. -/
def alignUp {w : Nat} (x align : BitVec w) : BitVec w := (x + align - 1) &&& ~~~(align - 1)

/-- `ZYAN_ALIGN_DOWN`: Defines.h line 483. -/
def alignDown {w : Nat} (x align : BitVec w) : BitVec w := (x - 1) &&& ~~~(align - 1)

/-- `ZYAN_ALIGN_UP` with a 64-bit value and a 32-bit unsigned alignment: Defines.h line 471. The
complement is computed with 32 bits and then converted. -/
def alignUpNarrow (x : BitVec 64) (align : BitVec 32) : BitVec 64 :=
  (x + align.setWidth 64 - 1) &&& (~~~(align - 1)).setWidth 64

/-! ## Bit operations -/

/-- `ZYAN_NEEDS_BIT`: Defines.h line 514; `l` is the width of `unsigned long`. -/
def needsBit (l : Nat) (n : Nat) (b : Nat) : Bool := (n % 2 ^ l) >>> b > 0

/-- `ZYAN_BITS_TO_REPRESENT`: Defines.h lines 525-543. -/
def bitsToRepresent (l : Nat) (n : Nat) : Nat :=
  ((List.range 32).map fun b => (needsBit l n b).toNat).sum

/-! ## The version -/

/-- `ZYCORE_VERSION`: Zycore.h line 54. -/
def zycoreVersion : BitVec 64 := 0x0001000500000000

/-- `ZycoreGetVersion`: src/Zycore.c lines 33-36. -/
def getVersion : BitVec 64 := zycoreVersion

/-- `ZYCORE_VERSION_MAJOR`: Zycore.h line 65. -/
def versionMajor (v : BitVec 64) : BitVec 16 := ((v &&& 0xFFFF000000000000) >>> 48).setWidth 16

/-- `ZYCORE_VERSION_MINOR`: Zycore.h line 72. -/
def versionMinor (v : BitVec 64) : BitVec 16 := ((v &&& 0x0000FFFF00000000) >>> 32).setWidth 16

/-- `ZYCORE_VERSION_PATCH`: Zycore.h line 79. -/
def versionPatch (v : BitVec 64) : BitVec 16 := ((v &&& 0x00000000FFFF0000) >>> 16).setWidth 16

/-- `ZYCORE_VERSION_BUILD`: Zycore.h line 86. -/
def versionBuild (v : BitVec 64) : BitVec 16 := (v &&& 0x000000000000FFFF).setWidth 16

/-! ## Comparison functions -/

/-- `ZyanBool` is a byte; `ZYAN_TRUE` is 1 and `ZYAN_FALSE` is 0: include/Zycore/Types.h
lines 287-296. -/
abbrev ZBool := BitVec 8

/-- A function generated by `ZYAN_DECLARE_EQUALITY_COMPARISON` (Comparison.h lines 84-91) for an
unsigned type of `w` bits: `ZyanEqualsPointer`, `ZyanEqualsBool`, `ZyanEqualsNumeric8` ... `64` (lines
181-236). -/
def equalsNumeric {w : Nat} (left right : BitVec w) : ZBool := if left = right then 1 else 0

/-- A function generated by `ZYAN_DECLARE_EQUALITY_COMPARISON_FOR_FIELD`: Comparison.h lines 101-108.
`field` reads the field of a struct. -/
def equalsField {α : Type} {w : Nat} (field : α → BitVec w) (left right : α) : ZBool :=
  if field left = field right then 1 else 0

/-- A function generated by `ZYAN_DECLARE_COMPARISON` (Comparison.h lines 120-135) for an unsigned type
of `w` bits: `ZyanComparePointer`, `ZyanCompareBool`, `ZyanCompareNumeric8` ... `64` (lines 251-306). -/
def compareNumeric {w : Nat} (left right : BitVec w) : BitVec 32 :=
  if left.ult right then -1 else if right.ult left then 1 else 0

/-- A function generated by `ZYAN_DECLARE_COMPARISON` for a signed type of `w` bits. -/
def compareSigned {w : Nat} (left right : BitVec w) : BitVec 32 :=
  if left.slt right then -1 else if right.slt left then 1 else 0

/-- A function generated by `ZYAN_DECLARE_COMPARISON_FOR_FIELD`: Comparison.h lines 145-160. -/
def compareField {α : Type} {w : Nat} (field : α → BitVec w) (left right : α) : BitVec 32 :=
  if (field left).ult (field right) then -1 else if (field right).ult (field left) then 1 else 0

end Zy
