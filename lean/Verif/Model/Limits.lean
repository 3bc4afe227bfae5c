import Verif.Model.Types

/-!
# Model of the integer types and limits without the C library (include/Zycore/Types.h)

A compiler is given by what the header asks it: which `ZYAN_*` name it was recognised as, the macros it predefines, and
the sizes of the standard types. A predefined type macro stands for an integer type, a predefined limit macro for a
constant with its type. `char` has one byte, and `__intN` has `N` bits. Constants get their types as C prescribes: the
first type of the list that belongs to the suffix that can hold the value; a suffix `iN` or `uiN` of MSVC names the type
directly. Operands smaller than `int` are promoted to it. An expression without a value, since a constant fits no type or
signed arithmetic overflows, is `none`.
-/

namespace Zy

/-- What the header asks of a compiler. -/
structure Compiler where
  /-- `ZYAN_MSVC`, `ZYAN_ICC` and `ZYAN_GNUC` -/
  msvc : Bool
  icc : Bool
  gnuc : Bool
  /-- `_WIN64`, `__x86_64__` and `__ILP32__` -/
  win64 : Bool
  x86_64 : Bool
  ilp32 : Bool
  /-- sizes of `short`, `int`, `long`, `long long` and `void*` -/
  short : Nat
  int : Nat
  long : Nat
  llong : Nat
  ptr : Nat
  /-- `__UINT8_TYPE__` and its kin -/
  tU8 : Option CInt
  tU16 : Option CInt
  tU32 : Option CInt
  tU64 : Option CInt
  tI8 : Option CInt
  tI16 : Option CInt
  tI32 : Option CInt
  tI64 : Option CInt
  /-- `__SIZE_TYPE__`, `__PTRDIFF_TYPE__`, `__UINTPTR_TYPE__` and `__INTPTR_TYPE__` -/
  tSize : Option CInt
  tPtrdiff : Option CInt
  tUIntptr : Option CInt
  tIntptr : Option CInt
  /-- `__INT8_MAX__` and its kin -/
  mI8 : Option (CInt × Int)
  mI16 : Option (CInt × Int)
  mI32 : Option (CInt × Int)
  mI64 : Option (CInt × Int)
  mU8 : Option (CInt × Int)
  mU16 : Option (CInt × Int)
  mU32 : Option (CInt × Int)
  mU64 : Option (CInt × Int)

/-- `defined(__x86_64__) && !defined(__ILP32__)`: include/Zycore/Types.h lines 83, 107, 126, 135, 180, 205. -/
def Compiler.wide (c : Compiler) : Bool := c.x86_64 && !c.ilp32

/-- The type definitions without the C library, `none` for `#error`: include/Zycore/Types.h lines 44-143. -/
def noLibcTypes (c : Compiler) : Option Typedefs :=
  if c.msvc || c.icc then
    let w := if c.win64 then 8 else 4
    some ⟨⟨1, false⟩, ⟨2, false⟩, ⟨4, false⟩, ⟨8, false⟩, ⟨1, true⟩, ⟨2, true⟩, ⟨4, true⟩, ⟨8, true⟩,
      ⟨w, false⟩, ⟨w, true⟩, ⟨w, false⟩, ⟨w, true⟩⟩
  else if c.gnuc then
    some {
      u8 := c.tU8.getD ⟨1, false⟩
      u16 := c.tU16.getD ⟨c.short, false⟩
      u32 := c.tU32.getD ⟨c.int, false⟩
      u64 := c.tU64.getD (if c.wide then ⟨c.long, false⟩ else ⟨c.llong, false⟩)
      i8 := c.tI8.getD ⟨1, true⟩
      i16 := c.tI16.getD ⟨c.short, true⟩
      i32 := c.tI32.getD ⟨c.int, true⟩
      i64 := c.tI64.getD (if c.wide then ⟨c.long, true⟩ else ⟨c.llong, true⟩)
      usize := c.tSize.getD ⟨c.long, false⟩
      isize := c.tPtrdiff.getD ⟨c.long, true⟩
      upointer := c.tUIntptr.getD (if c.wide then ⟨c.long, false⟩ else ⟨c.int, false⟩)
      ipointer := c.tIntptr.getD (if c.wide then ⟨c.long, true⟩ else ⟨c.int, true⟩) }
  else none

/-- The type can hold the value. -/
def CInt.holds (t : CInt) (v : Int) : Bool :=
  if t.signed then decide (-2 ^ (8 * t.bytes - 1) ≤ v) && decide (v < 2 ^ (8 * t.bytes - 1))
  else decide (0 ≤ v) && decide (v < 2 ^ (8 * t.bytes))

/-- A constant: the first of the types that can hold the value. -/
def constant (ts : List CInt) (v : Int) : Option (CInt × Int) :=
  (ts.find? (·.holds v)).map (·, v)

/-- The type an operand is promoted to. -/
def Compiler.promote (c : Compiler) (t : CInt) : CInt := if t.bytes < c.int then ⟨c.int, true⟩ else t

/-- A constant as an operand: its type after promotion, and its value. -/
def Compiler.operand (c : Compiler) (e : Option (CInt × Int)) : Option (CInt × Int) :=
  e.map fun x => (c.promote x.1, x.2)

/-- The result of an arithmetic operation: unsigned types wrap around, signed ones must hold it. -/
def CInt.result (t : CInt) (v : Int) : Option Int :=
  if t.signed then (if t.holds v then some v else none) else some (t.conv v)

/-- `(-e - 1)`: include/Zycore/Types.h lines 146-149, 164, 170, 176, 186; the literal `1` is an `int`, so the operation
is carried out in the promoted type of `e`. -/
def Compiler.minOf (c : Compiler) (e : Option (CInt × Int)) : Option (CInt × Int) :=
  e.bind fun x => ((c.promote x.1).result (-x.2)).bind fun n =>
    ((c.promote x.1).result (n - 1)).map fun m => (c.promote x.1, m)

/-- The twelve limits with their types as operands; `none` for an expression without a value. -/
structure Limits where
  i8Min : Option (CInt × Int)
  i16Min : Option (CInt × Int)
  i32Min : Option (CInt × Int)
  i64Min : Option (CInt × Int)
  i8Max : Option (CInt × Int)
  i16Max : Option (CInt × Int)
  i32Max : Option (CInt × Int)
  i64Max : Option (CInt × Int)
  u8Max : Option (CInt × Int)
  u16Max : Option (CInt × Int)
  u32Max : Option (CInt × Int)
  u64Max : Option (CInt × Int)

/-- A literal without a suffix, with `U`, `L`, `LL`, `UL` and `ULL`. -/
def Compiler.plain (c : Compiler) : List CInt := [⟨c.int, true⟩, ⟨c.long, true⟩, ⟨c.llong, true⟩]
def Compiler.sufU (c : Compiler) : List CInt := [⟨c.int, false⟩, ⟨c.long, false⟩, ⟨c.llong, false⟩]
def Compiler.sufL (c : Compiler) : List CInt := [⟨c.long, true⟩, ⟨c.llong, true⟩]
def Compiler.sufLL (c : Compiler) : List CInt := [⟨c.llong, true⟩]
def Compiler.sufUL (c : Compiler) : List CInt := [⟨c.long, false⟩, ⟨c.llong, false⟩]
def Compiler.sufULL (c : Compiler) : List CInt := [⟨c.llong, false⟩]

/-- `ZYAN_INT8_MAX`, ..., `ZYAN_INT64_MAX`: include/Zycore/Types.h lines 159-185 without MSVC. -/
def maxI8 (c : Compiler) : Option (CInt × Int) := c.mI8 <|> constant c.plain 127
def maxI16 (c : Compiler) : Option (CInt × Int) := c.mI16 <|> constant c.plain 32767
def maxI32 (c : Compiler) : Option (CInt × Int) := c.mI32 <|> constant c.plain 2147483647
def maxI64 (c : Compiler) : Option (CInt × Int) :=
  c.mI64 <|> constant (if c.wide then c.sufL else c.sufLL) 9223372036854775807

/-- The limits without the C library: include/Zycore/Types.h lines 145-212. -/
def noLibcLimits (c : Compiler) : Limits :=
  if c.msvc then
    { i8Min := c.minOf (constant [⟨1, true⟩] 127)
      i16Min := c.minOf (constant [⟨2, true⟩] 32767)
      i32Min := c.minOf (constant [⟨4, true⟩] 2147483647)
      i64Min := c.minOf (constant [⟨8, true⟩] 9223372036854775807)
      i8Max := c.operand (constant [⟨1, true⟩] 127)
      i16Max := c.operand (constant [⟨2, true⟩] 32767)
      i32Max := c.operand (constant [⟨4, true⟩] 2147483647)
      i64Max := c.operand (constant [⟨8, true⟩] 9223372036854775807)
      u8Max := c.operand (constant [⟨1, false⟩] 0xff)
      u16Max := c.operand (constant [⟨2, false⟩] 0xffff)
      u32Max := c.operand (constant [⟨4, false⟩] 0xffffffff)
      u64Max := c.operand (constant [⟨8, false⟩] 0xffffffffffffffff) }
  else
    { i8Min := c.minOf (maxI8 c)
      i16Min := c.minOf (maxI16 c)
      i32Min := c.minOf (maxI32 c)
      i64Min := c.minOf (maxI64 c)
      i8Max := c.operand (maxI8 c)
      i16Max := c.operand (maxI16 c)
      i32Max := c.operand (maxI32 c)
      i64Max := c.operand (maxI64 c)
      u8Max := c.operand (c.mU8 <|> constant c.plain 255)
      u16Max := c.operand (c.mU16 <|> constant c.plain 65535)
      u32Max := c.operand (c.mU32 <|> constant c.sufU 4294967295)
      u64Max := c.operand (c.mU64 <|> constant (if c.wide then c.sufUL else c.sufULL) 18446744073709551615) }

end Zy
