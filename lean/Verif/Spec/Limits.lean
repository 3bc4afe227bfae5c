import Verif.Spec.Types
import Verif.Model.Limits

/-!
# What is expected of the integer types and limits without the C library
-/

namespace Zy.Spec

/-- The sizes of the standard types on all targets the library names; `long` and pointers have four or eight bytes. -/
structure UsualSizes (c : Compiler) : Prop where
  short : c.short = 2
  int : c.int = 4
  long : c.long = 4 ∨ c.long = 8
  llong : c.llong = 8
  ptr : c.ptr = 4 ∨ c.ptr = 8

/-- Whatever the compiler predefines means what its name says. A limit has the type its integer type is promoted to. -/
structure Honest (c : Compiler) : Prop where
  tU8 : ∀ t, c.tU8 = some t → t = ⟨1, false⟩
  tU16 : ∀ t, c.tU16 = some t → t = ⟨2, false⟩
  tU32 : ∀ t, c.tU32 = some t → t = ⟨4, false⟩
  tU64 : ∀ t, c.tU64 = some t → t = ⟨8, false⟩
  tI8 : ∀ t, c.tI8 = some t → t = ⟨1, true⟩
  tI16 : ∀ t, c.tI16 = some t → t = ⟨2, true⟩
  tI32 : ∀ t, c.tI32 = some t → t = ⟨4, true⟩
  tI64 : ∀ t, c.tI64 = some t → t = ⟨8, true⟩
  tSize : ∀ t, c.tSize = some t → t = ⟨c.ptr, false⟩
  tPtrdiff : ∀ t, c.tPtrdiff = some t → t = ⟨c.ptr, true⟩
  tUIntptr : ∀ t, c.tUIntptr = some t → t = ⟨c.ptr, false⟩
  tIntptr : ∀ t, c.tIntptr = some t → t = ⟨c.ptr, true⟩
  mI8 : ∀ e, c.mI8 = some e → e = (⟨4, true⟩, 2 ^ 7 - 1)
  mI16 : ∀ e, c.mI16 = some e → e = (⟨4, true⟩, 2 ^ 15 - 1)
  mI32 : ∀ e, c.mI32 = some e → e = (⟨4, true⟩, 2 ^ 31 - 1)
  mI64 : ∀ e, c.mI64 = some e → e = (⟨8, true⟩, 2 ^ 63 - 1)
  mU8 : ∀ e, c.mU8 = some e → e = (⟨4, true⟩, 2 ^ 8 - 1)
  mU16 : ∀ e, c.mU16 = some e → e = (⟨4, true⟩, 2 ^ 16 - 1)
  mU32 : ∀ e, c.mU32 = some e → e = (⟨4, false⟩, 2 ^ 32 - 1)
  mU64 : ∀ e, c.mU64 = some e → e = (⟨8, false⟩, 2 ^ 64 - 1)

/-- Every limit is the least or greatest number of `n` bits, and has the type that an operand of `n` bits is promoted to,
as the C standard has it for the limits of `stdint.h`. -/
structure ExactLimits (l : Limits) : Prop where
  i8Min : l.i8Min = some (⟨4, true⟩, -2 ^ 7)
  i16Min : l.i16Min = some (⟨4, true⟩, -2 ^ 15)
  i32Min : l.i32Min = some (⟨4, true⟩, -2 ^ 31)
  i64Min : l.i64Min = some (⟨8, true⟩, -2 ^ 63)
  i8Max : l.i8Max = some (⟨4, true⟩, 2 ^ 7 - 1)
  i16Max : l.i16Max = some (⟨4, true⟩, 2 ^ 15 - 1)
  i32Max : l.i32Max = some (⟨4, true⟩, 2 ^ 31 - 1)
  i64Max : l.i64Max = some (⟨8, true⟩, 2 ^ 63 - 1)
  u8Max : l.u8Max = some (⟨4, true⟩, 2 ^ 8 - 1)
  u16Max : l.u16Max = some (⟨4, true⟩, 2 ^ 16 - 1)
  u32Max : l.u32Max = some (⟨4, false⟩, 2 ^ 32 - 1)
  u64Max : l.u64Max = some (⟨8, false⟩, 2 ^ 64 - 1)

/-- The header is usable: it compiles, and its types are the promised ones. -/
def Usable (c : Compiler) : Prop :=
  ∃ t, noLibcTypes c = some t ∧ typesAccepted t c.ptr = true ∧ RightSizes t c.ptr ∧ RightSigns t

/-- The header guesses right where the compiler does not tell: MSVC and ICC have large pointers exactly on 64-bit
Windows; with GCC and Clang each type that has no macro is as large as the type that stands in for it. -/
def GuessesRight (c : Compiler) : Prop :=
  if c.msvc || c.icc then c.ptr = (if c.win64 then 8 else 4)
  else
    let wide := c.x86_64 && !c.ilp32
    (c.tU64 = none → wide = true → c.long = 8) ∧ (c.tI64 = none → wide = true → c.long = 8) ∧
    (c.tSize = none → c.long = c.ptr) ∧ (c.tPtrdiff = none → c.long = c.ptr) ∧
    (c.tUIntptr = none → c.ptr = (if wide then c.long else 4)) ∧
    (c.tIntptr = none → c.ptr = (if wide then c.long else 4))

end Zy.Spec
