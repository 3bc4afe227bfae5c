/-!
# Model of the compile-time checks on the integer types (include/Zycore/Types.h)

An integer type is its size and its signedness. The expressions of the static assertions are evaluated as C does:
a conversion to a signed type wraps around, as all supported compilers define it; operands smaller than `int`, which has
four bytes, are promoted to it, which keeps their values; a shift to the right of a negative number keeps the sign, as
all supported compilers define it. The compared operands of an assertion have the same type.
-/

namespace Zy

/-- An integer type. -/
structure CInt where
  bytes : Nat
  signed : Bool
  deriving DecidableEq

/-- The value of a conversion to the type. -/
def CInt.conv (t : CInt) (v : Int) : Int :=
  if t.signed then Int.bmod v (2 ^ (8 * t.bytes)) else v % 2 ^ (8 * t.bytes)

/-- The type definitions of include/Zycore/Types.h lines 44-219, whichever branch they come from. -/
structure Typedefs where
  u8 : CInt
  u16 : CInt
  u32 : CInt
  u64 : CInt
  i8 : CInt
  i16 : CInt
  i32 : CInt
  i64 : CInt
  usize : CInt
  isize : CInt
  upointer : CInt
  ipointer : CInt

/-- `(I)-1 >> 1 < (I)((U)-1 >> 1)`: include/Zycore/Types.h lines 258-261. -/
def signCheck (i u : CInt) : Bool :=
  decide ((i.conv (-1)) >>> (1 : Nat) < i.conv ((u.conv (-1)) >>> (1 : Nat)))

/-- All static assertions hold: include/Zycore/Types.h lines 244-261; `ptr` is `sizeof(void*)`. -/
def typesAccepted (t : Typedefs) (ptr : Nat) : Bool :=
  t.u8.bytes == 1 && t.u16.bytes == 2 && t.u32.bytes == 4 && t.u64.bytes == 8 &&
  t.i8.bytes == 1 && t.i16.bytes == 2 && t.i32.bytes == 4 && t.i64.bytes == 8 &&
  t.usize.bytes == ptr && t.isize.bytes == ptr && t.upointer.bytes == ptr && t.ipointer.bytes == ptr &&
  signCheck t.i8 t.u8 && signCheck t.i16 t.u16 && signCheck t.i32 t.u32 && signCheck t.i64 t.u64

end Zy
