import Verif.Model.Types

/-!
# What the names of the integer types promise
-/

namespace Zy.Spec

/-- The sizes the names promise; the last four are as large as a pointer. -/
structure RightSizes (t : Typedefs) (ptr : Nat) : Prop where
  u8 : t.u8.bytes = 1
  u16 : t.u16.bytes = 2
  u32 : t.u32.bytes = 4
  u64 : t.u64.bytes = 8
  i8 : t.i8.bytes = 1
  i16 : t.i16.bytes = 2
  i32 : t.i32.bytes = 4
  i64 : t.i64.bytes = 8
  usize : t.usize.bytes = ptr
  isize : t.isize.bytes = ptr
  upointer : t.upointer.bytes = ptr
  ipointer : t.ipointer.bytes = ptr

/-- The signs the names promise. -/
structure RightSigns (t : Typedefs) : Prop where
  u8 : t.u8.signed = false
  u16 : t.u16.signed = false
  u32 : t.u32.signed = false
  u64 : t.u64.signed = false
  i8 : t.i8.signed = true
  i16 : t.i16.signed = true
  i32 : t.i32.signed = true
  i64 : t.i64.signed = true
  usize : t.usize.signed = false
  isize : t.isize.signed = true
  upointer : t.upointer.signed = false
  ipointer : t.ipointer.signed = true

/-- The same types with all signs exchanged. -/
def exchanged (t : Typedefs) : Typedefs where
  u8 := ⟨t.u8.bytes, !t.u8.signed⟩
  u16 := ⟨t.u16.bytes, !t.u16.signed⟩
  u32 := ⟨t.u32.bytes, !t.u32.signed⟩
  u64 := ⟨t.u64.bytes, !t.u64.signed⟩
  i8 := ⟨t.i8.bytes, !t.i8.signed⟩
  i16 := ⟨t.i16.bytes, !t.i16.signed⟩
  i32 := ⟨t.i32.bytes, !t.i32.signed⟩
  i64 := ⟨t.i64.bytes, !t.i64.signed⟩
  usize := ⟨t.usize.bytes, !t.usize.signed⟩
  isize := ⟨t.isize.bytes, !t.isize.signed⟩
  upointer := ⟨t.upointer.bytes, !t.upointer.signed⟩
  ipointer := ⟨t.ipointer.bytes, !t.ipointer.signed⟩

end Zy.Spec
