import Verif.Model.NullPointers

/-!
# Model of the macros that define containers without initialising them
-/

namespace Zy

variable {α : Type}

/-- `ZYAN_VECTOR_INITIALIZER`: include/Zycore/Vector.h lines 122-132. -/
def vecInitializer : Vec α :=
  { allocator := none, growth := 0, shrink := 0, size := 0, cap := 0, esz := 0, hasDtor := false, data := none }

/-- `ZYAN_STRING_INITIALIZER`: include/Zycore/String.h lines 155-159. The flag for a fixed capacity is not set. -/
def strInitializer (w : World Byte) : Str := ⟨⟨vecInitializer, w⟩, false⟩

/-- `ZYAN_LIST_INITIALIZER`: include/Zycore/List.h lines 138-149. -/
def listInitializer : ZList :=
  { allocator := none, size := 0, esz := 0, head := none, hasDtor := false, tail := none, buffer := none,
    capacity := 0, firstUnused := none }

end Zy
