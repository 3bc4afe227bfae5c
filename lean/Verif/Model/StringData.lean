import Verif.Model.String

/-!
# Model of the functions that hand out the characters, and of the variants with default parameters

A `const char*` is the memory that starts at it.
-/

namespace Zy

/-- `ZyanStringGetData`: src/String.c lines 1084-1094. -/
def strGetData (t : Str) : Status × List (Cell Byte) :=
  (stSuccess, match t.s.v.data with | some b => b.cells | none => [])

/-- `ZyanStringViewGetData`: src/String.c lines 320-330. -/
def viewGetData (v : View) : Status × List (Cell Byte) := (stSuccess, v.mem)

/-- `ZYAN_DEFINE_STRING_VIEW` for a string literal with the characters `x`: String.h lines 175-192. The
literal has a terminator behind its characters, which `sizeof` counts. -/
def literalView (x : List Byte) : View := ⟨x.map some ++ [some 0#8], (x.map some ++ [some (0#8 : Byte)]).length⟩

/-- `ZyanStringDuplicate`: src/String.c lines 126-131. -/
def strDuplicate (w : World Byte) (src : View) (capacity : Nat) : Out (Status × Option Str × World Byte) :=
  strDuplicateEx w src capacity (some 0) 2 4

/-- `ZyanStringConcat`: src/String.c lines 187-192. -/
def strConcat (w : World Byte) (s1 s2 : View) (capacity : Nat) : Out (Status × Option Str × World Byte) :=
  strConcatEx w s1 s2 capacity (some 0) 2 4

/-- `ZyanVectorDuplicate`: src/Vector.c lines 271-276. -/
def vecDuplicate {α : Type} (w : World α) (src : Vec α) (capacity : Nat) :
    Out (Status × Option (Vec α) × World α) := vecDuplicateEx w src capacity (some 0) 2 4

end Zy
