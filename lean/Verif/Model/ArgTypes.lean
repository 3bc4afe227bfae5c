import Verif.Base

/-!
# Inputs of the argument parser

The data that the caller of `ZyanArgParse` supplies. A C string is represented by its characters
without the terminating NUL.
-/

namespace Zy

/-- `ZyanArgParseDefinition`: include/Zycore/ArgParse.h lines 51-68. -/
structure ArgDef where
  name : List Byte
  boolean : Bool
  required : Bool
deriving DecidableEq, Repr

/-- `ZyanArgParseConfig`: include/Zycore/ArgParse.h lines 73-99. The definition array ends at the
element with a null name; a null array is the empty list. -/
structure ArgConfig where
  argv : List (List Byte)
  argc : Nat
  minUnnamed : Nat
  maxUnnamed : Nat
  args : List ArgDef
deriving DecidableEq, Repr

end Zy
