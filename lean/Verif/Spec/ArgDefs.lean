import Verif.Spec.ArgParseRun

/-!
# Reading the results of the parser without the numbers of the definitions
-/

namespace Zy.Spec

open Zy

/-- What a parsed argument says, whatever place its definition has: the definition itself (the one a pointer
to it denotes), whether there is a value, and the value. -/
def withDef (D : List ArgDef) (x : AArg) : Option ArgDef × Bool × Option View :=
  (x.defn.bind fun j => D[j]?, x.hasValue, x.value)

/-- The output of a parser with the definitions `D`. -/
def shown (D : List ArgDef) (r : ArgResult) : Out (List (Option (Option ArgDef × Bool × Option View))) :=
  (output r).bind fun xs => .ret (xs.map fun c => c.map (withDef D))

end Zy.Spec
