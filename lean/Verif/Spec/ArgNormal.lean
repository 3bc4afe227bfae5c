import Verif.Spec.ArgParseRun

/-!
# Normal forms of command lines
-/

namespace Zy.Spec

open Zy

/-- Whether an item is an option. -/
def isOption : Item → Bool
  | .opt .. => true
  | .plain _ => false

/-- The options among the items. -/
def options (is : List Item) : List Item := is.filter isOption

/-- The items in the order of the normal form: first the options, then the unnamed arguments. -/
def sortedItems (is : List Item) : List Item := options is ++ (plains is).map .plain

/-- The normal form: each option by its name, followed by its value as the next token if it has one; then `--`; then the
unnamed arguments. -/
def normalForm (D : List ArgDef) (is : List Item) : List Tok :=
  (options is).flatMap (render D) ++ dashDash :: plains is

/-- Every flag among the items has a long name. -/
def LongFlags (D : List ArgDef) (is : List Item) : Prop :=
  ∀ (j : Nat) (d : ArgDef), .opt j none ∈ is → D[j]? = some d → dashDash <+: d.name

/-- The same definitions and limits with another command line. -/
structure SameRules (cfg cfg' : ArgConfig) : Prop where
  args : cfg'.args = cfg.args
  minUnnamed : cfg'.minUnnamed = cfg.minUnnamed
  maxUnnamed : cfg'.maxUnnamed = cfg.maxUnnamed

end Zy.Spec
