import Verif.Model.ArgParse
import Verif.Spec.ArgParse
import Verif.Spec.VectorRun

/-!
# Reading the results of the modelled parser
-/

namespace Zy.Spec

open Zy

/-- The configurations a caller can supply: `argc` is the number of tokens, all strings are proper C
strings, and the whole command line is small enough that the size of the output vector, with its
over-allocation, fits into 64 bits. -/
structure ProperConfig (cfg : ArgConfig) : Prop where
  argc : cfg.argc = cfg.argv.length
  argv : ∀ t ∈ cfg.argv, 0#8 ∉ t
  names : ∀ d ∈ cfg.args, 0#8 ∉ d.name
  small : (cfg.argv.length + 1 + (cfg.argv.map List.length).sum) * 2 * 80 < 18446744073709551616

/-- The struct that reports an item: an option carries its definition, `has_value` tells whether there
is a value, and the value is a view that shows the text. -/
def structOf : Item → AArg
  | .opt j none => ⟨some j, false, none⟩
  | .opt j (some v) => ⟨some j, true, some ⟨strMem v, v.length + 1⟩⟩
  | .plain t => ⟨none, true, some ⟨strMem t, t.length + 1⟩⟩

/-- The elements of the output vector. -/
def output (r : ArgResult) : Out (List (Cell AArg)) :=
  match r.vec with
  | none => .ub .null
  | some v => contents ⟨v, r.w⟩

/-- The result of the parser is the given outcome. `want` tells whether an error token was asked for:
it is null on success, points to the offending token if there is one, and is untouched otherwise. -/
def Agrees (want : Bool) (r : ArgResult) : Verdict → Prop
  | .ok is => r.status = stSuccess ∧ r.tok = (if want then .null else .untouched) ∧
      output r = .ret (is.map fun it => some (structOf it))
  | .error st none => r.status = st ∧ failed st = true ∧ r.tok = .untouched
  | .error st (some t) => r.status = st ∧ failed st = true ∧
      r.tok = (if want then .ptr t else .untouched)

end Zy.Spec
