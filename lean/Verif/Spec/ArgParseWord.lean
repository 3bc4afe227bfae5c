import Verif.Model.ArgParseWord
import Verif.Spec.ArgParseRun

/-!
# When two targets parse a command line alike (property C178)
-/

namespace Zy.Spec

/-- The command line fits into the target: `m` is the number of values of a `size_t` and `sz` the size of
the struct of a parsed argument. Every token stands for at most one argument per character and one more;
the vector may double its capacity. -/
structure ArgFits (m sz : Nat) (cfg : ArgConfig) : Prop where
  argc : cfg.argc = cfg.argv.length
  struct : 0 < sz
  small : (cfg.argv.length + 1 + (cfg.argv.map List.length).sum) * 2 * sz < m

/-- A request to an allocator or a call of a destructor, without the size of an element. -/
def requestOf : Event AArg → Event AArg
  | .alloc a b _ n => .alloc a b 0 n
  | .realloc a b c _ n => .realloc a b c 0 n
  | .dealloc a b _ n => .dealloc a b 0 n
  | e => e

/-- Two runs of the parser have the same outcome: the same status and error token, the same parsed arguments
(or none in both), and the same requests to the allocator, for the same numbers of elements. -/
structure SameParse (r r' : ArgResult) : Prop where
  status : r.status = r'.status
  tok : r.tok = r'.tok
  output : output r = output r'
  requests : r.w.trace.map requestOf = r'.w.trace.map requestOf

end Zy.Spec
