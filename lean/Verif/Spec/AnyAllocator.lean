import Verif.Spec.StringRun
import Verif.Spec.BitsetRun
import Verif.Spec.VectorAnyAllocator

/-!
# Specification: strings and bitsets whose allocator may refuse

All calls that change a string or a bitset, and the same string or bitset in a world where the allocator
gives other answers.
-/

namespace Zy

open Spec

/-- A call that changes a string: those of String.h with unrelated sources, and those of Format.h. -/
inductive SCall where
  | op (op : SOp)
  | decU (value padding : Nat)
  | hexU (value padding : Nat) (upper : Bool)
  | decS (value : BitVec 64) (padding : Nat) (forceSign : Bool) (pre : Option View)
  | hexS (value : BitVec 64) (padding : Nat) (upper forceSign : Bool) (pre : Option View)
  | format (texts : Fmt)

/-- Reading of such a call as a call of the modelled function. -/
def stringCall (t : Str) : SCall → Out (Status × Str)
  | .op op => strOp t op
  | .decU v p => strAppendDecU t v p
  | .hexU v p u => strAppendHexU t v p u
  | .decS v p f pre => strAppendDecS t v p f pre
  | .hexS v p u f pre => strAppendHexS t v p u f pre
  | .format f => strAppendFormat t f

/-- Some calls, one after another: the statuses returned and the final state. -/
def runCalls (t : Str) : List SCall → Out (List Status × Str)
  | [] => .ret ([], t)
  | c :: cs => (stringCall t c).bind fun r => (runCalls r.2 cs).bind fun q => .ret (r.1 :: q.1, q.2)

/-- The string in a world where the allocator gives the answers `o` from now on. -/
def answeringStr (o : Nat → Status) (t : Str) : Str := { t with s := answering o t.s }

/-- A call that changes a bitset: those of one bitset, and a logical operation with another one. -/
inductive BCall where
  | op (op : BOp)
  | logic (f : Byte → Byte → Status × Byte) (u : Bits)

/-- Reading of such a call as a call of the modelled function. -/
def bitsCall (t : Bits) : BCall → Out (Status × Bits)
  | .op op => bsOp t op
  | .logic f u => bsPerform f t u

/-- Some calls, one after another: the statuses returned and the final state. -/
def runBitsCalls (t : Bits) : List BCall → Out (List Status × Bits)
  | [] => .ret ([], t)
  | c :: cs => (bitsCall t c).bind fun r => (runBitsCalls r.2 cs).bind fun q => .ret (r.1 :: q.1, q.2)

/-- The bitset in a world where the allocator gives the answers `o` from now on. -/
def answeringBits (o : Nat → Status) (t : Bits) : Bits := { t with s := answering o t.s }

end Zy
