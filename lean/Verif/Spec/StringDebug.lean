import Verif.Model.StringDebug
import Verif.Spec.StringRun

/-!
# String calls in a build with assertions, and strings under any allocator
-/

namespace Zy

open Spec

/-- Reading of an API operation as a call of the function with its assertions. The case functions have no
assertions. -/
def strOpD (t : Str) : SOp → Out (Status × Str)
  | .append x => strAppendSrcD t (.ext (textView x).mem) (textView x).size
  | .appendEx x j n => strAppendExSrcD t (.ext (textView x).mem) (textView x).size j n
  | .insert i x => strInsertD t i (textView x)
  | .insertEx i x j n => strInsertExD t i (textView x) j n
  | .delete i n => strDeleteD t i n
  | .truncate i => strTruncateD t i
  | .clear => strClearD t
  | .setChar i c => strSetCharD t i c
  | .lower i n => strToLowerEx t i n
  | .upper i n => strToUpperEx t i n
  | .resize n => strResizeD t n
  | .reserve c => strReserveD t c
  | .shrinkToFit => strShrinkToFitD t

/-- The call is one of the two insertion functions. -/
def isInsertion : SOp → Bool
  | .insert _ _ => true
  | .insertEx _ _ _ _ => true
  | _ => false

/-- Strings that a program can obtain with an allocator that grants or refuses whatever it likes: by any of
the constructors, followed by any calls that are not insertions. -/
inductive SUsed : Str → Prop where
  | init {w w' : World Byte} {cap a g th : Nat} {st : Status} {t : Str} (hg : g ≤ 255)
      (h : strInitEx w cap (some a) g th = .ret (st, some t, w')) : SUsed t
  | initBuffer {w : World Byte} {b : Option (Block Byte)} {cap : Nat} {st : Status} {t : Str}
      (h : strInitBuffer w b cap = .ret (st, some t)) : SUsed t
  | dup {w w' : World Byte} {v : View} {cap a g th : Nat} {st : Status} {t : Str} (hg : g ≤ 255)
      (h : strDuplicateEx w v cap (some a) g th = .ret (st, some t, w')) : SUsed t
  | dupBuffer {w : World Byte} {v : View} {b : Option (Block Byte)} {cap : Nat} {st : Status} {t : Str}
      (h : strDuplicateBuffer w v b cap = .ret (st, some t)) : SUsed t
  | concat {w w' : World Byte} {v1 v2 : View} {cap a g th : Nat} {st : Status} {t : Str} (hg : g ≤ 255)
      (h : strConcatEx w v1 v2 cap (some a) g th = .ret (st, some t, w')) : SUsed t
  | concatBuffer {w : World Byte} {v1 v2 : View} {b : Option (Block Byte)} {cap : Nat} {st : Status}
      {t : Str} (h : strConcatBuffer w v1 v2 b cap = .ret (st, some t)) : SUsed t
  | step {t t' : Str} {op : SOp} {st : Status} (h : SUsed t) (hop : isInsertion op = false)
      (hs : strOp t op = .ret (st, t')) : SUsed t'
  | decU {t t' : Str} {st : Status} {value padding : Nat} (h : SUsed t)
      (hs : strAppendDecU t value padding = .ret (st, t')) : SUsed t'
  | hexU {t t' : Str} {st : Status} {value padding : Nat} {upper : Bool} (h : SUsed t)
      (hs : strAppendHexU t value padding upper = .ret (st, t')) : SUsed t'
  | decS {t t' : Str} {st : Status} {value : BitVec 64} {padding : Nat} {sign : Bool} {pre : Option View}
      (h : SUsed t) (hs : strAppendDecS t value padding sign pre = .ret (st, t')) : SUsed t'
  | hexS {t t' : Str} {st : Status} {value : BitVec 64} {padding : Nat} {upper sign : Bool}
      {pre : Option View} (h : SUsed t)
      (hs : strAppendHexS t value padding upper sign pre = .ret (st, t')) : SUsed t'
  | format {t t' : Str} {st : Status} {fmt : Fmt} (h : SUsed t)
      (hs : strAppendFormat t fmt = .ret (st, t')) : SUsed t'

end Zy
