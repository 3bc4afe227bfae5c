import Verif.Model.VectorWord
import Verif.Model.String
import Verif.Spec.StringRun

/-!
# Strings on targets with another width of `size_t`

The functions of src/String.c that compute with sizes once more, with the number `m` of values of `size_t`
as a parameter, on top of `Model/VectorWord.lean`. The other functions are those of `Model/String.lean`.
-/

namespace Zy

open Spec

/-- `ZyanVectorResize`: src/Vector.c lines 747-750. -/
def vecResizeW (m : Nat) (s : VS Byte) (size : Nat) : Out (Status × VS Byte) := vecResizeExW m s size .null

/-- `ZYCORE_STRING_NULLTERMINATE`: src/String.c lines 37-38. -/
def nullTerminateW (m : Nat) (t : Str) : Out Str :=
  (strPoke t.s.v (subW m t.s.v.size 1) (some 0#8)).bind fun v => .ret { t with s := { t.s with v := v } }

/-- The common end of both constructors: src/String.c lines 80-83 and 100-103. -/
def strStartW (m : Nat) (v : Vec Byte) : Out (Vec Byte) :=
  (strPoke v 0 (some 0#8)).bind fun v => .ret { v with size := addW m v.size 1 }

/-- `ZyanStringInitEx`: src/String.c lines 64-84 (`ZYAN_STRING_MIN_CAPACITY` is 32, String.h line 52).
On failure no usable string results (`none`). -/
def strInitExW (m : Nat) (w : World Byte) (capacity : Nat) (allocator : Option Nat) (growth shrink : Nat) :
    Out (Status × Option Str × World Byte) :=
  let r := vecInitExW m w 1 (addW m (max 32 capacity) 1) false allocator growth shrink
  if failed r.1 then .ret (r.1, none, r.2.2)
  else match r.2.1 with
    | none => .ret (r.1, none, r.2.2)
    | some v => (strStartW m v).bind fun v => .ret (stSuccess, some ⟨⟨v, r.2.2⟩, false⟩, r.2.2)

/-- `ZyanStringInitCustomBuffer`: src/String.c lines 86-104. -/
def strInitBufferW (m : Nat) (w : World Byte) (buffer : Option (Block Byte)) (capacity : Nat) :
    Out (Status × Option Str) :=
  if capacity = 0 then .ret (stInvalidArgument, none)
  else
    let r := vecInitBuffer 1 buffer capacity false
    if failed r.1 then .ret (r.1, none)
    else match r.2 with
      | none => .ret (r.1, none)
      | some v => (strStartW m v).bind fun v => .ret (stSuccess, some ⟨⟨v, w⟩, true⟩)

/-- The copy of one view at the end of the duplicate functions: src/String.c lines 148-153 and
173-178. -/
def dupIntoW (m : Nat) (t : Str) (src : View) : Out Str :=
  (vecMemcpy t.s.v 0 (.ext src.mem) (subW m src.size 1)).bind fun v =>
  nullTerminateW m { t with s := { t.s with v := { v with size := src.size } } }

/-- `ZyanStringDuplicateEx`: src/String.c lines 135-154. -/
def strDuplicateExW (m : Nat) (w : World Byte) (src : View) (capacity : Nat) (allocator : Option Nat)
    (growth shrink : Nat) : Out (Status × Option Str × World Byte) :=
  if src.size = 0 then .ret (stInvalidArgument, none, w)
  else
    (strInitExW m w (max capacity (subW m src.size 1)) allocator growth shrink).bind fun r =>
    if failed r.1 then .ret r
    else match r.2.1 with
      | none => .ret r
      | some t => (dupIntoW m t src).bind fun t => .ret (stSuccess, some t, r.2.2)

/-- `ZyanStringDuplicateCustomBuffer`: src/String.c lines 156-179. -/
def strDuplicateBufferW (m : Nat) (w : World Byte) (src : View) (buffer : Option (Block Byte)) (capacity : Nat) :
    Out (Status × Option Str) :=
  if src.size = 0 then .ret (stInvalidArgument, none)
  else if capacity < src.size then .ret (stInsufficient, none)
  else
    (strInitBufferW m w buffer capacity).bind fun r =>
    if failed r.1 then .ret r
    else match r.2 with
      | none => .ret r
      | some t => (dupIntoW m t src).bind fun t => .ret (stSuccess, some t)

/-- The two copies at the end of the concatenation functions: src/String.c lines 210-216 and
236-242. -/
def concatIntoW (m : Nat) (t : Str) (s1 s2 : View) : Out Str :=
  (vecMemcpy t.s.v 0 (.ext s1.mem) (subW m s1.size 1)).bind fun v =>
  (vecMemcpy v (subW m s1.size 1) (.ext s2.mem) (subW m s2.size 1)).bind fun v =>
  nullTerminateW m { t with s := { t.s with v := { v with size := subW m (addW m s1.size s2.size) 1 } } }

/-- `ZyanStringConcatEx`: src/String.c lines 196-217. -/
def strConcatExW (m : Nat) (w : World Byte) (s1 s2 : View) (capacity : Nat) (allocator : Option Nat)
    (growth shrink : Nat) : Out (Status × Option Str × World Byte) :=
  if s1.size = 0 ∨ s2.size = 0 then .ret (stInvalidArgument, none, w)
  else
    (strInitExW m w (max capacity (subW m (subW m (addW m s1.size s2.size) 1) 1)) allocator growth
      shrink).bind fun r =>
    if failed r.1 then .ret r
    else match r.2.1 with
      | none => .ret r
      | some t => (concatIntoW m t s1 s2).bind fun t => .ret (stSuccess, some t, r.2.2)

/-- `ZyanStringConcatCustomBuffer`: src/String.c lines 219-243. -/
def strConcatBufferW (m : Nat) (w : World Byte) (s1 s2 : View) (buffer : Option (Block Byte)) (capacity : Nat) :
    Out (Status × Option Str) :=
  if s1.size = 0 ∨ s2.size = 0 then .ret (stInvalidArgument, none)
  else if capacity < subW m (addW m s1.size s2.size) 1 then .ret (stInsufficient, none)
  else
    (strInitBufferW m w buffer capacity).bind fun r =>
    if failed r.1 then .ret r
    else match r.2 with
      | none => .ret r
      | some t => (concatIntoW m t s1 s2).bind fun t => .ret (stSuccess, some t)

/-- `ZyanStringSetChar`: src/String.c lines 372-386. -/
def strSetCharW (m : Nat) (t : Str) (index : Nat) (value : Byte) : Out (Status × Str) :=
  if addW m index 1 ≥ t.s.v.size then .ret (stOutOfRange, t)
  else (vecSet t.s index (.ext [some value])).bind fun r => .ret (r.1, { t with s := r.2 })

/-- `ZyanStringAppend`: src/String.c lines 453-467, for a view given by its data pointer and size. -/
def strAppendSrcW (m : Nat) (t : Str) (src : Src Byte) (size : Nat) : Out (Status × Str) :=
  if size = 0 then .ret (stInvalidArgument, t)
  else
    let len := t.s.v.size
    (vecResizeW m t.s (subW m (addW m len size) 1)).bind fun r =>
    if failed r.1 then .ret (r.1, { t with s := r.2 })
    else
      (vecMemcpy r.2.v (subW m len 1) src (subW m size 1)).bind fun v =>
      (nullTerminateW m { t with s := { r.2 with v := v } }).bind fun t => .ret (stSuccess, t)

/-- `ZyanStringAppend` on a view unrelated to the destination. -/
def strAppendW (m : Nat) (t : Str) (src : View) : Out (Status × Str) := strAppendSrcW m t (.ext src.mem) src.size

/-- `ZyanStringAppendEx`: src/String.c lines 469-490. -/
def strAppendExSrcW (m : Nat) (t : Str) (src : Src Byte) (size srcIndex count : Nat) : Out (Status × Str) :=
  if size = 0 then .ret (stInvalidArgument, t)
  else if addW m srcIndex count ≥ size then .ret (stOutOfRange, t)
  else
    let len := t.s.v.size
    (vecResizeW m t.s (addW m len count)).bind fun r =>
    if failed r.1 then .ret (r.1, { t with s := r.2 })
    else
      (vecMemcpy r.2.v (subW m len 1) (src.offset srcIndex) count).bind fun v =>
      (nullTerminateW m { t with s := { r.2 with v := v } }).bind fun t => .ret (stSuccess, t)

/-- `ZyanStringAppendEx` on a view unrelated to the destination. -/
def strAppendExW (m : Nat) (t : Str) (src : View) (srcIndex count : Nat) : Out (Status × Str) :=
  strAppendExSrcW m t (.ext src.mem) src.size srcIndex count

/-- `ZyanStringInsert`: src/String.c lines 392-415. -/
def strInsertW (m : Nat) (t : Str) (index : Nat) (src : View) : Out (Status × Str) :=
  if src.size = 0 then .ret (stInvalidArgument, t)
  else if index = t.s.v.size then strAppendW m t src
  else if index ≥ t.s.v.size then .ret (stOutOfRange, t)
  else
    (vecInsertRangeW m t.s index (.ext src.mem) (subW m src.size 1)).bind fun r =>
    if failed r.1 then .ret (r.1, { t with s := r.2 }) else .ret (stSuccess, { t with s := r.2 })

/-- `ZyanStringInsertEx`: src/String.c lines 417-447. -/
def strInsertExW (m : Nat) (t : Str) (index : Nat) (src : View) (srcIndex count : Nat) : Out (Status × Str) :=
  if src.size = 0 then .ret (stInvalidArgument, t)
  else if index = t.s.v.size then strAppendExW m t src srcIndex count
  else if index ≥ t.s.v.size then .ret (stOutOfRange, t)
  else if addW m srcIndex count ≥ src.size then .ret (stOutOfRange, t)
  else
    (vecInsertRangeW m t.s index ((Src.ext src.mem).offset srcIndex) count).bind fun r =>
    if failed r.1 then .ret (r.1, { t with s := r.2 }) else .ret (stSuccess, { t with s := r.2 })

/-- `ZYAN_CHECK(r); ZYCORE_STRING_NULLTERMINATE(string); return SUCCESS` after a vector call. -/
def checkTerminateW (m : Nat) (t : Str) (r : Status × VS Byte) : Out (Status × Str) :=
  if failed r.1 then .ret (r.1, { t with s := r.2 })
  else (nullTerminateW m { t with s := r.2 }).bind fun t => .ret (stSuccess, t)

/-- `ZyanStringDelete`: src/String.c lines 496-513. -/
def strDeleteW (m : Nat) (t : Str) (index count : Nat) : Out (Status × Str) :=
  if addW m index count ≥ t.s.v.size then .ret (stOutOfRange, t)
  else (vecDeleteRangeW m t.s index count).bind fun r => checkTerminateW m t r

/-- `ZyanStringTruncate`: src/String.c lines 515-532. -/
def strTruncateW (m : Nat) (t : Str) (index : Nat) : Out (Status × Str) :=
  if index ≥ t.s.v.size then .ret (stOutOfRange, t)
  else
    (vecDeleteRangeW m t.s index (subW m (subW m t.s.v.size index) 1)).bind fun r => checkTerminateW m t r

/-- `ZyanStringClear`: src/String.c lines 534-549. -/
def strClearW (m : Nat) (t : Str) : Out (Status × Str) :=
  (vecClearW m t.s).bind fun r =>
  if failed r.1 then .ret (r.1, { t with s := r.2 })
  else (strStartW m r.2.v).bind fun v => .ret (stSuccess, { t with s := { r.2 with v := v } })

/-- The inner loop of the left searches: src/String.c lines 596-612 and 665-683. `some r` is a `return`,
`none` the `break`. The needle position `b` grows with every iteration; `fuel` bounds their number. -/
def lposInnerW (m : Nat) (eq : Byte → Byte → Bool) (hay needle : View) (last : Nat) (s : Int) :
    Nat → Int → Int → Out (Option (Status × Int))
  | 0, _, _ => .ub .diverge
  | fuel + 1, a, b =>
    if toUW m a > last then .ret (some (stFalse, -1))
    else
      (rdChar needle.mem b).bind fun cb =>
      if cb = 0#8 then .ret (some (stTrue, s))
      else
        (rdChar hay.mem a).bind fun ca =>
        if eq ca cb then lposInnerW m eq hay needle last s fuel (a + 1) (b + 1) else .ret none

/-- The outer loop of the left searches: src/String.c lines 587-617 and 656-688. -/
def lposOuterW (m : Nat) (eq : Byte → Byte → Bool) (hay needle : View) (last : Nat) :
    Nat → Int → Out (Status × Int)
  | 0, _ => .ub .diverge
  | fuel + 1, s =>
    if s + 1 < hay.size then
      (rdChar hay.mem s).bind fun cs =>
      (rdChar needle.mem 0).bind fun cb =>
      if eq cs cb then
        (lposInnerW m eq hay needle last s (hay.size + needle.mem.length + 2) s 0).bind fun r =>
        match r with
        | some res => .ret res
        | none => lposOuterW m eq hay needle last fuel (s + 1)
      else lposOuterW m eq hay needle last fuel (s + 1)
    else .ret (stFalse, -1)

/-- `ZyanStringLPosEx` (src/String.c lines 566-618, `eq = eqExact`) and `ZyanStringLPosIEx` (lines 631-689,
`eq = eqFold`). The second component is `*found_index` (`none` when it is not written). -/
def strLPosExWithW (m : Nat) (eq : Byte → Byte → Bool) (hay needle : View) (index count : Nat) :
    Out (Status × Option Int) :=
  if addW m index count ≥ hay.size then .ret (stOutOfRange, none)
  else if hay.size = 1 ∨ needle.size = 1 ∨ hay.size < needle.size then .ret (stFalse, some (-1))
  else
    (lposOuterW m eq hay needle (addW m index count) (hay.size + 2) (toIW m index)).bind fun r =>
    .ret (r.1, some r.2)

/-- The loop of the comparison functions: src/String.c lines 855-863 and 905-913; the result is the index
at which it stops. -/
def cmpLoopW (m : Nat) (eq : Byte → Byte → Bool) (s1 s2 : View) : Nat → Nat → Out Nat
  | 0, _ => .ub .diverge
  | fuel + 1, i =>
    if addW m i 1 < s1.size ∧ addW m i 1 < s2.size then
      (rdChar s1.mem i).bind fun a =>
      (rdChar s2.mem i).bind fun b =>
      if eq a b then cmpLoopW m eq s1 s2 fuel (i + 1) else .ret i
    else .ret i

/-- `ZyanStringCompare` (src/String.c lines 835-879, `eq = eqExact`) and `ZyanStringCompareI` (lines
881-929, `eq = eqFold`). -/
def strCompareWithW (m : Nat) (eq : Byte → Byte → Bool) (s1 s2 : View) : Out (Status × Int) :=
  if s1.size < s2.size then .ret (stFalse, -1)
  else if s1.size > s2.size then .ret (stFalse, 1)
  else
    (cmpLoopW m eq s1 s2 (s1.size + 1) 0).bind fun i =>
    (rdChar s1.mem i).bind fun a =>
    (rdChar s2.mem i).bind fun b =>
    if a = b then .ret (stTrue, 0)
    else if (a ||| 32#8).toInt < (b ||| 32#8).toInt then .ret (stFalse, -1)
    else .ret (stFalse, 1)

/-- `ZyanStringToLowerCaseEx` (src/String.c lines 945-974) and `ZyanStringToUpperCaseEx` (lines 986-1015). -/
def strCaseExW (m : Nat) (f : Byte → Byte) (t : Str) (index count : Nat) : Out (Status × Str) :=
  if addW m index count ≥ t.s.v.size then .ret (stOutOfRange, t)
  else
    (caseLoop f t.s.v index (addW m index count - index)).bind fun v =>
    .ret (stSuccess, { t with s := { t.s with v := v } })

/-- `ZyanStringResize`: src/String.c lines 1021-1032. -/
def strResizeW (m : Nat) (t : Str) (size : Nat) : Out (Status × Str) :=
  (vecResizeW m t.s (addW m size 1)).bind fun r => checkTerminateW m t r

/-- `ZyanStringReserve`: src/String.c lines 1034-1042. -/
def strReserveW (m : Nat) (t : Str) (capacity : Nat) : Out (Status × Str) :=
  (vecReserveW m t.s capacity).bind fun r => .ret (r.1, { t with s := r.2 })

/-- `ZyanStringShrinkToFit`: src/String.c lines 1044-1052. -/
def strShrinkToFitW (m : Nat) (t : Str) : Out (Status × Str) :=
  (vecShrinkToFitW m t.s).bind fun r => .ret (r.1, { t with s := r.2 })

/-- `ZyanStringGetSize`: src/String.c lines 1071-1082. -/
def strGetSizeW (m : Nat) (t : Str) : Nat := subW m t.s.v.size 1

/-- Reading of an API operation as a call of the modelled function (compare `strOp`). -/
def strOpW (m : Nat) (t : Str) : SOp → Out (Status × Str)
  | .append x => strAppendW m t (textView x)
  | .appendEx x j n => strAppendExW m t (textView x) j n
  | .insert i x => strInsertW m t i (textView x)
  | .insertEx i x j n => strInsertExW m t i (textView x) j n
  | .delete i n => strDeleteW m t i n
  | .truncate i => strTruncateW m t i
  | .clear => strClearW m t
  | .setChar i c => strSetCharW m t i c
  | .lower i n => strCaseExW m lowerByte t i n
  | .upper i n => strCaseExW m upperByte t i n
  | .resize n => strResizeW m t n
  | .reserve c => strReserveW m t c
  | .shrinkToFit => strShrinkToFitW m t

/-- A history of API calls: the statuses returned and the final state. -/
def runStrW (m : Nat) (t : Str) : List SOp → Out (List Status × Str)
  | [] => .ret ([], t)
  | op :: ops =>
    (strOpW m t op).bind fun r => (runStrW m r.2 ops).bind fun q => .ret (r.1 :: q.1, q.2)

end Zy
