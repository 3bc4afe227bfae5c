import Verif.Model.VectorDebug
import Verif.Model.Format

/-!
# Model of src/String.c and src/Format.c in a build with assertions

The functions that contain a `ZYAN_ASSERT` or reach one, with the assertions. A failed assertion is the
outcome `.ub .assertion`. The searching, comparing and case functions of src/String.c neither contain nor
reach an assertion.

Simplifications: as in `Model/String`, `Model/Format` and `Model/VectorDebug`.
-/

namespace Zy

variable {β : Type}

/-- `ZYCORE_STRING_ASSERT_NULLTERMINATION`: src/String.c lines 43-44. -/
def assertTerminated (v : Vec Byte) (k : Out β) : Out β :=
  withData v.data fun b =>
    (rdChar b.cells ((v.size : Int) - 1)).bind fun c => assertThat (c == 0#8) k

/-- `ZyanStringInitEx`: src/String.c lines 64-84. -/
def strInitExD (w : World Byte) (capacity : Nat) (allocator : Option Nat) (growth shrink : Nat) :
    Out (Status × Option Str × World Byte) :=
  let capacity := add64 (max 32 capacity) 1
  let r := vecInitEx w 1 capacity false allocator growth shrink
  if failed r.1 then .ret (r.1, none, r.2.2)
  else match r.2.1 with
    | none => .ret (r.1, none, r.2.2)
    | some v =>
      assertThat (v.cap ≥ capacity) <| assertThat (v.esz == 1) <|
      (strStart v).bind fun v => .ret (stSuccess, some ⟨⟨v, r.2.2⟩, false⟩, r.2.2)

/-- `ZyanStringInitCustomBuffer`: src/String.c lines 86-104. -/
def strInitBufferD (w : World Byte) (buffer : Option (Block Byte)) (capacity : Nat) :
    Out (Status × Option Str) :=
  if capacity = 0 then .ret (stInvalidArgument, none)
  else
    let r := vecInitBuffer 1 buffer capacity false
    if failed r.1 then .ret (r.1, none)
    else match r.2 with
      | none => .ret (r.1, none)
      | some v =>
        assertThat (v.cap == capacity) <| assertThat (v.esz == 1) <|
        (strStart v).bind fun v => .ret (stSuccess, some ⟨⟨v, w⟩, true⟩)

/-- `ZyanStringDestroy`: src/String.c lines 106-118. -/
def strDestroyD (t : Str) : Out (Status × Str) :=
  if t.fixed then .ret (stSuccess, t)
  else (vecDestroyD t.s).bind fun r => .ret (r.1, { t with s := r.2 })

/-- `ZyanStringDuplicateEx`: src/String.c lines 135-154. -/
def strDuplicateExD (w : World Byte) (src : View) (capacity : Nat) (allocator : Option Nat)
    (growth shrink : Nat) : Out (Status × Option Str × World Byte) :=
  if src.size = 0 then .ret (stInvalidArgument, none, w)
  else
    (strInitExD w (max capacity (sub64 src.size 1)) allocator growth shrink).bind fun r =>
    if failed r.1 then .ret r
    else match r.2.1 with
      | none => .ret r
      | some t =>
        assertThat (t.s.v.cap ≥ src.size) <|
        (dupInto t src).bind fun t => .ret (stSuccess, some t, r.2.2)

/-- `ZyanStringDuplicateCustomBuffer`: src/String.c lines 156-179. -/
def strDuplicateBufferD (w : World Byte) (src : View) (buffer : Option (Block Byte)) (capacity : Nat) :
    Out (Status × Option Str) :=
  if src.size = 0 then .ret (stInvalidArgument, none)
  else if capacity < src.size then .ret (stInsufficient, none)
  else
    (strInitBufferD w buffer capacity).bind fun r =>
    if failed r.1 then .ret r
    else match r.2 with
      | none => .ret r
      | some t =>
        assertThat (t.s.v.cap ≥ src.size) <|
        (dupInto t src).bind fun t => .ret (stSuccess, some t)

/-- `ZyanStringConcatEx`: src/String.c lines 196-217. -/
def strConcatExD (w : World Byte) (s1 s2 : View) (capacity : Nat) (allocator : Option Nat)
    (growth shrink : Nat) : Out (Status × Option Str × World Byte) :=
  if s1.size = 0 ∨ s2.size = 0 then .ret (stInvalidArgument, none, w)
  else
    let len := sub64 (add64 s1.size s2.size) 1
    (strInitExD w (max capacity (sub64 len 1)) allocator growth shrink).bind fun r =>
    if failed r.1 then .ret r
    else match r.2.1 with
      | none => .ret r
      | some t =>
        assertThat (t.s.v.cap ≥ len) <|
        (concatInto t s1 s2).bind fun t => .ret (stSuccess, some t, r.2.2)

/-- `ZyanStringConcatCustomBuffer`: src/String.c lines 219-243. -/
def strConcatBufferD (w : World Byte) (s1 s2 : View) (buffer : Option (Block Byte)) (capacity : Nat) :
    Out (Status × Option Str) :=
  if s1.size = 0 ∨ s2.size = 0 then .ret (stInvalidArgument, none)
  else
    let len := sub64 (add64 s1.size s2.size) 1
    if capacity < len then .ret (stInsufficient, none)
    else
      (strInitBufferD w buffer capacity).bind fun r =>
      if failed r.1 then .ret r
      else match r.2 with
        | none => .ret r
        | some t =>
          assertThat (t.s.v.cap ≥ len) <|
          (concatInto t s1 s2).bind fun t => .ret (stSuccess, some t)

/-- `ZyanStringViewGetSize`: src/String.c lines 307-318. -/
def viewGetSizeD (v : View) : Out Nat := assertThat (v.size ≥ 1) (.ret (sub64 v.size 1))

/-- `ZyanStringGetChar`: src/String.c lines 336-354, with `ZyanVectorGetPointer` (src/Vector.c lines
356-373). Testing an element size that was never written is undefined. The data pointer of the view is not
null. -/
def strGetCharD (v : View) (esz : Cell Nat) (index : Nat) : Out (Status × Option (Cell Byte)) :=
  if add64 index 1 ≥ v.size then .ret (stOutOfRange, none)
  else if index ≥ v.size then .ret (stOutOfRange, none)
  else
    match esz with
    | none => .ub .indet
    | some e => assertThat (e ≠ 0) (strGetChar v esz index)

/-- `ZyanStringGetCharMutable`: src/String.c lines 356-370. -/
def strGetCharMutableD (t : Str) (index : Nat) : Out (Status × Option Nat) :=
  if add64 index 1 ≥ t.s.v.size then .ret (stOutOfRange, none) else vecGetPointerD t.s index

/-- `ZyanStringSetChar`: src/String.c lines 372-386. -/
def strSetCharD (t : Str) (index : Nat) (value : Byte) : Out (Status × Str) :=
  if add64 index 1 ≥ t.s.v.size then .ret (stOutOfRange, t)
  else (vecSetD t.s index (.ext [some value])).bind fun r => .ret (r.1, { t with s := r.2 })

/-- `ZyanStringAppend`: src/String.c lines 453-467. -/
def strAppendSrcD (t : Str) (src : Src Byte) (size : Nat) : Out (Status × Str) :=
  if size = 0 then .ret (stInvalidArgument, t)
  else
    let len := t.s.v.size
    (vecResizeExD t.s (sub64 (add64 len size) 1) .null).bind fun r =>
    if failed r.1 then .ret (r.1, { t with s := r.2 })
    else
      (vecMemcpy r.2.v (sub64 len 1) src (sub64 size 1)).bind fun v =>
      (nullTerminate { t with s := { r.2 with v := v } }).bind fun t => .ret (stSuccess, t)

/-- `ZyanStringAppendEx`: src/String.c lines 469-490. -/
def strAppendExSrcD (t : Str) (src : Src Byte) (size srcIndex count : Nat) : Out (Status × Str) :=
  if size = 0 then .ret (stInvalidArgument, t)
  else if add64 srcIndex count ≥ size then .ret (stOutOfRange, t)
  else
    let len := t.s.v.size
    (vecResizeExD t.s (add64 len count) .null).bind fun r =>
    if failed r.1 then .ret (r.1, { t with s := r.2 })
    else
      (vecMemcpy r.2.v (sub64 len 1) (src.offset srcIndex) count).bind fun v =>
      (nullTerminate { t with s := { r.2 with v := v } }).bind fun t => .ret (stSuccess, t)

/-- `ZyanStringInsert`: src/String.c lines 392-415. -/
def strInsertD (t : Str) (index : Nat) (src : View) : Out (Status × Str) :=
  if src.size = 0 then .ret (stInvalidArgument, t)
  else if index = t.s.v.size then strAppendSrcD t (.ext src.mem) src.size
  else if index ≥ t.s.v.size then .ret (stOutOfRange, t)
  else
    (vecInsertRangeD t.s index (.ext src.mem) (sub64 src.size 1)).bind fun r =>
    if failed r.1 then .ret (r.1, { t with s := r.2 })
    else assertTerminated r.2.v (.ret (stSuccess, { t with s := r.2 }))

/-- `ZyanStringInsertEx`: src/String.c lines 417-447. -/
def strInsertExD (t : Str) (index : Nat) (src : View) (srcIndex count : Nat) : Out (Status × Str) :=
  if src.size = 0 then .ret (stInvalidArgument, t)
  else if index = t.s.v.size then strAppendExSrcD t (.ext src.mem) src.size srcIndex count
  else if index ≥ t.s.v.size then .ret (stOutOfRange, t)
  else if add64 srcIndex count ≥ src.size then .ret (stOutOfRange, t)
  else
    (vecInsertRangeD t.s index ((Src.ext src.mem).offset srcIndex) count).bind fun r =>
    if failed r.1 then .ret (r.1, { t with s := r.2 })
    else assertTerminated r.2.v (.ret (stSuccess, { t with s := r.2 }))

/-- `ZyanStringDelete`: src/String.c lines 496-513. -/
def strDeleteD (t : Str) (index count : Nat) : Out (Status × Str) :=
  if add64 index count ≥ t.s.v.size then .ret (stOutOfRange, t)
  else (vecDeleteRangeD t.s index count).bind fun r => checkTerminate t r

/-- `ZyanStringTruncate`: src/String.c lines 515-532. -/
def strTruncateD (t : Str) (index : Nat) : Out (Status × Str) :=
  if index ≥ t.s.v.size then .ret (stOutOfRange, t)
  else
    (vecDeleteRangeD t.s index (sub64 (sub64 t.s.v.size index) 1)).bind fun r => checkTerminate t r

/-- `ZyanStringClear`: src/String.c lines 534-549. -/
def strClearD (t : Str) : Out (Status × Str) :=
  (vecResizeExD t.s 0 .null).bind fun r =>
  if failed r.1 then .ret (r.1, { t with s := r.2 })
  else
    assertThat (r.2.v.cap ≥ 1) <|
    (strStart r.2.v).bind fun v => .ret (stSuccess, { t with s := { r.2 with v := v } })

/-- `ZyanStringResize`: src/String.c lines 1021-1032. -/
def strResizeD (t : Str) (size : Nat) : Out (Status × Str) :=
  (vecResizeExD t.s (add64 size 1) .null).bind fun r => checkTerminate t r

/-- `ZyanStringReserve`: src/String.c lines 1034-1042. -/
def strReserveD (t : Str) (capacity : Nat) : Out (Status × Str) :=
  (vecReserveD t.s capacity).bind fun r => .ret (r.1, { t with s := r.2 })

/-- `ZyanStringShrinkToFit`: src/String.c lines 1044-1052. -/
def strShrinkToFitD (t : Str) : Out (Status × Str) :=
  (vecShrinkToFitD t.s).bind fun r => .ret (r.1, { t with s := r.2 })

/-- `ZyanStringGetCapacity`: src/String.c lines 1058-1069. -/
def strGetCapacityD (t : Str) : Out Nat := assertThat (t.s.v.cap ≥ 1) (.ret (sub64 t.s.v.cap 1))

/-- `ZyanStringGetSize`: src/String.c lines 1071-1082. -/
def strGetSizeD (t : Str) : Out Nat := assertThat (t.s.v.size ≥ 1) (.ret (sub64 t.s.v.size 1))

/-! ## src/Format.c -/

/-- `ZyanStringAppendDecU32` (src/Format.c lines 87-130) and `ZyanStringAppendDecU64` (lines 133-176). -/
def strAppendDecWithD (maxchars : Nat) (t : Str) (value padding : Nat) : Out (Status × Str) :=
  (decLoop (maxchars + 1) (List.replicate maxchars none) maxchars value).bind fun r =>
  let value := r.2.2
  (putPair r.1 r.2.1 (mul64 value 2)).bind fun q =>
  let buf := q.1
  let p := q.2
  let offsetOdd := if value < 10 then 1 else 0
  let lengthNumber := maxchars - p - offsetOdd
  let lengthTotal := max lengthNumber padding
  let lengthTarget := t.s.v.size
  (if add64 t.s.v.size lengthTotal > t.s.v.cap then
     strResizeD t (sub64 (add64 t.s.v.size lengthTotal) 1)
   else .ret (stSuccess, t)).bind fun r =>
  if failed r.1 then .ret r
  else
    let t := r.2
    let offsetWrite := if padding > lengthNumber then padding - lengthNumber else 0
    (if padding > lengthNumber then vecMemset t.s.v (sub64 lengthTarget 1) 48#8 offsetWrite
     else .ret t.s.v).bind fun v =>
    (vecMemcpy v (sub64 (add64 lengthTarget offsetWrite) 1) (.ext (buf.drop (p + offsetOdd)))
      lengthNumber).bind fun v =>
    (nullTerminate { t with s := { t.s with v :=
      { v with size := add64 lengthTarget lengthTotal } } }).bind fun t => .ret (stSuccess, t)

/-- The loop over the nibbles: src/Format.c lines 218-246 and 289-318, with the assertions of lines 238
and 310 that `buffer` is not null. -/
def hexLoopD (upper : Bool) (value len padding remaining : Nat) :
    Nat → Str → Nat → Option Nat → Out (Status × Str × Nat)
  | 0, t, n, _ => .ret (stSuccess, t, n)
  | i + 1, t, n, buffer =>
    let v := (value >>> (i * 4)) &&& 0x0F
    if n = 0 then
      if v = 0 then hexLoopD upper value len padding remaining i t n buffer
      else
        (if remaining ≤ i then strResizeD t (add64 t.s.v.size i) else .ret (stSuccess, t)).bind fun r =>
        if failed r.1 then .ret (r.1, r.2, n)
        else
          let t := r.2
          let b := sub64 len 1
          let n := if padding > i then padding - i - 1 else n
          (if padding > i then vecMemset t.s.v b 48#8 n else .ret t.s.v).bind fun vec =>
          (putHex upper { t with s := { t.s with v := vec } } (some b) n v).bind fun q =>
          hexLoopD upper value len padding remaining i q.1 q.2 (some b)
    else
      assertThat buffer.isSome <|
      (putHex upper t buffer n v).bind fun q =>
      hexLoopD upper value len padding remaining i q.1 q.2 buffer

/-- `ZyanStringAppendHexU32` (src/Format.c lines 183-251) and `ZyanStringAppendHexU64` (lines 254-323). -/
def strAppendHexWithD (nibbles : Nat) (t : Str) (value padding : Nat) (upper : Bool) :
    Out (Status × Str) :=
  let len := t.s.v.size
  let remaining := sub64 t.s.v.cap t.s.v.size
  (if remaining < padding then strResizeD t (sub64 (add64 len padding) 1)
   else .ret (stSuccess, t)).bind fun r =>
  if failed r.1 then .ret r
  else
    let t := r.2
    let remaining := if remaining < padding then padding else remaining
    if value = 0 then
      let n := if padding ≠ 0 then padding else 1
      (if remaining < n then strResizeD t (sub64 (add64 t.s.v.size n) 1)
       else .ret (stSuccess, t)).bind fun r =>
      if failed r.1 then .ret r
      else
        let t := r.2
        (vecMemset t.s.v (sub64 len 1) 48#8 n).bind fun v =>
        hexFinish { t with s := { t.s with v := v } } len n
    else
      (hexLoopD upper value len padding remaining nibbles t 0 none).bind fun r =>
      if failed r.1 then .ret (r.1, r.2.1) else hexFinish r.2.1 len r.2.2

/-- `ZyanStringAppendDecU`: src/Format.c lines 424-436 on a 64-bit target. -/
def strAppendDecUD (t : Str) (value padding : Nat) : Out (Status × Str) :=
  strAppendDecWithD 20 t value padding

/-- `ZyanStringAppendHexU`: src/Format.c lines 464-477 on a 64-bit target, with lines 289-290. -/
def strAppendHexUD (t : Str) (value padding : Nat) (upper : Bool) : Out (Status × Str) :=
  strAppendHexWithD (if value &&& 0xFFFFFFFF00000000 ≠ 0 then 16 else 8) t value padding upper

/-- `ZYAN_CHECK(ZyanStringAppend(string, view))` followed by `k`. -/
def checkAppendD (t : Str) (v : View) (k : Str → Out (Status × Str)) : Out (Status × Str) :=
  (strAppendSrcD t (.ext v.mem) v.size).bind fun r => if failed r.1 then .ret r else k r.2

/-- `if (prefix) ZYAN_CHECK(ZyanStringAppend(string, prefix))` followed by `k`. -/
def checkPrefixD (t : Str) (pre : Option View) (k : Str → Out (Status × Str)) : Out (Status × Str) :=
  match pre with
  | none => k t
  | some v => checkAppendD t v k

/-- `ZyanStringAppendDecS` (src/Format.c lines 438-462) and `ZyanStringAppendHexS` (lines 479-503), with the
assertions of lines 453 and 494. -/
def strAppendSignedD (number : Str → Nat → Out (Status × Str)) (t : Str) (value : BitVec 64)
    (forceSign : Bool) (pre : Option View) : Out (Status × Str) :=
  if value.toInt < 0 then
    checkAppendD t viewSub fun t =>
    checkPrefixD t pre fun t =>
    (absI64 value).bind fun m => number t m.toNat
  else if forceSign then
    assertThat (value.toInt ≥ 0) <|
    checkAppendD t viewAdd fun t => checkPrefixD t pre fun t => number t value.toNat
  else checkPrefixD t pre fun t => number t value.toNat

/-- `ZyanStringAppendDecS`. -/
def strAppendDecSD (t : Str) (value : BitVec 64) (padding : Nat) (forceSign : Bool) (pre : Option View) :
    Out (Status × Str) :=
  strAppendSignedD (fun t m => strAppendDecUD t m padding) t value forceSign pre

/-- `ZyanStringAppendHexS`. -/
def strAppendHexSD (t : Str) (value : BitVec 64) (padding : Nat) (upper forceSign : Bool)
    (pre : Option View) : Out (Status × Str) :=
  strAppendSignedD (fun t m => strAppendHexUD t m padding upper) t value forceSign pre

/-- `ZyanStringAppendFormat`: src/Format.c lines 372-418, with the assertion of line 414. -/
def strAppendFormatD (t : Str) (fmt : Fmt) : Out (Status × Str) :=
  let len := t.s.v.size
  (vsnprintf t.s.v (sub64 len 1) (add64 (sub64 t.s.v.cap len) 1) (fmt 0)).bind fun r =>
  let w := r.1
  let t := { t with s := { t.s with v := r.2 } }
  if w < 0 then .ret (stFailed, t)
  else if w ≤ toI32 (sub64 t.s.v.cap len) then
    .ret (stSuccess, { t with s := { t.s with v := { t.s.v with size := add64 len w.toNat } } })
  else
    (strResizeD t (sub64 (add64 t.s.v.size w.toNat) 1)).bind fun r =>
    if failed r.1 then .ret r
    else
      let t := r.2
      (vsnprintf t.s.v (sub64 len 1) (add64 (sub64 t.s.v.cap t.s.v.size) 1) (fmt 1)).bind fun r =>
      let t := { t with s := { t.s with v := r.2 } }
      if r.1 < 0 then .ret (stFailed, t)
      else assertThat (r.1 ≤ toI32 (sub64 t.s.v.cap t.s.v.size)) (.ret (stSuccess, t))

end Zy
