import Verif.Model.StringWord
import Verif.Model.Targets

/-!
# Formatting on targets with another width of `size_t`

The functions of src/Format.c that compute with sizes once more, with the number `m` of values of `size_t`
as a parameter, on top of `Model/StringWord.lean`. The digits are computed with `ZyanU32` and `ZyanU64`, whose
width does not depend on the target: `decLoop`, `putPair`, `putHex` and `absI64` are those of
`Model/Format.lean`.

Whether the variants for 64-bit registers are used does not follow from the width of `size_t` (the x32 ABI has
64-bit registers and a 32-bit `size_t`), so it is a parameter of its own (`regs64`).
-/

namespace Zy

/-! ## Decimal -/

/-- `ZyanStringAppendDecU32` (src/Format.c lines 87-130, `maxchars = 10`) and `ZyanStringAppendDecU64`
(lines 133-176, `maxchars = 20`). -/
def strAppendDecWithW (m maxchars : Nat) (t : Str) (value padding : Nat) : Out (Status × Str) :=
  (decLoop (maxchars + 1) (List.replicate maxchars none) maxchars value).bind fun r =>
  let value := r.2.2
  (putPair r.1 r.2.1 (mul64 value 2)).bind fun q =>
  let buf := q.1
  let p := q.2
  let offsetOdd := if value < 10 then 1 else 0
  let lengthNumber := maxchars - p - offsetOdd
  let lengthTotal := max lengthNumber padding
  let lengthTarget := t.s.v.size
  (if addW m t.s.v.size lengthTotal > t.s.v.cap then
     strResizeW m t (subW m (addW m t.s.v.size lengthTotal) 1)
   else .ret (stSuccess, t)).bind fun r =>
  if failed r.1 then .ret r
  else
    let t := r.2
    let offsetWrite := if padding > lengthNumber then padding - lengthNumber else 0
    (if padding > lengthNumber then vecMemset t.s.v (subW m lengthTarget 1) 48#8 offsetWrite
     else .ret t.s.v).bind fun v =>
    (vecMemcpy v (subW m (addW m lengthTarget offsetWrite) 1) (.ext (buf.drop (p + offsetOdd)))
      lengthNumber).bind fun v =>
    (nullTerminateW m { t with s := { t.s with v :=
      { v with size := addW m lengthTarget lengthTotal } } }).bind fun t => .ret (stSuccess, t)

/-! ## Hexadecimal -/

/-- The loop over the nibbles: src/Format.c lines 218-246 and 289-318, for the nibbles `i - 1` down to 0.
The status is that of a failed `ZyanStringResize` inside of the loop, which returns from the function. -/
def hexLoopW (m : Nat) (upper : Bool) (value len padding remaining : Nat) :
    Nat → Str → Nat → Option Nat → Out (Status × Str × Nat)
  | 0, t, n, _ => .ret (stSuccess, t, n)
  | i + 1, t, n, buffer =>
    let v := (value >>> (i * 4)) &&& 0x0F
    if n = 0 then
      if v = 0 then hexLoopW m upper value len padding remaining i t n buffer
      else
        (if remaining ≤ i then strResizeW m t (addW m t.s.v.size i) else .ret (stSuccess, t)).bind fun r =>
        if failed r.1 then .ret (r.1, r.2, n)
        else
          let t := r.2
          let b := subW m len 1
          let n := if padding > i then padding - i - 1 else n
          (if padding > i then vecMemset t.s.v b 48#8 n else .ret t.s.v).bind fun vec =>
          (putHex upper { t with s := { t.s with v := vec } } (some b) n v).bind fun q =>
          hexLoopW m upper value len padding remaining i q.1 q.2 (some b)
    else
      (putHex upper t buffer n v).bind fun q =>
      hexLoopW m upper value len padding remaining i q.1 q.2 buffer

/-- The end of both functions: src/Format.c lines 210-213, 247-250, 281-284 and 319-322. -/
def hexFinishW (m : Nat) (t : Str) (len n : Nat) : Out (Status × Str) :=
  (nullTerminateW m { t with s := { t.s with v := { t.s.v with size := addW m len n } } }).bind fun t =>
  .ret (stSuccess, t)

/-- `ZyanStringAppendHexU32` (src/Format.c lines 183-251) and `ZyanStringAppendHexU64` (lines 254-323)
with the number of nibbles to look at. -/
def strAppendHexWithW (m nibbles : Nat) (t : Str) (value padding : Nat) (upper : Bool) :
    Out (Status × Str) :=
  let len := t.s.v.size
  let remaining := subW m t.s.v.cap t.s.v.size
  (if remaining < padding then strResizeW m t (subW m (addW m len padding) 1)
   else .ret (stSuccess, t)).bind fun r =>
  if failed r.1 then .ret r
  else
    let t := r.2
    let remaining := if remaining < padding then padding else remaining
    if value = 0 then
      let n := if padding ≠ 0 then padding else 1
      (if remaining < n then strResizeW m t (subW m (addW m t.s.v.size n) 1)
       else .ret (stSuccess, t)).bind fun r =>
      if failed r.1 then .ret r
      else
        let t := r.2
        (vecMemset t.s.v (subW m len 1) 48#8 n).bind fun v =>
        hexFinishW m { t with s := { t.s with v := v } } len n
    else
      (hexLoopW m upper value len padding remaining nibbles t 0 none).bind fun r =>
      if failed r.1 then .ret (r.1, r.2.1) else hexFinishW m r.2.1 len r.2.2

/-- `ZyanStringAppendHexU64`: the loop starts at nibble 15 or, when the upper half is zero, at nibble 7
(src/Format.c lines 289-290). -/
def strAppendHexU64W (m : Nat) (t : Str) (value padding : Nat) (upper : Bool) : Out (Status × Str) :=
  strAppendHexWithW m (if value &&& 0xFFFFFFFF00000000 ≠ 0 then 16 else 8) t value padding upper

/-! ## Exported functions -/

/-- `ZyanStringAppendDecU`: src/Format.c lines 424-436. -/
def strAppendDecUW (m : Nat) (regs64 : Bool) (t : Str) (value padding : Nat) : Out (Status × Str) :=
  if regs64 then strAppendDecWithW m 20 t value padding
  else if value &&& 0xFFFFFFFF00000000 ≠ 0 then strAppendDecWithW m 20 t value padding
  else strAppendDecWithW m 10 t (value % 4294967296) padding

/-- `ZyanStringAppendHexU`: src/Format.c lines 464-477. -/
def strAppendHexUW (m : Nat) (regs64 : Bool) (t : Str) (value padding : Nat) (upper : Bool) :
    Out (Status × Str) :=
  if regs64 then strAppendHexU64W m t value padding upper
  else if value &&& 0xFFFFFFFF00000000 ≠ 0 then strAppendHexU64W m t value padding upper
  else strAppendHexWithW m 8 t (value % 4294967296) padding upper

/-- `ZYAN_CHECK(ZyanStringAppend(string, view))` followed by `k`. -/
def checkAppendW (m : Nat) (t : Str) (v : View) (k : Str → Out (Status × Str)) : Out (Status × Str) :=
  (strAppendW m t v).bind fun r => if failed r.1 then .ret r else k r.2

/-- `if (prefix) ZYAN_CHECK(ZyanStringAppend(string, prefix))` followed by `k`. -/
def checkPrefixW (m : Nat) (t : Str) (pre : Option View) (k : Str → Out (Status × Str)) :
    Out (Status × Str) :=
  match pre with
  | none => k t
  | some v => checkAppendW m t v k

/-- The common body of `ZyanStringAppendDecS` (src/Format.c lines 438-462) and `ZyanStringAppendHexS`
(lines 479-503); `number` appends the magnitude. -/
def strAppendSignedW (m : Nat) (number : Str → Nat → Out (Status × Str)) (t : Str) (value : BitVec 64)
    (forceSign : Bool) (pre : Option View) : Out (Status × Str) :=
  if value.toInt < 0 then
    checkAppendW m t viewSub fun t =>
    checkPrefixW m t pre fun t =>
    (absI64 value).bind fun n => number t n.toNat
  else if forceSign then
    checkAppendW m t viewAdd fun t => checkPrefixW m t pre fun t => number t value.toNat
  else checkPrefixW m t pre fun t => number t value.toNat

/-- `ZyanStringAppendDecS`: src/Format.c lines 438-462. -/
def strAppendDecSW (m : Nat) (regs64 : Bool) (t : Str) (value : BitVec 64) (padding : Nat)
    (forceSign : Bool) (pre : Option View) : Out (Status × Str) :=
  strAppendSignedW m (fun t n => strAppendDecUW m regs64 t n padding) t value forceSign pre

/-- `ZyanStringAppendHexS`: src/Format.c lines 479-503. -/
def strAppendHexSW (m : Nat) (regs64 : Bool) (t : Str) (value : BitVec 64) (padding : Nat)
    (upper forceSign : Bool) (pre : Option View) : Out (Status × Str) :=
  strAppendSignedW m (fun t n => strAppendHexUW m regs64 t n padding upper) t value forceSign pre

/-! ## printf-style append -/

/-- `ZyanStringAppendFormat`: src/Format.c lines 372-418. -/
def strAppendFormatW (m : Nat) (t : Str) (fmt : Fmt) : Out (Status × Str) :=
  let len := t.s.v.size
  (vsnprintf t.s.v (subW m len 1) (addW m (subW m t.s.v.cap len) 1) (fmt 0)).bind fun r =>
  let w := r.1
  let t := { t with s := { t.s with v := r.2 } }
  if w < 0 then .ret (stFailed, t)
  else if w ≤ toI32 (subW m t.s.v.cap len) then
    .ret (stSuccess, { t with s := { t.s with v := { t.s.v with size := addW m len w.toNat } } })
  else
    (strResizeW m t (subW m (addW m t.s.v.size w.toNat) 1)).bind fun r =>
    if failed r.1 then .ret r
    else
      let t := r.2
      (vsnprintf t.s.v (subW m len 1) (addW m (subW m t.s.v.cap t.s.v.size) 1) (fmt 1)).bind fun r =>
      let t := { t with s := { t.s with v := r.2 } }
      if r.1 < 0 then .ret (stFailed, t) else .ret (stSuccess, t)

end Zy
