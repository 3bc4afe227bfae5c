import Verif.Model.String

/-!
# Model of src/Format.c and the helper in include/Zycore/Format.h

Simplifications, stated once for the whole file (those of `Model/String` apply as well):

* The `U32` variants are compiled for 32-bit targets only. They are modelled with the same 64-bit
  `ZyanUSize` as everything else; `Model/FormatWord` has the functions with other widths.
* The local character buffers are blocks of cells of the given length; writing in front of them is
  undefined behaviour.
* `ZYAN_VSNPRINTF` is modelled by the text its k-th call produces (`Fmt`): the calls share one
  `va_list`, which the C standard leaves indeterminate after the first call, so the second call may
  produce a different text than the first.
-/

namespace Zy

/-! ## Helpers -/

/-- `ZYAN_MEMSET` into a vector's storage. -/
def vecMemset (v : Vec Byte) (dst : Nat) (c : Byte) (n : Nat) : Out (Vec Byte) :=
  withData v.data fun b =>
  (writeRange b.cells dst (List.replicate n (some c))).bind fun cs =>
  .ret { v with data := some { b with cells := cs } }

/-- `ZyanAbsI64`: include/Zycore/Format.h lines 59-70. `-x` of a signed number is undefined when it
overflows. -/
def absI64 (x : BitVec 64) : Out (BitVec 64) :=
  if x = BitVec.ofInt 64 (-0x7fffffffffffffff - 1) then .ret 0x8000000000000000#64
  else if x.toInt < 0 then
    if -x.toInt ≤ 0x7fffffffffffffff then .ret (BitVec.ofInt 64 (-x.toInt)) else .ub .other
  else .ret x

/-! ## Decimal -/

/-- `DECIMAL_LOOKUP`: src/Format.c lines 47-57. -/
def decimalLookup : List Byte :=
  ("00010203040506070809" ++
   "10111213141516171819" ++
   "20212223242526272829" ++
   "30313233343536373839" ++
   "40414243444546474849" ++
   "50515253545556575859" ++
   "60616263646566676869" ++
   "70717273747576777879" ++
   "80818283848586878889" ++
   "90919293949596979899").toList.map fun c => BitVec.ofNat 8 c.toNat

/-- `buffer_write_pointer -= 2; ZYAN_MEMCPY(buffer_write_pointer, &DECIMAL_LOOKUP[i], 2)`: src/Format.c
lines 100-102, 104-105 (with the pointer as an offset into the buffer). The result is the buffer and
the new offset. -/
def putPair (buf : List (Cell Byte)) (p i : Nat) : Out (List (Cell Byte) × Nat) :=
  if p < 2 then .ub .oob
  else
    (readRange (decimalLookup.map some) i 2).bind fun xs =>
    (writeRange buf (p - 2) xs).bind fun buf => .ret (buf, p - 2)

/-- The loop over pairs of digits: src/Format.c lines 97-103 and 143-149; the result is the buffer, the
write offset and the remaining value. -/
def decLoop : Nat → List (Cell Byte) → Nat → Nat → Out (List (Cell Byte) × Nat × Nat)
  | 0, _, _, _ => .ub .diverge
  | fuel + 1, buf, p, value =>
    if value ≥ 100 then
      let old := value
      let value := value / 100
      (putPair buf p (mul64 (sub64 old (mul64 value 100)) 2)).bind fun r =>
      decLoop fuel r.1 r.2 value
    else .ret (buf, p, value)

/-- `ZyanStringAppendDecU32` (src/Format.c lines 87-130, `maxchars = 10`) and `ZyanStringAppendDecU64`
(lines 133-176, `maxchars = 20`). -/
def strAppendDecWith (maxchars : Nat) (t : Str) (value padding : Nat) : Out (Status × Str) :=
  (decLoop (maxchars + 1) (List.replicate maxchars none) maxchars value).bind fun r =>
  let value := r.2.2
  (putPair r.1 r.2.1 (mul64 value 2)).bind fun q =>
  let buf := q.1
  let p := q.2
  let offsetOdd := if value < 10 then 1 else 0
  let lengthNumber := maxchars - p - offsetOdd
  let lengthTotal := max lengthNumber padding
  let lengthTarget := t.s.v.size
  (if add64 t.s.v.size lengthTotal > t.s.v.cap then
     strResize t (sub64 (add64 t.s.v.size lengthTotal) 1)
   else .ret (stSuccess, t)).bind fun r =>
  if failed r.1 then .ret r
  else
    let t := r.2
    let offsetWrite := if padding > lengthNumber then padding - lengthNumber else 0
    (if padding > lengthNumber then vecMemset t.s.v (sub64 lengthTarget 1) 48#8 offsetWrite
     else .ret t.s.v).bind fun v =>
    (vecMemcpy v (sub64 (add64 lengthTarget offsetWrite) 1) (.ext (buf.drop (p + offsetOdd)))
      lengthNumber).bind fun v =>
    (nullTerminate { t with s := { t.s with v :=
      { v with size := add64 lengthTarget lengthTotal } } }).bind fun t => .ret (stSuccess, t)

/-- `ZyanStringAppendDecU64`. -/
def strAppendDecU64 := strAppendDecWith 20
/-- `ZyanStringAppendDecU32`. -/
def strAppendDecU32 := strAppendDecWith 10

/-! ## Hexadecimal -/

/-- The digit characters: src/Format.c lines 241, 244, 313 and 316. -/
def hexTable (uppercase : Bool) : List Byte :=
  (if uppercase then "0123456789ABCDEF" else "0123456789abcdef").toList.map fun c => BitVec.ofNat 8 c.toNat

/-- `buffer[n++] = "0123456789ABCDEF"[v]` with an 8-bit `n`: src/Format.c lines 239-245 and 311-317.
`buffer` is an offset into the string's storage, `none` while it is the null pointer. -/
def putHex (upper : Bool) (t : Str) (buffer : Option Nat) (n v : Nat) : Out (Str × Nat) :=
  match buffer with
  | none => .ub .null
  | some b =>
    match (hexTable upper)[v]? with
    | none => .ub .oob
    | some c =>
      (strPoke t.s.v (b + n) (some c)).bind fun vec =>
      .ret ({ t with s := { t.s with v := vec } }, (n + 1) % 256)

/-- The loop over the nibbles: src/Format.c lines 218-246 and 289-318, for the nibbles `i - 1` down to 0.
The status is that of a failed `ZyanStringResize` inside of the loop, which returns from the function. -/
def hexLoop (upper : Bool) (value len padding remaining : Nat) :
    Nat → Str → Nat → Option Nat → Out (Status × Str × Nat)
  | 0, t, n, _ => .ret (stSuccess, t, n)
  | i + 1, t, n, buffer =>
    let v := (value >>> (i * 4)) &&& 0x0F
    if n = 0 then
      if v = 0 then hexLoop upper value len padding remaining i t n buffer
      else
        (if remaining ≤ i then strResize t (add64 t.s.v.size i) else .ret (stSuccess, t)).bind fun r =>
        if failed r.1 then .ret (r.1, r.2, n)
        else
          let t := r.2
          let b := sub64 len 1
          let n := if padding > i then padding - i - 1 else n
          (if padding > i then vecMemset t.s.v b 48#8 n else .ret t.s.v).bind fun vec =>
          (putHex upper { t with s := { t.s with v := vec } } (some b) n v).bind fun q =>
          hexLoop upper value len padding remaining i q.1 q.2 (some b)
    else
      (putHex upper t buffer n v).bind fun q =>
      hexLoop upper value len padding remaining i q.1 q.2 buffer

/-- The end of both functions: src/Format.c lines 210-213, 247-250, 281-284 and 319-322. -/
def hexFinish (t : Str) (len n : Nat) : Out (Status × Str) :=
  (nullTerminate { t with s := { t.s with v := { t.s.v with size := add64 len n } } }).bind fun t =>
  .ret (stSuccess, t)

/-- `ZyanStringAppendHexU32` (src/Format.c lines 183-251) and `ZyanStringAppendHexU64` (lines 254-323)
with the number of nibbles to look at. -/
def strAppendHexWith (nibbles : Nat) (t : Str) (value padding : Nat) (upper : Bool) :
    Out (Status × Str) :=
  let len := t.s.v.size
  let remaining := sub64 t.s.v.cap t.s.v.size
  (if remaining < padding then strResize t (sub64 (add64 len padding) 1)
   else .ret (stSuccess, t)).bind fun r =>
  if failed r.1 then .ret r
  else
    let t := r.2
    let remaining := if remaining < padding then padding else remaining
    if value = 0 then
      let n := if padding ≠ 0 then padding else 1
      (if remaining < n then strResize t (sub64 (add64 t.s.v.size n) 1)
       else .ret (stSuccess, t)).bind fun r =>
      if failed r.1 then .ret r
      else
        let t := r.2
        (vecMemset t.s.v (sub64 len 1) 48#8 n).bind fun v =>
        hexFinish { t with s := { t.s with v := v } } len n
    else
      (hexLoop upper value len padding remaining nibbles t 0 none).bind fun r =>
      if failed r.1 then .ret (r.1, r.2.1) else hexFinish r.2.1 len r.2.2

/-- `ZyanStringAppendHexU64`: the loop starts at nibble 15 or, when the upper half is zero, at nibble 7
(src/Format.c lines 289-290). -/
def strAppendHexU64 (t : Str) (value padding : Nat) (upper : Bool) : Out (Status × Str) :=
  strAppendHexWith (if value &&& 0xFFFFFFFF00000000 ≠ 0 then 16 else 8) t value padding upper
/-- `ZyanStringAppendHexU32` (src/Format.c line 218). -/
def strAppendHexU32 (t : Str) (value padding : Nat) (upper : Bool) : Out (Status × Str) :=
  strAppendHexWith 8 t value padding upper

/-! ## Exported functions -/

/-- `ZyanStringAppendDecU`: src/Format.c lines 424-436 on a 64-bit target. -/
def strAppendDecU (t : Str) (value padding : Nat) : Out (Status × Str) := strAppendDecU64 t value padding

/-- `ZyanStringAppendHexU`: src/Format.c lines 464-477 on a 64-bit target. -/
def strAppendHexU (t : Str) (value padding : Nat) (upper : Bool) : Out (Status × Str) :=
  strAppendHexU64 t value padding upper

/-- `STR_ADD`: src/Format.c line 63. -/
def viewAdd : View := ⟨[some 43#8, some 0#8], 2⟩
/-- `STR_SUB`: src/Format.c line 64. -/
def viewSub : View := ⟨[some 45#8, some 0#8], 2⟩

/-- `ZYAN_CHECK(ZyanStringAppend(string, view))` followed by `k`. -/
def checkAppend (t : Str) (v : View) (k : Str → Out (Status × Str)) : Out (Status × Str) :=
  (strAppend t v).bind fun r => if failed r.1 then .ret r else k r.2

/-- `if (prefix) ZYAN_CHECK(ZyanStringAppend(string, prefix))` followed by `k`. -/
def checkPrefix (t : Str) (pre : Option View) (k : Str → Out (Status × Str)) : Out (Status × Str) :=
  match pre with
  | none => k t
  | some v => checkAppend t v k

/-- The common body of `ZyanStringAppendDecS` (src/Format.c lines 438-462) and `ZyanStringAppendHexS`
(lines 479-503); `number` appends the magnitude. -/
def strAppendSigned (number : Str → Nat → Out (Status × Str)) (t : Str) (value : BitVec 64)
    (forceSign : Bool) (pre : Option View) : Out (Status × Str) :=
  if value.toInt < 0 then
    checkAppend t viewSub fun t =>
    checkPrefix t pre fun t =>
    (absI64 value).bind fun m => number t m.toNat
  else if forceSign then
    checkAppend t viewAdd fun t => checkPrefix t pre fun t => number t value.toNat
  else checkPrefix t pre fun t => number t value.toNat

/-- `ZyanStringAppendDecS`. -/
def strAppendDecS (t : Str) (value : BitVec 64) (padding : Nat) (forceSign : Bool) (pre : Option View) :
    Out (Status × Str) :=
  strAppendSigned (fun t m => strAppendDecU t m padding) t value forceSign pre

/-- `ZyanStringAppendHexS`. -/
def strAppendHexS (t : Str) (value : BitVec 64) (padding : Nat) (upper forceSign : Bool)
    (pre : Option View) : Out (Status × Str) :=
  strAppendSigned (fun t m => strAppendHexU t m padding upper) t value forceSign pre

/-! ## printf-style append -/

/-- What a call of the formatter produces: a text, or an error after having written some characters. -/
inductive FmtRes where
  | text (x : List Byte)
  | error (written : List Byte)

/-- The k-th call of `ZYAN_VSNPRINTF` in one `ZyanStringAppendFormat`. -/
abbrev Fmt := Nat → FmtRes

/-- `ZYAN_VSNPRINTF(data + dst, n, ...)` by the C standard: at most `n - 1` characters and a NUL are
written, nothing for `n = 0`; the result is the length of the whole text, or negative. A text whose length
is not representable is an error. -/
def vsnprintf (v : Vec Byte) (dst n : Nat) (res : FmtRes) : Out (Int × Vec Byte) :=
  let out (x : List Byte) : Out (Vec Byte) :=
    if n = 0 then .ret v
    else
      withData v.data fun b =>
      (writeRange b.cells dst ((x.take (n - 1)).map some ++ [some 0#8])).bind fun cs =>
      .ret { v with data := some { b with cells := cs } }
  match res with
  | .error x => (out x).bind fun v => .ret (-1, v)
  | .text x => (out x).bind fun v => .ret (if x.length ≤ 0x7fffffff then x.length else -1, v)

/-- Conversion of a `ZyanUSize` to `ZyanI32`. -/
def toI32 (n : Nat) : Int := (BitVec.ofNat 32 n).toInt

/-- `ZyanStringAppendFormat`: src/Format.c lines 372-418. -/
def strAppendFormat (t : Str) (fmt : Fmt) : Out (Status × Str) :=
  let len := t.s.v.size
  (vsnprintf t.s.v (sub64 len 1) (add64 (sub64 t.s.v.cap len) 1) (fmt 0)).bind fun r =>
  let w := r.1
  let t := { t with s := { t.s with v := r.2 } }
  if w < 0 then .ret (stFailed, t)
  else if w ≤ toI32 (sub64 t.s.v.cap len) then
    .ret (stSuccess, { t with s := { t.s with v := { t.s.v with size := add64 len w.toNat } } })
  else
    (strResize t (sub64 (add64 t.s.v.size w.toNat) 1)).bind fun r =>
    if failed r.1 then .ret r
    else
      let t := r.2
      (vsnprintf t.s.v (sub64 len 1) (add64 (sub64 t.s.v.cap t.s.v.size) 1) (fmt 1)).bind fun r =>
      let t := { t with s := { t.s with v := r.2 } }
      if r.1 < 0 then .ret (stFailed, t) else .ret (stSuccess, t)

end Zy
