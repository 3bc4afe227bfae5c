import Verif.Props.StringWord
import Verif.Props.Format

/-!
# Property theorems about formatting on targets with another width of `size_t` (C177)
-/

namespace Zy

open Spec

/-- C177 (the parameters are those of the target): with `2^64` values of `size_t` and 64-bit registers,
every formatting function is the function of the 64-bit model, for every state and every request. -/
theorem C177_is_64 (t : Str) (value padding : Nat) (upper forceSign : Bool) (number : BitVec 64)
    (pre : Option View) (fmt : Fmt) :
    strAppendDecUW 18446744073709551616 true t value padding = strAppendDecU t value padding ∧
    strAppendHexUW 18446744073709551616 true t value padding upper = strAppendHexU t value padding upper ∧
    strAppendDecSW 18446744073709551616 true t number padding forceSign pre =
      strAppendDecS t number padding forceSign pre ∧
    strAppendHexSW 18446744073709551616 true t number padding upper forceSign pre =
      strAppendHexS t number padding upper forceSign pre ∧
    strAppendFormatW 18446744073709551616 t fmt = strAppendFormat t fmt := by
  have hh : ∀ (t : Str) (value : Nat), strAppendHexUW 18446744073709551616 true t value padding upper =
      strAppendHexU t value padding upper := by
    intro t value
    unfold strAppendHexUW strAppendHexU64W strAppendHexWithW
    simp only [hexLoopW_64]
    rfl
  refine ⟨rfl, hh t value, rfl, ?_, rfl⟩
  unfold strAppendHexSW
  simp only [hh]
  rfl

/-- C177, unsigned decimal: on every target whose `size_t` has at most `2^64` values, with and without 64-bit
registers, for every 64-bit value and every padding: appending to a string with room succeeds and adds exactly
the padded numeral; a fixed string without room is reported and keeps its text. -/
theorem C177_decimal {m : Nat} (hm : m ≤ 18446744073709551616) {P : Params} {t : Str} (h : SReachW m P t)
    (regs64 : Bool) {value padding : Nat} (hv : value < 18446744073709551616) (hp : padding ≤ 255)
    (hf : SFitsW m ((textOf t).length + 300)) :
    ((P.allocator = none →
        (textOf t).length + (padded padding (numeral 10 false value)).length + 1 ≤ t.s.v.cap) →
      ∃ t', strAppendDecUW m regs64 t value padding = .ret (stSuccess, t') ∧
        textOf t' = textOf t ++ (padded padding (numeral 10 false value)).map some ∧ Terminated t' ∧
        ((textOf t).length + (padded padding (numeral 10 false value)).length + 1 ≤ t.s.v.cap →
          t'.s.v.cap = t.s.v.cap)) ∧
    (P.allocator = none →
      t.s.v.cap < (textOf t).length + (padded padding (numeral 10 false value)).length + 1 →
      ∃ t', strAppendDecUW m regs64 t value padding = .ret (stInsufficient, t') ∧ textOf t' = textOf t ∧
        strGetSize t' = (textOf t).length ∧ Terminated t' ∧ t'.s.v.cap = t.s.v.cap) := by
  obtain ⟨b, sl, R⟩ := h.srepW hm
  rw [← sabsOf_text] at hf
  have hf' : ((sabsOf t).text.length + 300) * 255 < m := hf
  have key := num_obs (decU_res R.srep hv hp (by unfold SFits; omega))
  rw [decUW_eq R regs64 hv hp hf]
  rw [sabsOf_text, sabsOf_bytes] at key
  exact key

/-- C177, unsigned hexadecimal. -/
theorem C177_hexadecimal {m : Nat} (hm : m ≤ 18446744073709551616) {P : Params} {t : Str} (h : SReachW m P t)
    (regs64 : Bool) {value padding : Nat} (upper : Bool) (hv : value < 18446744073709551616)
    (hp : padding ≤ 255) (hf : SFitsW m ((textOf t).length + 300)) (hc : t.s.v.cap < m) :
    ((P.allocator = none →
        (textOf t).length + (padded padding (numeral 16 upper value)).length + 1 ≤ t.s.v.cap) →
      ∃ t', strAppendHexUW m regs64 t value padding upper = .ret (stSuccess, t') ∧
        textOf t' = textOf t ++ (padded padding (numeral 16 upper value)).map some ∧ Terminated t' ∧
        ((textOf t).length + (padded padding (numeral 16 upper value)).length + 1 ≤ t.s.v.cap →
          t'.s.v.cap = t.s.v.cap)) ∧
    (P.allocator = none →
      t.s.v.cap < (textOf t).length + (padded padding (numeral 16 upper value)).length + 1 →
      ∃ t', strAppendHexUW m regs64 t value padding upper = .ret (stInsufficient, t') ∧
        textOf t' = textOf t ∧ strGetSize t' = (textOf t).length ∧ Terminated t' ∧
        t'.s.v.cap = t.s.v.cap) := by
  obtain ⟨b, sl, R⟩ := h.srepW hm
  rw [← sabsOf_text] at hf
  have hf' : ((sabsOf t).text.length + 300) * 255 < m := hf
  have key := num_obs (hexU_res R.srep hv hp (by unfold SFits; omega) (by rw [sabsOf_bytes]; omega) upper)
  rw [hexUW_eq R regs64 hv hp hf hc]
  rw [sabsOf_text, sabsOf_bytes] at key
  exact key

/-- C177, signed decimal: with every sign option, prefix and padding, appending to a string with room adds
the sign, the prefix and the padded magnitude; a fixed string without room is reported and keeps its text,
followed by some beginning of the output. -/
theorem C177_signed_decimal {m : Nat} (hm : m ≤ 18446744073709551616) {P : Params} {t : Str}
    (h : SReachW m P t) (regs64 : Bool) (value : BitVec 64) {padding : Nat} (forceSign : Bool) {pre : Option View}
    {x : List Byte} (hx : PrefixShows pre x) (hp : padding ≤ 255)
    (hf : SFitsW m ((textOf t).length + x.length + 301)) (hc : t.s.v.cap < m) {out : List Byte}
    (hout : out = signPrefix value.toInt forceSign x ++
      padded padding (numeral 10 false value.toInt.natAbs)) :
    ((P.allocator = none → (textOf t).length + out.length + 1 ≤ t.s.v.cap) →
      ∃ t', strAppendDecSW m regs64 t value padding forceSign pre = .ret (stSuccess, t') ∧
        textOf t' = textOf t ++ out.map some ∧ Terminated t') ∧
    (P.allocator = none → t.s.v.cap < (textOf t).length + out.length + 1 →
      ∃ t' y, y <+: out ∧ strAppendDecSW m regs64 t value padding forceSign pre = .ret (stInsufficient, t') ∧
        textOf t' = textOf t ++ y.map some ∧ Terminated t' ∧ t'.s.v.cap = t.s.v.cap) := by
  obtain ⟨b, sl, R⟩ := h.srepW hm
  rw [← sabsOf_text] at hf
  have hf' : ((sabsOf t).text.length + x.length + 301) * 255 < m := hf
  have hsf : SFits ((sabsOf t).text.length + x.length + 301) := by unfold SFits; omega
  have hsb : (sabsOf t).bytes < 18446744073709551616 := by rw [sabsOf_bytes]; omega
  subst hout
  have key := app_obs (decS_res R.srep value hp forceSign hx hsf hsb)
  rw [sabsOf_text, sabsOf_bytes] at key
  rw [decSW_eq R regs64 value hp forceSign hx hc hf]
  exact key

/-- C177, signed hexadecimal. -/
theorem C177_signed_hexadecimal {m : Nat} (hm : m ≤ 18446744073709551616) {P : Params} {t : Str}
    (h : SReachW m P t) (regs64 : Bool) (value : BitVec 64) {padding : Nat} (upper forceSign : Bool) {pre : Option View}
    {x : List Byte} (hx : PrefixShows pre x) (hp : padding ≤ 255)
    (hf : SFitsW m ((textOf t).length + x.length + 301)) (hc : t.s.v.cap < m) {out : List Byte}
    (hout : out = signPrefix value.toInt forceSign x ++
      padded padding (numeral 16 upper value.toInt.natAbs)) :
    ((P.allocator = none → (textOf t).length + out.length + 1 ≤ t.s.v.cap) →
      ∃ t', strAppendHexSW m regs64 t value padding upper forceSign pre = .ret (stSuccess, t') ∧
        textOf t' = textOf t ++ out.map some ∧ Terminated t') ∧
    (P.allocator = none → t.s.v.cap < (textOf t).length + out.length + 1 →
      ∃ t' y, y <+: out ∧ strAppendHexSW m regs64 t value padding upper forceSign pre = .ret (stInsufficient, t') ∧
        textOf t' = textOf t ++ y.map some ∧ Terminated t' ∧ t'.s.v.cap = t.s.v.cap) := by
  obtain ⟨b, sl, R⟩ := h.srepW hm
  rw [← sabsOf_text] at hf
  have hf' : ((sabsOf t).text.length + x.length + 301) * 255 < m := hf
  have hsf : SFits ((sabsOf t).text.length + x.length + 301) := by unfold SFits; omega
  have hsb : (sabsOf t).bytes < 18446744073709551616 := by rw [sabsOf_bytes]; omega
  subst hout
  have key := app_obs (hexS_res R.srep value hp upper forceSign hx hsf hsb)
  rw [sabsOf_text, sabsOf_bytes] at key
  rw [hexSW_eq R regs64 value hp upper forceSign hx hc hf]
  exact key

/-- C177 (portability): a request that fits into the narrower of two `size_t` has the same outcome on both
targets, whatever their registers are: the same status, bytes, capacity and allocator calls. -/
theorem C177_portable {m m' : Nat} (hm : m ≤ m') (hm' : m' ≤ 18446744073709551616) {P : Params} {t : Str}
    (h : SReachW m P t) (regs regs' : Bool) {value padding : Nat} (hv : value < 18446744073709551616)
    (hp : padding ≤ 255) (number : BitVec 64) (upper forceSign : Bool) {pre : Option View} {x : List Byte}
    (hx : PrefixShows pre x) (hf : SFitsW m ((textOf t).length + x.length + 301)) (hc : t.s.v.cap < m)
    {fmt : Fmt} (hfmt : ∀ y, fmt 0 = .text y → SFitsW m ((textOf t).length + y.length + 1)) :
    strAppendDecUW m regs t value padding = strAppendDecUW m' regs' t value padding ∧
    strAppendHexUW m regs t value padding upper = strAppendHexUW m' regs' t value padding upper ∧
    strAppendDecSW m regs t number padding forceSign pre =
      strAppendDecSW m' regs' t number padding forceSign pre ∧
    strAppendHexSW m regs t number padding upper forceSign pre =
      strAppendHexSW m' regs' t number padding upper forceSign pre ∧
    strAppendFormatW m t fmt = strAppendFormatW m' t fmt := by
  obtain ⟨b, sl, R⟩ := h.srepW (Nat.le_trans hm hm')
  have R' : SRepW m' P t (sabsOf t) b sl := ⟨R.srep, hm', Nat.lt_of_lt_of_le R.fits hm⟩
  rw [← sabsOf_text] at hf
  have hf1 : ((sabsOf t).text.length + x.length + 301) * 255 < m := hf
  have hf2 : ((sabsOf t).text.length + x.length + 301) * 255 < m' := Nat.lt_of_lt_of_le hf1 hm
  have hf3 : ((sabsOf t).text.length + 300) * 255 < m := mul255_lt hf1 (by omega)
  have hf4 : ((sabsOf t).text.length + 300) * 255 < m' := mul255_lt hf2 (by omega)
  have hc1 : (sabsOf t).bytes < m := hc
  have hc2 : (sabsOf t).bytes < m' := Nat.lt_of_lt_of_le hc hm
  have hfm : ∀ y, fmt 0 = .text y → ((sabsOf t).text.length + y.length + 1) * 255 < m := by
    intro y hy; rw [sabsOf_text]; exact hfmt y hy
  refine ⟨?_, ?_, ?_, ?_, ?_⟩
  · rw [decUW_eq R regs hv hp hf3, decUW_eq R' regs' hv hp hf4]
  · rw [hexUW_eq R regs hv hp hf3 hc1, hexUW_eq R' regs' hv hp hf4 hc2]
  · rw [decSW_eq R regs number hp forceSign hx hc1 hf1, decSW_eq R' regs' number hp forceSign hx hc2 hf2]
  · rw [hexSW_eq R regs number hp upper forceSign hx hc1 hf1,
      hexSW_eq R' regs' number hp upper forceSign hx hc2 hf2]
  · rw [formatW_eq R hc1 hfm, formatW_eq R' hc2 fun y hy => Nat.lt_of_lt_of_le (hfm y hy) hm]

/-- C177 (printf-style append): on every such target the outcome is that of the 64-bit model (and what C36
says of it applies). -/
theorem C177_format {m : Nat} (hm : m ≤ 18446744073709551616) {P : Params} {t : Str} (h : SReachW m P t)
    {fmt : Fmt} (hc : t.s.v.cap < m)
    (hfmt : ∀ y, fmt 0 = .text y → SFitsW m ((textOf t).length + y.length + 1)) :
    strAppendFormatW m t fmt = strAppendFormat t fmt := by
  obtain ⟨b, sl, R⟩ := h.srepW hm
  refine formatW_eq R (by rw [sabsOf_bytes]; exact hc) fun y hy => ?_
  rw [sabsOf_text]
  exact hfmt y hy

/-- C177 (limit of portability): a string that nearly fills the address space of the target, in whatever
storage. If its size and the length of the numeral do not fit into `size_t`, the check for room is passed
and the digits are written behind the end of the storage. -/
theorem C177_wraps {m : Nat} (h255 : 255 < m) {t : Str} {b : Block Byte} (hd : t.s.v.data = some b)
    (hs : 1 ≤ t.s.v.size) (hle : t.s.v.size ≤ t.s.v.cap) (hb : b.cells.length < m)
    (hcap : t.s.v.cap ≤ b.cells.length) {value : Nat} (hv : value < 18446744073709551616)
    (hwrap : m < t.s.v.size + (numeral 10 false value).length) :
    strAppendDecUW m true t value 0 = .ub .oob := by
  obtain ⟨buf0, p0, r, buf, p, e1, e2, hdrop, hlen⟩ := decBuffer_ok (maxchars := 20) (value := value)
    (by decide) (by decide) (Nat.lt_of_lt_of_le hv (by decide)) hv
  have hn20 : (numeral 10 false value).length ≤ 20 := by rw [← hlen]; omega
  simp only [strAppendDecUW, if_true]
  unfold strAppendDecWithW
  rw [e1, Out.ret_bind']
  simp only
  rw [e2, Out.ret_bind']
  simp only
  rw [hlen, hdrop, Nat.max_zero, addW_wrap (by omega) (by omega) (by omega), if_neg (by omega), Out.ret_bind']
  simp only [failed_success, Bool.false_eq_true, if_false]
  rw [if_neg (by omega), if_neg (by omega), Out.ret_bind']
  have e3 : subW m (addW m t.s.v.size 0) 1 = t.s.v.size - 1 := by
    unfold addW
    rw [Nat.add_zero, Nat.mod_eq_of_lt (by omega), subW_nat hs (by omega)]
  rw [e3]
  clear e3
  unfold vecMemcpy withData
  rw [hd]
  simp only [memcpyIn]
  unfold readRange
  rw [if_pos (by simp), Out.ret_bind']
  unfold writeRange
  rw [if_neg (by simp; omega)]
  rfl

/-! ## A 32-bit target -/

theorem exFStr_reachW : SReachW 4294967296 exFSP exFStr :=
  SReachW.dupBuffer (P := exFSP) (w := exSW) (st := stSuccess) (x := (chars ['a', 'b']).map some) (cap := 5)
    (b := ⟨9, List.replicate 5 none⟩) ⟨rfl, rfl⟩ (fun _ => failed_success) ⟨rfl, rfl, rfl, rfl, rfl⟩
    (by decide) (by show _ < _; decide) (by cbv)

example : ∃ t', strAppendDecUW 4294967296 false exStr 18446744073709551615 30 = .ret (stSuccess, t') ∧
    textOf t' = textOf exStr ++ (padded 30 (numeral 10 false 18446744073709551615)).map some ∧
    Terminated t' := by
  obtain ⟨t', h1, h2, h3, _⟩ := (C177_decimal (by decide) exStr_reachW false (value := 18446744073709551615)
    (padding := 30) (by decide) (by decide) (by show _ < _; decide +kernel)).1 (by decide)
  exact ⟨t', h1, h2, h3⟩
example : (strAppendDecUW 4294967296 false exStr 4294967297 12).bind (fun r => .ret (r.1, textOf r.2)) =
    .ret (stSuccess, (chars "aB@c004294967297".toList).map some) := by decide +kernel
example : (strAppendHexUW 4294967296 false exStr 0xbeef 6 false).bind (fun r => .ret (r.1, textOf r.2)) =
    .ret (stSuccess, (chars "aB@c00beef".toList).map some) := by decide +kernel
example : ∃ t', strAppendHexUW 4294967296 false exFStr 0xABCDEF 0 true = .ret (stInsufficient, t') ∧
    textOf t' = textOf exFStr ∧ strGetSize t' = (textOf exFStr).length ∧ Terminated t' ∧ t'.s.v.cap = 5 :=
  (C177_hexadecimal (by decide) exFStr_reachW false true (value := 0xABCDEF) (padding := 0) (by decide)
    (by decide) (by show _ < _; decide +kernel) (by decide)).2 rfl (by decide +kernel)
example : ∃ t', strAppendHexSW 4294967296 true exStr 0x1F#64 0 true true (some (litView (chars "0x".toList))) =
      .ret (stSuccess, t') ∧ textOf t' = textOf exStr ++ (chars "+0x1F".toList).map some ∧ Terminated t' :=
  (C177_signed_hexadecimal (by decide) exStr_reachW true 0x1F#64 (padding := 0) true true
    (pre := some (litView (chars "0x".toList))) (x := chars "0x".toList) (by exact ⟨by decide, by decide⟩)
    (by decide) (by show _ < _; decide +kernel) (by decide)
    (out := chars "+0x1F".toList) (by decide +kernel)).1 (by decide)
example : ∃ t' y, y <+: chars "+99".toList ∧
    strAppendDecSW 4294967296 false exFStr 99#64 0 true none = .ret (stInsufficient, t') ∧
    textOf t' = textOf exFStr ++ y.map some ∧ Terminated t' ∧ t'.s.v.cap = 5 :=
  (C177_signed_decimal (by decide) exFStr_reachW false 99#64 (padding := 0) true (pre := none) (x := []) rfl
    (by decide) (by show _ < _; decide +kernel) (by decide) (out := chars "+99".toList)
    (by decide +kernel)).2 rfl (by decide +kernel)
example : strAppendDecSW 4294967296 false exStr (BitVec.ofInt 64 (-5000000000)) 0 false none =
    strAppendDecSW 18446744073709551616 true exStr (BitVec.ofInt 64 (-5000000000)) 0 false none :=
  (C177_portable (by decide) (by decide) exStr_reachW false true (value := 0) (padding := 0) (by decide)
    (by decide) (BitVec.ofInt 64 (-5000000000)) false false (pre := none) (x := []) rfl
    (by show _ < _; decide +kernel) (by decide) (fmt := fun _ => .error []) (by simp)).2.2.1
example : strAppendFormatW 4294967296 exStr (fmtConst (chars "x = 1".toList)) =
    strAppendFormat exStr (fmtConst (chars "x = 1".toList)) :=
  C177_format (by decide) exStr_reachW (by decide) (by
    intro y hy
    obtain rfl : chars "x = 1".toList = y := by injection hy
    show _ < _
    decide +kernel)
example : (strAppendFormatW 4294967296 exStr (fmtConst (chars "x = 1".toList))).bind
    (fun r => .ret (r.1, textOf r.2)) =
    .ret (stSuccess, (chars "aB@cx = 1".toList).map some) := by decide +kernel

/-- A string of 65529 characters in a buffer of 65534 bytes. -/
def exHuge : Str :=
  ⟨⟨{ allocator := none, growth := 1, shrink := 0, size := 65530, cap := 65534, esz := 1, hasDtor := false,
      data := some ⟨9, List.replicate 65534 (some 0#8)⟩ }, exSW⟩, true⟩

/-- With a `size_t` of 16 bits, ten digits do not fit behind it, and are written nevertheless. -/
example : strAppendDecUW 65536 true exHuge 1234567890 0 = .ub .oob :=
  C177_wraps (m := 65536) (by decide) (t := exHuge) (b := ⟨9, List.replicate 65534 (some 0#8)⟩) rfl (by decide) (by decide)
    (by rw [List.length_replicate]; decide) (by rw [List.length_replicate]; decide)
    (by decide) (by
      have : (numeral 10 false 1234567890).length = 10 := by decide +kernel
      rw [this]; decide)

end Zy
