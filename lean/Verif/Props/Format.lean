import Verif.Props.String

/-!
# Property theorems about number formatting (C32 - C37)

The specification (`Spec/Format`): `numeral base upper n` is the usual way to write `n`, `padded w x` pads
with zeros to width `w`, `readNumeral` reads digits back, `signPrefix` is the sign and prefix.
-/

namespace Zy

open Spec

/-! ## What the specification promises -/

/-- C32/C33: the padded numeral reads back as the number; it consists of the numeral and zeros in front of
it; it has the requested width unless the number is longer; and the numeral has no leading zero. -/
theorem C32_numeral_roundtrip {base : Nat} (hb : 2 ≤ base) (hb' : base ≤ 16) (upper : Bool) (w n : Nat) :
    readNumeral base (padded w (numeral base upper n)) = n ∧
    (padded w (numeral base upper n)).length = max w (numeral base upper n).length ∧
    numeral base upper n <:+ padded w (numeral base upper n) ∧
    (∀ c ∈ (padded w (numeral base upper n)).take (w - (numeral base upper n).length), c = 48#8) ∧
    (n ≠ 0 → (numeral base upper n).head? ≠ some 48#8) ∧
    (∀ c ∈ numeral base upper n, ∃ d, d < base ∧ c = digitChar upper d) := by
  refine ⟨readNumeral_padded hb hb' upper w n, ?_, List.suffix_append _ _, ?_, numeral_head hb hb' upper, ?_⟩
  · unfold padded; simp; omega
  · intro c hc
    unfold padded at hc
    rw [List.take_left' (by simp)] at hc
    exact List.eq_of_mem_replicate hc
  · intro c hc
    unfold numeral at hc
    rw [List.mem_map] at hc
    obtain ⟨d, hd, rfl⟩ := hc
    exact ⟨d, digits_bound hb n d hd, rfl⟩

example : numeral 10 false 18446744073709551615 = chars "18446744073709551615".toList := by decide +kernel
example : padded 6 (numeral 16 true 48879) = chars "00BEEF".toList := by decide +kernel
example : padded 0 (numeral 10 false 0) = chars "0".toList := by decide +kernel

/-! ## C32: unsigned decimal -/

/-- C32: for every 64-bit value and every padding, appending to a string with room (a dynamic string, or a
fixed one whose buffer is large enough) succeeds and adds exactly the padded decimal numeral; a string
whose storage suffices keeps it. -/
theorem C32_decimal {P : Params} {t : Str} (h : SReach P t) {value padding : Nat}
    (hv : value < 18446744073709551616) (hp : padding ≤ 255) (hf : SFits ((textOf t).length + 300))
    (hroom : P.allocator = none →
      (textOf t).length + (padded padding (numeral 10 false value)).length + 1 ≤ t.s.v.cap) :
    ∃ t', strAppendDecU t value padding = .ret (stSuccess, t') ∧
      textOf t' = textOf t ++ (padded padding (numeral 10 false value)).map some ∧ Terminated t' ∧
      ((textOf t).length + (padded padding (numeral 10 false value)).length + 1 ≤ t.s.v.cap →
        t'.s.v.cap = t.s.v.cap) := by
  obtain ⟨b, sl, R⟩ := h.rep
  have hres := decU_res R hv hp
  rw [sabsOf_text] at hres
  have key := (num_obs (hres hf)).1
  rw [sabsOf_text, sabsOf_bytes] at key
  exact key hroom

/-- C32 for the variant used on 32-bit targets. -/
theorem C32_decimal_32 {P : Params} {t : Str} (h : SReach P t) {value padding : Nat}
    (hv : value < 4294967296) (hp : padding ≤ 255) (hf : SFits ((textOf t).length + 300))
    (hroom : P.allocator = none →
      (textOf t).length + (padded padding (numeral 10 false value)).length + 1 ≤ t.s.v.cap) :
    ∃ t', strAppendDecU32 t value padding = .ret (stSuccess, t') ∧
      textOf t' = textOf t ++ (padded padding (numeral 10 false value)).map some ∧ Terminated t' := by
  obtain ⟨b, sl, R⟩ := h.rep
  have hres := dec_res R (maxchars := 10) (value := value) (padding := padding) (by decide) (by decide)
    (by decide) (Nat.lt_of_lt_of_le hv (by decide)) (by omega) hp
  rw [sabsOf_text] at hres
  have key := (num_obs (hres hf)).1
  rw [sabsOf_text, sabsOf_bytes] at key
  obtain ⟨t', e, h1, h2, _⟩ := key hroom
  exact ⟨t', e, h1, h2⟩

example : ∃ t', strAppendDecU exStr 18446744073709551615 30 = .ret (stSuccess, t') ∧
    textOf t' = textOf exStr ++ (padded 30 (numeral 10 false 18446744073709551615)).map some ∧ Terminated t' := by
  obtain ⟨t', h1, h2, h3, _⟩ := C32_decimal (value := 18446744073709551615) (padding := 30) exStr_reach
    (by decide) (by decide) (by show _ < _; decide +kernel) (by decide)
  exact ⟨t', h1, h2, h3⟩
example : (strAppendDecU exStr 1234567 9).bind (fun r => .ret (r.1, textOf r.2)) =
    .ret (stSuccess, (chars "aB@c001234567".toList).map some) := by decide +kernel
example : ∃ t', strAppendDecU32 exFStr 42 0 = .ret (stSuccess, t') ∧
    textOf t' = textOf exFStr ++ (padded 0 (numeral 10 false 42)).map some ∧ Terminated t' :=
  C32_decimal_32 exFStr_reach (by decide) (by decide) (by show _ < _; decide +kernel)
    (fun _ => by decide +kernel)

/-! ## C33: unsigned hexadecimal -/

/-- C33: for every 64-bit value, every padding and both letter cases, appending to a string with room succeeds
and adds exactly the padded hexadecimal numeral; a string whose storage suffices keeps it. -/
theorem C33_hexadecimal {P : Params} {t : Str} (h : SReach P t) {value padding : Nat} (upper : Bool)
    (hv : value < 18446744073709551616) (hp : padding ≤ 255) (hf : SFits ((textOf t).length + 300))
    (hc : t.s.v.cap < 18446744073709551616)
    (hroom : P.allocator = none →
      (textOf t).length + (padded padding (numeral 16 upper value)).length + 1 ≤ t.s.v.cap) :
    ∃ t', strAppendHexU t value padding upper = .ret (stSuccess, t') ∧
      textOf t' = textOf t ++ (padded padding (numeral 16 upper value)).map some ∧ Terminated t' ∧
      ((textOf t).length + (padded padding (numeral 16 upper value)).length + 1 ≤ t.s.v.cap →
        t'.s.v.cap = t.s.v.cap) := by
  obtain ⟨b, sl, R⟩ := h.rep
  have hres := hexU_res R hv hp
  rw [sabsOf_text, sabsOf_bytes] at hres
  have key := (num_obs (hres hf hc upper)).1
  rw [sabsOf_text, sabsOf_bytes] at key
  exact key hroom

/-- C33 for the variant used on 32-bit targets. -/
theorem C33_hexadecimal_32 {P : Params} {t : Str} (h : SReach P t) {value padding : Nat} (upper : Bool)
    (hv : value < 4294967296) (hp : padding ≤ 255) (hf : SFits ((textOf t).length + 300))
    (hc : t.s.v.cap < 18446744073709551616)
    (hroom : P.allocator = none →
      (textOf t).length + (padded padding (numeral 16 upper value)).length + 1 ≤ t.s.v.cap) :
    ∃ t', strAppendHexU32 t value padding upper = .ret (stSuccess, t') ∧
      textOf t' = textOf t ++ (padded padding (numeral 16 upper value)).map some ∧ Terminated t' := by
  obtain ⟨b, sl, R⟩ := h.rep
  have hres := hex_res R (nibbles := 8) (value := value) (padding := padding) (by decide)
    (Nat.lt_of_lt_of_le hv (by decide)) hp
  rw [sabsOf_text, sabsOf_bytes] at hres
  have key := (num_obs (hres hf hc upper)).1
  rw [sabsOf_text, sabsOf_bytes] at key
  obtain ⟨t', e, h1, h2, _⟩ := key hroom
  exact ⟨t', e, h1, h2⟩

example : ∃ t', strAppendHexU exStr 0xdeadbeefcafe 40 true = .ret (stSuccess, t') ∧
    textOf t' = textOf exStr ++ (padded 40 (numeral 16 true 0xdeadbeefcafe)).map some ∧ Terminated t' := by
  obtain ⟨t', h1, h2, h3, _⟩ := C33_hexadecimal (value := 0xdeadbeefcafe) (padding := 40) exStr_reach true
    (by decide) (by decide) (by show _ < _; decide +kernel) (by decide) (by decide)
  exact ⟨t', h1, h2, h3⟩
example : (strAppendHexU exStr 0xbeef 6 false).bind (fun r => .ret (r.1, textOf r.2)) =
    .ret (stSuccess, (chars "aB@c00beef".toList).map some) := by decide +kernel
example : ∃ t', strAppendHexU32 exFStr 0xA9 2 true = .ret (stSuccess, t') ∧
    textOf t' = textOf exFStr ++ (padded 2 (numeral 16 true 0xA9)).map some ∧ Terminated t' :=
  C33_hexadecimal_32 exFStr_reach true (by decide) (by decide) (by show _ < _; decide +kernel) (by decide)
    (fun _ => by decide +kernel)

/-! ## C34: signed numbers -/

/-- C34: for every signed 64-bit value, padding, sign option and prefix view with characters `x`, appending to
a string with room adds the sign, the prefix, and the padded magnitude. -/
theorem C34_signed_decimal {P : Params} {t : Str} (h : SReach P t) (value : BitVec 64) {padding : Nat}
    (forceSign : Bool) {pre : Option View} {x : List Byte} (hx : PrefixShows pre x) (hp : padding ≤ 255)
    (hf : SFits ((textOf t).length + x.length + 301)) (hc : t.s.v.cap < 18446744073709551616)
    (hroom : P.allocator = none →
      (textOf t).length + (signPrefix value.toInt forceSign x ++
        padded padding (numeral 10 false value.toInt.natAbs)).length + 1 ≤ t.s.v.cap) :
    ∃ t', strAppendDecS t value padding forceSign pre = .ret (stSuccess, t') ∧
      textOf t' = textOf t ++ (signPrefix value.toInt forceSign x ++
        padded padding (numeral 10 false value.toInt.natAbs)).map some ∧ Terminated t' := by
  obtain ⟨b, sl, R⟩ := h.rep
  have hres := decS_res R value hp forceSign hx
  rw [sabsOf_text, sabsOf_bytes] at hres
  have key := (app_obs (hres hf hc)).1
  rw [sabsOf_text, sabsOf_bytes] at key
  exact key hroom

theorem C34_signed_hexadecimal {P : Params} {t : Str} (h : SReach P t) (value : BitVec 64) {padding : Nat}
    (upper forceSign : Bool) {pre : Option View} {x : List Byte} (hx : PrefixShows pre x) (hp : padding ≤ 255)
    (hf : SFits ((textOf t).length + x.length + 301)) (hc : t.s.v.cap < 18446744073709551616)
    (hroom : P.allocator = none →
      (textOf t).length + (signPrefix value.toInt forceSign x ++
        padded padding (numeral 16 upper value.toInt.natAbs)).length + 1 ≤ t.s.v.cap) :
    ∃ t', strAppendHexS t value padding upper forceSign pre = .ret (stSuccess, t') ∧
      textOf t' = textOf t ++ (signPrefix value.toInt forceSign x ++
        padded padding (numeral 16 upper value.toInt.natAbs)).map some ∧ Terminated t' := by
  obtain ⟨b, sl, R⟩ := h.rep
  have hres := hexS_res R value hp upper forceSign hx
  rw [sabsOf_text, sabsOf_bytes] at hres
  have key := (app_obs (hres hf hc)).1
  rw [sabsOf_text, sabsOf_bytes] at key
  exact key hroom

example : ∃ t', strAppendDecS exStr (BitVec.ofInt 64 (-9223372036854775808)) 25 false
      (some (litView (chars "0d".toList))) = .ret (stSuccess, t') ∧
    textOf t' = textOf exStr ++ (chars "-0d0000009223372036854775808".toList).map some ∧ Terminated t' := by
  have e : chars "-0d0000009223372036854775808".toList =
      signPrefix (BitVec.ofInt 64 (-9223372036854775808)).toInt false (chars "0d".toList) ++
        padded 25 (numeral 10 false (BitVec.ofInt 64 (-9223372036854775808)).toInt.natAbs) := by decide +kernel
  rw [e]
  exact C34_signed_decimal (padding := 25) exStr_reach (BitVec.ofInt 64 (-9223372036854775808)) false
    (pre := some (litView (chars "0d".toList))) (x := chars "0d".toList)
    (by exact ⟨by decide, by decide⟩) (by decide) (by show _ < _; decide +kernel) (by decide) (by decide)
example : ∃ t', strAppendHexS exStr 0x1F#64 0 true true (some (litView (chars "0x".toList))) =
      .ret (stSuccess, t') ∧ textOf t' = textOf exStr ++ (chars "+0x1F".toList).map some ∧ Terminated t' := by
  have e : chars "+0x1F".toList = signPrefix (0x1F#64).toInt true (chars "0x".toList) ++
      padded 0 (numeral 16 true (0x1F#64).toInt.natAbs) := by decide +kernel
  rw [e]
  exact C34_signed_hexadecimal (padding := 0) exStr_reach 0x1F#64 true true
    (pre := some (litView (chars "0x".toList))) (x := chars "0x".toList)
    (by exact ⟨by decide, by decide⟩) (by decide) (by show _ < _; decide +kernel) (by decide) (by decide)

/-! ## C35: no room -/

/-- C35, unsigned: if a fixed-capacity string has no room for the formatted number, the call fails with
`INSUFFICIENT_BUFFER_SIZE` and text, length, terminator and capacity are unchanged. -/
theorem C35_unsigned_full {P : Params} {t : Str} (h : SReach P t) (hd : P.allocator = none)
    {value padding : Nat} (hv : value < 18446744073709551616) (hp : padding ≤ 255)
    (hf : SFits ((textOf t).length + 300)) (hc : t.s.v.cap < 18446744073709551616) :
    (t.s.v.cap < (textOf t).length + (padded padding (numeral 10 false value)).length + 1 →
      ∃ t', strAppendDecU t value padding = .ret (stInsufficient, t') ∧ textOf t' = textOf t ∧
        strGetSize t' = (textOf t).length ∧ Terminated t' ∧ t'.s.v.cap = t.s.v.cap) ∧
    ∀ upper, t.s.v.cap < (textOf t).length + (padded padding (numeral 16 upper value)).length + 1 →
      ∃ t', strAppendHexU t value padding upper = .ret (stInsufficient, t') ∧ textOf t' = textOf t ∧
        strGetSize t' = (textOf t).length ∧ Terminated t' ∧ t'.s.v.cap = t.s.v.cap := by
  obtain ⟨b, sl, R⟩ := h.rep
  have hres1 := decU_res R hv hp
  have hres2 := hexU_res R hv hp
  rw [sabsOf_text] at hres1
  rw [sabsOf_text, sabsOf_bytes] at hres2
  refine ⟨fun hlt => ?_, fun upper hlt => ?_⟩
  · have key := (num_obs (hres1 hf)).2
    rw [sabsOf_text, sabsOf_bytes] at key
    exact key hd hlt
  · have key := (num_obs (hres2 hf hc upper)).2
    rw [sabsOf_text, sabsOf_bytes] at key
    exact key hd hlt

/-- C35, signed: if a fixed-capacity string has no room, the call fails and leaves a terminated string within
the buffer whose text is the old text followed by some beginning of the output.
Missing for the full claim: that this beginning is empty; see `C35_negation`. -/
theorem C35_signed_full_partial {P : Params} {t : Str} (h : SReach P t) (hd : P.allocator = none)
    (value : BitVec 64) {padding : Nat} (forceSign : Bool) {pre : Option View} {x : List Byte}
    (hx : PrefixShows pre x) (hp : padding ≤ 255)
    (hf : SFits ((textOf t).length + x.length + 301)) (hc : t.s.v.cap < 18446744073709551616) :
    (t.s.v.cap < (textOf t).length + (signPrefix value.toInt forceSign x ++
        padded padding (numeral 10 false value.toInt.natAbs)).length + 1 →
      ∃ t' y, y <+: signPrefix value.toInt forceSign x ++
          padded padding (numeral 10 false value.toInt.natAbs) ∧
        strAppendDecS t value padding forceSign pre = .ret (stInsufficient, t') ∧
        textOf t' = textOf t ++ y.map some ∧ Terminated t' ∧ t'.s.v.cap = t.s.v.cap) ∧
    ∀ upper, (t.s.v.cap < (textOf t).length + (signPrefix value.toInt forceSign x ++
        padded padding (numeral 16 upper value.toInt.natAbs)).length + 1 →
      ∃ t' y, y <+: signPrefix value.toInt forceSign x ++
          padded padding (numeral 16 upper value.toInt.natAbs) ∧
        strAppendHexS t value padding upper forceSign pre = .ret (stInsufficient, t') ∧
        textOf t' = textOf t ++ y.map some ∧ Terminated t' ∧ t'.s.v.cap = t.s.v.cap) := by
  obtain ⟨b, sl, R⟩ := h.rep
  have hres1 := decS_res R value hp forceSign hx
  rw [sabsOf_text, sabsOf_bytes] at hres1
  refine ⟨fun hlt => ?_, fun upper hlt => ?_⟩
  · have key := (app_obs (hres1 hf hc)).2
    rw [sabsOf_text, sabsOf_bytes] at key
    exact key hd hlt
  · have hres2 := hexS_res R value hp upper forceSign hx
    rw [sabsOf_text, sabsOf_bytes] at hres2
    have key := (app_obs (hres2 hf hc)).2
    rw [sabsOf_text, sabsOf_bytes] at key
    exact key hd hlt

/-- C35 is false for signed numbers: appending -123 to "ab" in a buffer of five bytes fails and leaves
"ab-". -/
theorem C35_negation : ∃ (P : Params) (t t' : Str), SReach P t ∧ P.allocator = none ∧
    strAppendDecS t (BitVec.ofInt 64 (-123)) 0 false none = .ret (stInsufficient, t') ∧
    textOf t = (chars "ab".toList).map some ∧ textOf t' = (chars "ab-".toList).map some := by
  have h : ∃ t', strAppendDecS exFStr (BitVec.ofInt 64 (-123)) 0 false none = .ret (stInsufficient, t') ∧
      textOf t' = (chars "ab-".toList).map some :=
    ⟨⟨⟨{ exFStr.s.v with size := 4, data := some ⟨9, (chars "ab-".toList).map some ++ [some 0#8, none]⟩ },
      exSW⟩, true⟩, by cbv, by decide +kernel⟩
  obtain ⟨t', h1, h2⟩ := h
  exact ⟨exFSP, exFStr, t', exFStr_reach, rfl, h1, by decide +kernel, h2⟩

example : ∃ t', strAppendHexU exFStr 0xABCDEF 0 true = .ret (stInsufficient, t') ∧
    textOf t' = textOf exFStr ∧ strGetSize t' = (textOf exFStr).length ∧ Terminated t' ∧ t'.s.v.cap = 5 :=
  (C35_unsigned_full (value := 0xABCDEF) (padding := 0) exFStr_reach rfl (by decide) (by decide)
    (by show _ < _; decide +kernel) (by decide)).2 true (by decide +kernel)
example : ∃ t' y, y <+: signPrefix (99#64).toInt true [] ++ padded 0 (numeral 10 false (99#64).toInt.natAbs) ∧
    strAppendDecS exFStr 99#64 0 true none = .ret (stInsufficient, t') ∧
    textOf t' = textOf exFStr ++ y.map some ∧ Terminated t' ∧ t'.s.v.cap = 5 :=
  (C35_signed_full_partial exFStr_reach rfl 99#64 (padding := 0) true (pre := none) (x := []) rfl (by decide)
    (by show _ < _; decide +kernel) (by decide)).1 (by decide +kernel)

/-! ## C36: printf-style append -/

/-- C36, what holds. (1) A text that fits is appended exactly. (2) A text that does not fit a dynamic string
with a growth factor of at least 2 is appended exactly, if the second formatter call produces it again.
(3) If the formatter reports an error, or the text does not fit a fixed buffer, the call fails and the
characters and the length of the string are unchanged.
Missing for the full claim: growth factor 1, the terminator after a failure, formatters whose second call
differs (`C36_negation_*`), and remaining capacities of 2^31 and more. -/
theorem C36_format_partial {P : Params} {t : Str} (h : SReach P t) {fmt : Fmt}
    (hc : t.s.v.cap < 18446744073709551616) :
    (∀ x, fmt 0 = .text x → (textOf t).length + x.length + 1 ≤ t.s.v.cap →
      SFits ((textOf t).length + x.length + 1) → t.s.v.cap - ((textOf t).length + 1) < 2147483648 →
      ∃ t', strAppendFormat t fmt = .ret (stSuccess, t') ∧ textOf t' = textOf t ++ x.map some ∧
        Terminated t' ∧ t'.s.v.cap = t.s.v.cap) ∧
    (∀ x, fmt 0 = .text x → fmt 1 = .text x → t.s.v.cap < (textOf t).length + x.length + 1 →
      SFits ((textOf t).length + x.length + 1) → x.length < 2147483648 → P.allocator ≠ none →
      2 ≤ P.growth →
      ∃ t', strAppendFormat t fmt = .ret (stSuccess, t') ∧ textOf t' = textOf t ++ x.map some ∧
        Terminated t') ∧
    (∀ st, ((∃ x, fmt 0 = .error x ∧ st = stFailed) ∨
        (∃ x, fmt 0 = .text x ∧ x.length < 2147483648 ∧ P.allocator = none ∧ st = stInsufficient ∧
          t.s.v.cap < (textOf t).length + x.length + 1 ∧ SFits ((textOf t).length + x.length + 1))) →
      ∃ t', strAppendFormat t fmt = .ret (st, t') ∧ textOf t' = textOf t ∧
        strGetSize t' = strGetSize t ∧ t'.s.v.cap = t.s.v.cap) := by
  obtain ⟨b, sl, R⟩ := h.rep
  refine ⟨fun x hx hle hf h31 => ?_, fun x hx hx1 hlt hf h31 hd hg => ?_, fun st hcase => ?_⟩
  · have key := format_fits R hx
    rw [sabsOf_text, sabsOf_bytes] at key
    obtain ⟨t', b', sl', e, R'⟩ := key hle hf hc h31
    exact ⟨t', e, R'.textOf, R'.terminated, R'.rep.cap⟩
  · have key := format_grows R hx hx1
    rw [sabsOf_text, sabsOf_bytes] at key
    obtain ⟨t', b', sl', e, R'⟩ := key hlt hf h31 hd hg
    exact ⟨t', e, R'.textOf, R'.terminated⟩
  · have key := format_fails R (fmt := fmt) (st := st)
    have hsm := R.small
    have hgs := R.getSize
    rw [sabsOf_text, sabsOf_bytes] at key
    rw [sabsOf_text] at hsm hgs
    obtain ⟨t', c0, b', sl', e, R'⟩ := key hc hcase
    obtain ⟨o1, o2, o3⟩ := unterminated_obs R' (by omega)
    exact ⟨t', e, o1, o2.trans hgs.symm, o3⟩

/-- A formatter that produces the same text whenever it is called. -/
def fmtConst (x : List Byte) : Fmt := fun _ => .text x

/-- Parameters of a dynamic string with growth factor 1. -/
def exG1P : Params := ⟨some 0, 1, 0, 1, false⟩
/-- Thirty-two times "a" in 33 bytes of storage. -/
def exG1Str : Str :=
  ⟨⟨{ allocator := some 0, growth := 1, shrink := 0, size := 33, cap := 33, esz := 1, hasDtor := false,
      data := some ⟨0, List.replicate 32 (some 97#8) ++ [some 0#8]⟩ },
    ⟨fun _ => stSuccess, 1, 1, [.alloc 0 0 1 33]⟩⟩, false⟩

theorem exG1Str_reach : SReach exG1P exG1Str :=
  SReach.dup (P := exG1P) (w := exSW) (st := stSuccess) (w' := exG1Str.s.w) (x := List.replicate 32 (some 97#8))
    (cap := 0) (a := 0) ⟨rfl, rfl⟩ (fun _ => failed_success) ⟨rfl, by decide, by decide, rfl, rfl⟩ (by decide)
    (by show _ < _; decide) (by cbv)

/-- C36 is false for growth factor 1: the second formatter call is told that one byte is left, so the call
succeeds and the new characters are a NUL and indeterminate bytes instead of "xyz". -/
theorem C36_negation_growth : ∃ (P : Params) (t t' : Str), SReach P t ∧
    strAppendFormat t (fmtConst (chars "xyz".toList)) = .ret (stSuccess, t') ∧
    textOf t' = textOf t ++ [some 0#8, none, none] := by
  have h : ∃ t', strAppendFormat exG1Str (fmtConst (chars "xyz".toList)) = .ret (stSuccess, t') ∧
      textOf t' = textOf exG1Str ++ [some 0#8, none, none] :=
    ⟨⟨⟨{ exG1Str.s.v with size := 36, cap := 36, data := some ⟨1, List.replicate 32 (some 97#8) ++
        [some 0#8, none, none, some 0#8]⟩ },
      ⟨fun _ => stSuccess, 2, 2, [.alloc 0 0 1 33, .realloc 0 0 1 1 36]⟩⟩, false⟩, by cbv, by decide +kernel⟩
  obtain ⟨t', h1, h2⟩ := h
  exact ⟨exG1P, exG1Str, t', exG1Str_reach, h1, h2⟩

/-- C36 is false for failures: a text that does not fit a fixed buffer overwrites the terminator. Appending
"xyz" to "ab" in a buffer of five bytes fails and the bytes are "abxy" and NUL, with the length still 2. -/
theorem C36_negation_failure : ∃ (P : Params) (t t' : Str), SReach P t ∧
    strAppendFormat t (fmtConst (chars "xyz".toList)) = .ret (stInsufficient, t') ∧
    strGetSize t' = 2 ∧ storage t' = (chars "abxy".toList).map some ++ [some 0#8] ∧ ¬ Terminated t' := by
  have h : ∃ t', strAppendFormat exFStr (fmtConst (chars "xyz".toList)) = .ret (stInsufficient, t') ∧
      strGetSize t' = 2 ∧ storage t' = (chars "abxy".toList).map some ++ [some 0#8] :=
    ⟨⟨⟨{ exFStr.s.v with data := some ⟨9, (chars "abxy".toList).map some ++ [some 0#8]⟩ }, exSW⟩, true⟩,
      by cbv, by decide +kernel, by decide +kernel⟩
  obtain ⟨t', h1, h2, h3⟩ := h
  refine ⟨exFSP, exFStr, t', exFStr_reach, h1, h2, h3, ?_⟩
  rintro ⟨_, h4⟩
  rw [h2, h3] at h4
  exact absurd h4 (by decide)

/-- C36 is false because the argument list is used twice: if the second formatter call produces something
else (the C standard leaves the list indeterminate after the first call), that is what gets appended.
Here the first call says forty times "x" and the second one "?". -/
theorem C36_negation_arguments : ∃ (P : Params) (t t' : Str) (fmt : Fmt), SReach P t ∧ 2 ≤ P.growth ∧
    fmt 0 = .text (List.replicate 40 120#8) ∧ strAppendFormat t fmt = .ret (stSuccess, t') ∧
    (textOf t').length = (textOf t).length + 40 ∧ (textOf t')[4]? = some (some 63#8) := by
  have h : ∃ t', strAppendFormat exStr
        (fun k => if k = 0 then .text (List.replicate 40 120#8) else .text [63#8]) = .ret (stSuccess, t') ∧
      (textOf t').length = (textOf exStr).length + 40 ∧ (textOf t')[4]? = some (some 63#8) :=
    ⟨⟨⟨{ exStr.s.v with size := 45, cap := 90, data := some ⟨1, (chars ['a', 'B', '@', 'c']).map some ++
        [some 63#8, some 0#8] ++ List.replicate 26 (some 120#8) ++ [some 0#8] ++ List.replicate 11 none ++
        [some 0#8] ++ List.replicate 45 none⟩ },
      ⟨fun _ => stSuccess, 2, 2, [.alloc 0 0 1 33, .realloc 0 0 1 1 90]⟩⟩, false⟩, by cbv, by decide +kernel,
      by decide +kernel⟩
  obtain ⟨t', h1, h2, h3⟩ := h
  exact ⟨exSP, exStr, t', _, exStr_reach, by decide, rfl, h1, h2, h3⟩

example : ∃ t', strAppendFormat exStr (fmtConst (chars "hello".toList)) = .ret (stSuccess, t') ∧
    textOf t' = textOf exStr ++ (chars "hello".toList).map some ∧ Terminated t' ∧ t'.s.v.cap = 33 :=
  (C36_format_partial exStr_reach (by decide)).1 _ rfl (by decide +kernel) (by show _ < _; decide +kernel)
    (by decide +kernel)
example : ∃ t', strAppendFormat exStr (fmtConst (List.replicate 99 7#8)) = .ret (stSuccess, t') ∧
    textOf t' = textOf exStr ++ (List.replicate 99 7#8).map some ∧ Terminated t' :=
  (C36_format_partial exStr_reach (by decide)).2.1 _ rfl rfl (by decide +kernel) (by show _ < _; decide +kernel)
    (by decide) (by decide) (by decide)
example : ∃ t', strAppendFormat exFStr (fmtConst (chars "xyz".toList)) = .ret (stInsufficient, t') ∧
    textOf t' = textOf exFStr ∧ strGetSize t' = strGetSize exFStr ∧ t'.s.v.cap = 5 :=
  (C36_format_partial exFStr_reach (by decide)).2.2 _
    (Or.inr ⟨_, rfl, by decide, rfl, rfl, by decide +kernel, by show _ < _; decide +kernel⟩)

/-! ## C37: absolute value -/

/-- C37: the helper is defined for every signed 64-bit number and returns its absolute value. -/
theorem C37_abs_exact (x : BitVec 64) : ∃ m, absI64 x = .ret m ∧ m.toNat = x.toInt.natAbs := absI64_eq x

example : absI64 (BitVec.ofInt 64 (-9223372036854775808)) = .ret 9223372036854775808#64 := by decide +kernel
example : absI64 (BitVec.ofInt 64 (-5)) = .ret 5#64 := by decide +kernel

/-! ## Strings after formatting are strings -/

/-- All theorems about strings (C18 - C31) apply to strings after number formatting. -/
example : ∃ t', SReach exSP t' ∧ textOf t' = (chars "aB@c-12".toList).map some := by
  have h : ∃ t', strAppendDecS exStr (BitVec.ofInt 64 (-12)) 0 false none = .ret (stSuccess, t') ∧
      textOf t' = (chars "aB@c-12".toList).map some :=
    ⟨⟨⟨{ exStr.s.v with size := 8, cap := 12, data := some ⟨1, (chars "aB@c-12".toList).map some ++
        [some 0#8] ++ List.replicate 4 none⟩ },
      ⟨fun _ => stSuccess, 2, 2, [.alloc 0 0 1 33, .realloc 0 0 1 1 12]⟩⟩, false⟩, by cbv, by decide +kernel⟩
  obtain ⟨t', h1, h2⟩ := h
  exact ⟨t', SReach.decS (pre := none) (x := []) exStr_reach (by decide) rfl (by show _ < _; decide +kernel) (by decide) h1, h2⟩

end Zy
