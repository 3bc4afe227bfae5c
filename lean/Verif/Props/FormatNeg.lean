import Verif.Props.Format
import Verif.Lemmas.FormatNeg

/-!
# Formatting without enough room: the exact outcome

`C35_negation` and the `C36_negation_*` theorems of `Props/Format` show single runs on which the code
disagrees with the property. The theorems here say what the code does on every input, and from that, on which
inputs the property fails. Besides the specification of `Spec/Format` they use `fittingPieces n ps` (what is
written of the pieces `ps` if writing stops in front of the first that does not fit into `n` characters),
`written n x` (what a formatter writes into room for `n` characters and a NUL) and `asInt32`.
-/

namespace Zy

open Spec

/-! ## C35 -/

/-- C35, the exact outcome for signed numbers in a fixed buffer: sign, prefix and digits are three pieces,
and the pieces in front of the first one that does not fit stay in the string. -/
theorem C35_signed_exact {P : Params} {t : Str} (h : SReach P t) (hd : P.allocator = none)
    (value : BitVec 64) {padding : Nat} (forceSign : Bool) {pre : Option View} {x : List Byte}
    (hx : PrefixShows pre x) (hp : padding ≤ 255)
    (hf : SFits ((textOf t).length + x.length + 301)) (hc : t.s.v.cap < 18446744073709551616) :
    (∃ t', strAppendDecS t value padding forceSign pre = .ret
        (if (textOf t).length + (signPrefix value.toInt forceSign x ++
          padded padding (numeral 10 false value.toInt.natAbs)).length + 1 ≤ t.s.v.cap
         then stSuccess else stInsufficient, t') ∧
      textOf t' = textOf t ++ (fittingPieces (t.s.v.cap - ((textOf t).length + 1))
        [signOf value.toInt forceSign, x, padded padding (numeral 10 false value.toInt.natAbs)]).map some ∧
      Terminated t' ∧ t'.s.v.cap = t.s.v.cap) ∧
    ∀ upper, ∃ t', strAppendHexS t value padding upper forceSign pre = .ret
        (if (textOf t).length + (signPrefix value.toInt forceSign x ++
          padded padding (numeral 16 upper value.toInt.natAbs)).length + 1 ≤ t.s.v.cap
         then stSuccess else stInsufficient, t') ∧
      textOf t' = textOf t ++ (fittingPieces (t.s.v.cap - ((textOf t).length + 1))
        [signOf value.toInt forceSign, x, padded padding (numeral 16 upper value.toInt.natAbs)]).map some ∧
      Terminated t' ∧ t'.s.v.cap = t.s.v.cap := by
  obtain ⟨b, sl, R⟩ := h.rep
  have key : ∀ (number : Str → Nat → Out (Status × Str)) (num : Nat → List Byte),
      (∀ t' a' b' sl' m, SRep P t' a' b' sl' → a'.bytes = t.s.v.cap →
        a'.text.length ≤ (textOf t).length + x.length + 1 → m < 18446744073709551616 →
        NumRes P (number t' m) a' ((num m).map some)) →
      ∃ t', strAppendSigned number t value forceSign pre = .ret
          (if (textOf t).length + (signPrefix value.toInt forceSign x ++ num value.toInt.natAbs).length + 1 ≤
            t.s.v.cap then stSuccess else stInsufficient, t') ∧
        textOf t' = textOf t ++ (fittingPieces (t.s.v.cap - ((textOf t).length + 1))
          [signOf value.toInt forceSign, x, num value.toInt.natAbs]).map some ∧
        Terminated t' ∧ t'.s.v.cap = t.s.v.cap := by
    intro number num hnum
    have := signed_steps R (number := number) (num := fun m => (num m).map some) value forceSign hx
      (by rw [sabsOf_text]; exact hf) hd
      (fun t' a' b' sl' m R' hb' hl hm => NumRes.steps (hnum t' a' b' sl' m R' (by rw [hb', sabsOf_bytes])
        (by rw [sabsOf_text] at hl; exact hl) hm) hd (by have := R'.rep.len; simpa using this))
    unfold StepRes at this
    obtain ⟨t', b', sl', e, R'⟩ := this
    refine ⟨t', ?_, ?_, R'.terminated, R'.rep.cap⟩
    · rw [e, sabsOf_text, sabsOf_bytes]
      have : (List.flatten [(signOf value.toInt forceSign).map (some : Byte → Cell Byte), x.map some,
          (num value.toInt.natAbs).map some]).length =
          (signPrefix value.toInt forceSign x ++ num value.toInt.natAbs).length := by
        simp [signPrefix, signOf]
      simp only [this]
    · rw [R'.textOf]
      simp only [sabsOf_text, sabsOf_bytes]
      exact congrArg _ (fittingPieces_map (xs := [signOf value.toInt forceSign, x, num value.toInt.natAbs]))
  refine ⟨?_, fun upper => ?_⟩
  · exact key _ (fun m => padded padding (numeral 10 false m))
      (fun t' a' b' sl' m R' _ hl hm => decU_res R' hm hp (hf.mono (by omega)))
  · exact key _ (fun m => padded padding (numeral 16 upper m))
      (fun t' a' b' sl' m R' hb' hl hm => hexU_res R' hm hp (hf.mono (by omega)) (by omega) upper)

/-- C35 fails for every signed number that is written with a sign, if the sign fits the buffer and the number
does not: the call fails and the string has got longer. -/
theorem C35_negation_all {P : Params} {t : Str} (h : SReach P t) (hd : P.allocator = none)
    (value : BitVec 64) {padding : Nat} (forceSign : Bool) {pre : Option View} {x : List Byte}
    (hx : PrefixShows pre x) (hp : padding ≤ 255)
    (hf : SFits ((textOf t).length + x.length + 301)) (hc : t.s.v.cap < 18446744073709551616)
    (hsign : value.toInt < 0 ∨ forceSign = true) (hroom : (textOf t).length + 2 ≤ t.s.v.cap) :
    (t.s.v.cap < (textOf t).length + (signPrefix value.toInt forceSign x ++
        padded padding (numeral 10 false value.toInt.natAbs)).length + 1 →
      ∃ t', strAppendDecS t value padding forceSign pre = .ret (stInsufficient, t') ∧
        strGetSize t < strGetSize t') ∧
    ∀ upper, t.s.v.cap < (textOf t).length + (signPrefix value.toInt forceSign x ++
        padded padding (numeral 16 upper value.toInt.natAbs)).length + 1 →
      ∃ t', strAppendHexS t value padding upper forceSign pre = .ret (stInsufficient, t') ∧
        strGetSize t < strGetSize t' := by
  obtain ⟨h1, h2⟩ := C35_signed_exact h hd value (padding := padding) forceSign hx hp hf hc
  obtain ⟨b, sl, R⟩ := h.rep
  have hsz : (textOf t).length = strGetSize t := R.terminated.1
  have hs : ∃ c, signOf value.toInt forceSign = [c] := by
    unfold signOf
    rcases hsign with h | h
    · rw [if_pos h]; exact ⟨_, rfl⟩
    · by_cases hn : value.toInt < 0
      · rw [if_pos hn]; exact ⟨_, rfl⟩
      · rw [if_neg hn, if_pos h]; exact ⟨_, rfl⟩
  obtain ⟨c, hs⟩ := hs
  have fin : ∀ {t' : Str} {num : List Byte},
      textOf t' = textOf t ++ (fittingPieces (t.s.v.cap - ((textOf t).length + 1))
        [signOf value.toInt forceSign, x, num]).map some → Terminated t' → strGetSize t < strGetSize t' := by
    intro t' num ht hT
    rw [← hsz, ← hT.1, ht, hs]
    unfold fittingPieces
    rw [if_pos (by simp; omega)]
    simp
  refine ⟨fun hlt => ?_, fun upper hlt => ?_⟩
  · obtain ⟨t', e, ht, hT, _⟩ := h1
    rw [if_neg (by omega)] at e
    exact ⟨t', e, fin ht hT⟩
  · obtain ⟨t', e, ht, hT, _⟩ := h2 upper
    rw [if_neg (by omega)] at e
    exact ⟨t', e, fin ht hT⟩

example : ∃ t', strAppendDecS exFStr (BitVec.ofInt 64 (-123)) 0 false none = .ret (stInsufficient, t') ∧
    strGetSize exFStr < strGetSize t' :=
  (C35_negation_all exFStr_reach rfl (BitVec.ofInt 64 (-123)) (padding := 0) false (pre := none) (x := []) rfl
    (by decide) (by show _ < _; decide +kernel) (by decide) (Or.inl (by decide)) (by decide +kernel)).1
    (by decide +kernel)
/-- Room for two more characters: "+" stays, the prefix "0x" does not. -/
example : ∃ t', strAppendHexS exFStr 7#64 0 true true (some (litView (chars "0x".toList))) =
      .ret (stInsufficient, t') ∧ textOf t' = (chars "ab+".toList).map some ∧ Terminated t' := by
  obtain ⟨t', e, ht, hT, _⟩ := (C35_signed_exact exFStr_reach rfl 7#64 (padding := 0) true
    (pre := some (litView (chars "0x".toList))) (x := chars "0x".toList) (by exact ⟨by decide, by decide⟩)
    (by decide) (by show _ < _; decide +kernel) (by decide)).2 true
  rw [if_neg (by decide +kernel)] at e
  refine ⟨t', e, ?_, hT⟩
  rw [ht]
  decide +kernel

/-! ## C36 -/

/-- C36, the exact outcome when the formatter does not report an error. If the text is not longer than the
low 32 bits (as a signed number) of the remaining capacity, it is appended. Otherwise the string is resized
by the length of the first text, and what the *second* call writes into what is *then* the rest of the
capacity is what one finds there; `D` are bytes of the old storage. -/
theorem C36_format_exact {P : Params} {t : Str} (h : SReach P t) (hc : t.s.v.cap < 18446744073709551616)
    {fmt : Fmt} {x y : List Byte} (hx : fmt 0 = .text x) (hy : fmt 1 = .text y)
    (hx31 : x.length < 2147483648) (hy31 : y.length < 2147483648)
    (hf : SFits ((textOf t).length + x.length + 1)) :
    ((x.length : Int) ≤ asInt32 (t.s.v.cap - ((textOf t).length + 1)) →
      ∃ t', strAppendFormat t fmt = .ret (stSuccess, t') ∧ textOf t' = textOf t ++ x.map some ∧
        Terminated t' ∧ t'.s.v.cap = t.s.v.cap) ∧
    (asInt32 (t.s.v.cap - ((textOf t).length + 1)) < x.length →
      (textOf t).length + x.length + 1 ≤ t.s.v.cap ∨ P.allocator.isSome →
      ∃ t' D, strAppendFormat t fmt = .ret (stSuccess, t') ∧
        strGetSize t' = (textOf t).length + x.length ∧
        (storage t').take ((textOf t).length + x.length + 1) = textOf t ++
          (written (t'.s.v.cap - ((textOf t).length + x.length + 1)) y ++ D).take (x.length + 1) ∧
        t'.s.v.cap = (if (textOf t).length + x.length + 1 ≤ t.s.v.cap
          then (if x = [] then t.s.v.cap else trim P t.s.v.cap ((textOf t).length + x.length + 1))
          else ((textOf t).length + x.length + 1) * P.growth)) := by
  obtain ⟨b, sl, R⟩ := h.rep
  have hf' := hf
  unfold SFits at hf'
  have key := format_exact R (by rw [sabsOf_bytes]; exact hc) hx hx31 (by rw [sabsOf_text]; exact hf)
  rw [sabsOf_text, sabsOf_bytes] at key
  refine ⟨fun hle => ?_, fun hlt hroom => ?_⟩
  · obtain ⟨t', b', sl', e, R'⟩ := key.1 hle
    exact ⟨t', e, R'.textOf, R'.terminated, R'.rep.cap⟩
  · obtain ⟨t', D, b', sl', e, hD, R'⟩ := key.2 hlt
      (hroom.imp_right fun h => Option.isSome_iff_ne_none.1 h) hy hy31
    have hcapeq : formatCap P t.s.v.cap (textOf t).length x.length =
        (if (textOf t).length + x.length + 1 ≤ t.s.v.cap
          then (if x = [] then t.s.v.cap else trim P t.s.v.cap ((textOf t).length + x.length + 1))
          else ((textOf t).length + x.length + 1) * P.growth) := by
      unfold formatCap
      simp only [List.length_eq_zero_iff]
    have hl : (textOf t ++ (written (formatCap P t.s.v.cap (textOf t).length x.length -
        ((textOf t).length + x.length + 1)) y ++ D).take (x.length + 1)).length =
        (textOf t).length + x.length + 1 := by
      rw [List.length_append, List.length_take, Nat.min_eq_left hD]; omega
    obtain ⟨o1, o2, o3, _⟩ := storage_of_rep R' (by rw [hl]; omega) (by rw [hl]; omega)
    rw [hl] at o1 o2
    refine ⟨t', D, e, by omega, ?_, by rw [o3, hcapeq]⟩
    rw [o3]
    exact o1

/-- C36, more of what holds: whatever the remaining capacity is (also 2^31 and more), the text is appended
exactly if the second formatter call repeats it and there is room for it twice, or the string has to grow and
the growth factor is at least 2. -/
theorem C36_room_for_two {P : Params} {t : Str} (h : SReach P t) (hc : t.s.v.cap < 18446744073709551616)
    {fmt : Fmt} {x : List Byte} (hx : fmt 0 = .text x) (hy : fmt 1 = .text x)
    (hx31 : x.length < 2147483648) (hf : SFits ((textOf t).length + x.length + 1))
    (hroom : ((textOf t).length + x.length + x.length + 1 ≤ t.s.v.cap ∧
        (P.allocator = none ∨ P.thr = 0 ∨ 2 ≤ P.growth)) ∨
      (t.s.v.cap < (textOf t).length + x.length + 1 ∧ P.allocator.isSome ∧ 2 ≤ P.growth)) :
    ∃ t', strAppendFormat t fmt = .ret (stSuccess, t') ∧ textOf t' = textOf t ++ x.map some ∧
      Terminated t' := by
  obtain ⟨e1, e2⟩ := C36_format_exact h hc hx hy hx31 hx31 hf
  by_cases hle : (x.length : Int) ≤ asInt32 (t.s.v.cap - ((textOf t).length + 1))
  · obtain ⟨t', e, ht, hT, _⟩ := e1 hle
    exact ⟨t', e, ht, hT⟩
  · obtain ⟨t', D, e, hs, hst, hcap⟩ := e2 (by omega) (by
      rcases hroom with h | h
      · exact Or.inl (by omega)
      · exact Or.inr h.2.1)
    have hmul : 2 ≤ P.growth → x.length ≤
        ((textOf t).length + x.length + 1) * P.growth - ((textOf t).length + x.length + 1) := by
      intro hg
      have := Nat.mul_le_mul_left ((textOf t).length + x.length + 1) hg
      omega
    have hx2 : x.length ≤ t'.s.v.cap - ((textOf t).length + x.length + 1) := by
      rw [hcap]
      rcases hroom with ⟨hr, hg⟩ | ⟨hr, _, hg⟩
      · rw [if_pos (by omega)]
        by_cases h0 : x = []
        · have hx0 : x.length = 0 := by rw [h0]; rfl
          rw [hx0]
          exact Nat.zero_le _
        · rw [if_neg h0]
          unfold trim
          split
          · rename_i htr
            have hg : 2 ≤ P.growth := by
              rcases hg with h | h | h
              · simp [h] at htr
              · exact absurd h htr.2.1
              · exact h
            exact Nat.le_trans (hmul hg) (Nat.sub_le_sub_right (Nat.le_max_right _ _) _)
          · omega
      · rw [if_neg (by omega)]
        exact hmul hg
    have hw : (written (t'.s.v.cap - ((textOf t).length + x.length + 1)) x ++ D).take (x.length + 1) =
        x.map some ++ [some 0#8] := by
      unfold written
      rw [List.take_of_length_le hx2, List.take_append_of_le_length (by simp)]
      exact List.take_of_length_le (by simp)
    rw [hw] at hst
    refine ⟨t', e, ?_, ?_⟩
    · unfold textOf
      rw [hs]
      have := congrArg (List.take ((textOf t).length + x.length)) hst
      rw [List.take_take, Nat.min_eq_left (by omega), ← List.append_assoc,
        List.take_append_of_le_length (by simp)] at this
      rw [this]
      exact List.take_of_length_le (by simp)
    · have hlen : (textOf t).length + x.length + 1 ≤ (storage t').length := by
        have := congrArg List.length hst
        rw [List.length_take] at this
        simp at this
        omega
      constructor
      · unfold textOf
        rw [List.length_take, hs]
        omega
      · have := congrArg (fun l => l[(textOf t).length + x.length]?) hst
        rw [List.getElem?_take_of_lt (by omega)] at this
        rw [hs, this, ← List.append_assoc, List.getElem?_append_right (by simp)]
        simp

/-- C36 fails for every text (without NUL) that is written by the second formatter call, if that call
produces a shorter text, or the string has to grow and the growth factor is 1, or the buffer is fixed and has
no room for the text twice: the call succeeds and the text was not appended. -/
theorem C36_negation_all {P : Params} {t : Str} (h : SReach P t) (hc : t.s.v.cap < 18446744073709551616)
    {fmt : Fmt} {x y : List Byte} (hx : fmt 0 = .text x) (hy : fmt 1 = .text y)
    (hx31 : x.length < 2147483648) (hy31 : y.length < 2147483648)
    (hf : SFits ((textOf t).length + x.length + 1)) (hx0 : 0#8 ∉ x)
    (h2 : asInt32 (t.s.v.cap - ((textOf t).length + 1)) < x.length)
    (hroom : (textOf t).length + x.length + 1 ≤ t.s.v.cap ∨ P.allocator.isSome)
    (hbad : y.length < x.length ∨
      (P.growth = 1 ∧ t.s.v.cap < (textOf t).length + x.length + 1) ∨
      (P.allocator = none ∧ t.s.v.cap < (textOf t).length + x.length + x.length + 1)) :
    ∃ t', strAppendFormat t fmt = .ret (stSuccess, t') ∧ textOf t' ≠ textOf t ++ x.map some := by
  obtain ⟨t', D, e, hs, hst, hcap⟩ := (C36_format_exact h hc hx hy hx31 hy31 hf).2 h2 hroom
  refine ⟨t', e, fun heq => ?_⟩
  have hlen : (textOf t).length + 1 ≤ t.s.v.cap := by
    obtain ⟨b, sl, R⟩ := h.rep
    exact len_cap R
  clear hc hx31 hy31
  have hm : min y.length (t'.s.v.cap - ((textOf t).length + x.length + 1)) < x.length := by
    rcases hbad with h | ⟨h, hlt⟩ | ⟨h, hlt⟩
    · omega
    · rw [if_neg (by omega), h, Nat.mul_one] at hcap
      omega
    · have hin : (textOf t).length + x.length + 1 ≤ t.s.v.cap := by
        rcases hroom with h' | h'
        · exact h'
        · simp [h] at h'
      have htr : trim P t.s.v.cap ((textOf t).length + x.length + 1) = t.s.v.cap := by
        unfold trim; rw [if_neg (by simp [h])]
      rw [if_pos hin, htr] at hcap
      have : t'.s.v.cap = t.s.v.cap := by rw [hcap]; split <;> rfl
      omega
  generalize t'.s.v.cap - ((textOf t).length + x.length + 1) = q at hm hst
  generalize hmm : min y.length q = m at hm
  have h0 : (written q y)[m]? = some (some 0#8) := by
    unfold written
    rw [List.getElem?_append_right (by simp; omega)]
    rw [List.length_map, List.length_take]
    rw [show m - min q y.length = 0 by omega]
    rfl
  have hml : m < (written q y).length := by
    rcases Nat.lt_or_ge m (written q y).length with h | h
    · exact h
    · rw [List.getElem?_eq_none h] at h0; simp at h0
  have h1 : (textOf t')[(textOf t).length + m]? = some (some 0#8) := by
    have := congrArg (fun l => l[(textOf t).length + m]?) hst
    rw [List.getElem?_take_of_lt (by omega), List.getElem?_append_right (by omega),
      Nat.add_sub_cancel_left, List.getElem?_take_of_lt (by omega),
      List.getElem?_append_left hml, h0] at this
    unfold textOf at this ⊢
    rw [hs, List.getElem?_take_of_lt (by unfold textOf; omega)]
    exact this
  rw [heq, List.getElem?_append_right (by omega), Nat.add_sub_cancel_left, List.getElem?_map,
    List.getElem?_eq_getElem hm] at h1
  simp only [Option.map_some, Option.some.injEq] at h1
  exact hx0 (h1 ▸ List.getElem_mem hm)

/-- C36, failures: text and length are unchanged, and the string is still terminated if and only if nothing
was written, or the buffer was full, or the first character written is NUL. -/
theorem C36_failure_exact {P : Params} {t : Str} (h : SReach P t) (hc : t.s.v.cap < 18446744073709551616)
    {fmt : Fmt} {x : List Byte} {st : Status}
    (hcase : (fmt 0 = .error x ∧ st = stFailed) ∨
      (fmt 0 = .text x ∧ x.length < 2147483648 ∧ P.allocator = none ∧ st = stInsufficient ∧
        t.s.v.cap < (textOf t).length + x.length + 1 ∧ SFits ((textOf t).length + x.length + 1))) :
    ∃ t', strAppendFormat t fmt = .ret (st, t') ∧ textOf t' = textOf t ∧ strGetSize t' = strGetSize t ∧
      (Terminated t' ↔ x = [] ∨ x.head? = some 0#8 ∨ t.s.v.cap = (textOf t).length + 1) := by
  obtain ⟨b, sl, R⟩ := h.rep
  have hsm := R.small
  have hgs := R.getSize
  have hlen : (textOf t).length + 1 ≤ t.s.v.cap := len_cap R
  rw [sabsOf_text] at hsm hgs
  have key := format_fails_exact R (by rw [sabsOf_bytes]; exact hc) (fmt := fmt) (st := st) (x := x)
    (by rw [sabsOf_text, sabsOf_bytes]; exact hcase)
  rw [sabsOf_text, sabsOf_bytes] at key
  obtain ⟨t', b', sl', e, R'⟩ := key
  have hw : ∃ c0, (written (t.s.v.cap - ((textOf t).length + 1)) x).take 1 = [c0] ∧
      (c0 = some 0#8 ↔ x = [] ∨ x.head? = some 0#8 ∨ t.s.v.cap = (textOf t).length + 1) := by
    unfold written
    cases hn : t.s.v.cap - ((textOf t).length + 1) with
    | zero =>
      have : t.s.v.cap = (textOf t).length + 1 := by omega
      exact ⟨some 0#8, by simp, by simp [this]⟩
    | succ n =>
      cases x with
      | nil => exact ⟨some 0#8, rfl, by simp⟩
      | cons c y =>
        refine ⟨some c, by simp, ?_⟩
        have : ¬ t.s.v.cap = (textOf t).length + 1 := by omega
        simp [this]
  obtain ⟨c0, hw, hiff⟩ := hw
  rw [hw] at R'
  obtain ⟨o1, o2, o3⟩ := unterminated_obs R' (by omega)
  obtain ⟨p1, p2, p3, p4⟩ := storage_of_rep R' (by simp) (by simp; omega)
  refine ⟨t', e, o1, o2.trans hgs.symm, ?_⟩
  rw [← hiff]
  have hst : (storage t')[strGetSize t']? = some c0 := by
    have := congrArg (fun l => l[(textOf t).length]?) p1
    rw [List.getElem?_take_of_lt (by simp), List.getElem?_append_right (by omega), Nat.sub_self] at this
    rw [o2, this]; rfl
  unfold Terminated
  rw [hst, o1, o2]
  simp

example : ∃ t', strAppendFormat exStr (fmtConst (List.replicate 7 7#8)) = .ret (stSuccess, t') ∧
    textOf t' = textOf exStr ++ (List.replicate 7 7#8).map some ∧ Terminated t' :=
  C36_room_for_two exStr_reach (by decide) rfl rfl (by decide) (by show _ < _; decide +kernel)
    (Or.inl ⟨by decide +kernel, Or.inr (Or.inr (by decide))⟩)
example : ∃ t', strAppendFormat exG1Str (fmtConst (chars "xyz".toList)) = .ret (stSuccess, t') ∧
    textOf t' ≠ textOf exG1Str ++ (chars "xyz".toList).map some :=
  C36_negation_all exG1Str_reach (by decide) rfl rfl (by decide) (by decide) (by show _ < _; decide +kernel)
    (by decide) (by decide +kernel) (Or.inr rfl) (Or.inr (Or.inl ⟨rfl, by decide +kernel⟩))
example : ∃ t', strAppendFormat exFStr (fmtConst (chars "xyz".toList)) = .ret (stInsufficient, t') ∧
    textOf t' = textOf exFStr ∧ strGetSize t' = strGetSize exFStr ∧ ¬ Terminated t' := by
  obtain ⟨t', e, h1, h2, h3⟩ := C36_failure_exact (x := chars "xyz".toList) (st := stInsufficient)
    exFStr_reach (by decide) (fmt := fmtConst (chars "xyz".toList))
    (Or.inr ⟨rfl, by decide, rfl, rfl, by decide +kernel, by show _ < _; decide +kernel⟩)
  exact ⟨t', e, h1, h2, fun h => absurd (h3.1 h) (by decide +kernel)⟩

end Zy
