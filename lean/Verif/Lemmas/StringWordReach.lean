import Verif.Lemmas.FormatWord

/-!
# Lemmas: strings obtained with another width of `size_t`
-/

namespace Zy

open Spec

theorem vecInitEx_size {w w' : World Byte} {e c : Nat} {d : Bool} {al : Option Nat} {g k : Nat} {st : Status}
    {v : Vec Byte} (h : vecInitEx w e c d al g k = (st, some v, w')) : v.size = 0 := by
  unfold vecInitEx at h
  cases al with
  | none => cases h
  | some a =>
    simp only at h
    split at h
    · cases h
    · injection h with _ h
      injection h with h _
      injection h with h
      rw [← h]

theorem vecInitBuffer_size {e c : Nat} {d : Bool} {b : Option (Block Byte)} {st : Status}
    {v : Vec Byte} (h : vecInitBuffer e b c d = (st, some v)) : v.size = 0 := by
  unfold vecInitBuffer at h
  cases b with
  | none => cases h
  | some b =>
    simp only at h
    split at h
    · cases h
    · injection h with _ h
      injection h with h
      rw [← h]

section
variable {m : Nat}

theorem strPoke_size {v v' : Vec Byte} {i : Nat} {c : Cell Byte} (hv : strPoke v i c = .ret v') :
    v'.size = v.size := by
  unfold strPoke withData at hv
  split at hv
  · cases hv
  · simp only at hv
    split at hv
    · injection hv with hv; rw [← hv]
    · cases hv

theorem strStartW_eq (hm : m ≤ 18446744073709551616) {v : Vec Byte} (h : v.size + 1 < m) :
    strStartW m v = strStart v := by
  unfold strStartW strStart
  refine bind_congr_ret fun v' hv => ?_
  rw [addW_eq hm (by rw [strPoke_size hv]; exact h)]

theorem strInitExW_eq (hm : m ≤ 18446744073709551616) (w : World Byte) (cap : Nat) (al : Option Nat)
    (g k : Nat) (h : max 32 cap + 1 < m) : strInitExW m w cap al g k = strInitEx w cap al g k := by
  have e : add64 (max 32 cap) 1 = max 32 cap + 1 := add64_eq (by omega)
  unfold strInitExW strInitEx
  rw [addW_eq hm h, initExW_eq hm _ _ _ _ _ _ _ (by rw [e]; omega)]
  clear e
  cases hi : vecInitEx w 1 (add64 (max 32 cap) 1) false al g k with
  | mk st r =>
    obtain ⟨ov, w'⟩ := r
    cases ov with
    | none => rfl
    | some v =>
      have hz := vecInitEx_size hi
      simp only
      rw [strStartW_eq hm (by omega)]

theorem strInitBufferW_eq (hm : m ≤ 18446744073709551616) (h1 : 1 < m) (w : World Byte)
    (b : Option (Block Byte)) (cap : Nat) : strInitBufferW m w b cap = strInitBuffer w b cap := by
  unfold strInitBufferW strInitBuffer
  cases hi : vecInitBuffer 1 b cap false with
  | mk st ov =>
    cases ov with
    | none => rfl
    | some v =>
      have hz := vecInitBuffer_size hi
      simp only
      rw [strStartW_eq hm (by omega)]

theorem dupIntoW_eq (hm : m ≤ 18446744073709551616) (t : Str) (src : View) (h1 : 1 ≤ src.size)
    (h : src.size < m) : dupIntoW m t src = dupInto t src := by
  unfold dupIntoW dupInto
  rw [subW_eq hm h1 h]
  refine bind_congr_ret fun v _ => ?_
  exact nullTerminateW_eq hm h1 h

theorem concatIntoW_eq (hm : m ≤ 18446744073709551616) (t : Str) (s1 s2 : View) (h1 : 1 ≤ s1.size)
    (h2 : 1 ≤ s2.size) (h : s1.size + s2.size < m) : concatIntoW m t s1 s2 = concatInto t s1 s2 := by
  have e : sub64 (add64 s1.size s2.size) 1 = s1.size + s2.size - 1 := by
    rw [add64_eq (by omega), sub64_eq (by omega) (by omega)]
  have e' : subW m (addW m s1.size s2.size) 1 = s1.size + s2.size - 1 := by
    rw [addW_eq hm h, add64_eq (by omega), subW_nat (by omega) (by omega)]
  unfold concatIntoW concatInto
  rw [subW_eq hm h1 (by omega), subW_eq hm h2 (by omega), e, e']
  clear e e'
  refine bind_congr_ret fun v _ => ?_
  refine bind_congr_ret fun v _ => ?_
  exact nullTerminateW_eq hm (by show 1 ≤ s1.size + s2.size - 1; omega)
    (by show s1.size + s2.size - 1 < m; omega)

theorem strDuplicateExW_eq (hm : m ≤ 18446744073709551616) (w : World Byte) (src : View) (cap : Nat)
    (al : Option Nat) (g k : Nat) (h : max 32 cap + 1 < m) (hs : src.size < m) (hs' : 33 < m) :
    strDuplicateExW m w src cap al g k = strDuplicateEx w src cap al g k := by
  unfold strDuplicateExW strDuplicateEx
  split
  · rfl
  · have e : subW m src.size 1 = src.size - 1 := subW_nat (by omega) hs
    have e' : sub64 src.size 1 = src.size - 1 := sub64_eq (by omega) (by omega)
    rw [e, e', strInitExW_eq hm _ _ _ _ _ (by clear e e'; omega)]
    clear e e'
    refine bind_congr_ret fun r _ => ?_
    obtain ⟨st, ot, w'⟩ := r
    cases ot with
    | none => rfl
    | some t =>
      simp only
      rw [dupIntoW_eq hm t src (by omega) hs]

theorem strDuplicateBufferW_eq (hm : m ≤ 18446744073709551616) (w : World Byte) (src : View)
    (b : Option (Block Byte)) (cap : Nat) (hs : src.size < m) (h1 : 1 < m) :
    strDuplicateBufferW m w src b cap = strDuplicateBuffer w src b cap := by
  unfold strDuplicateBufferW strDuplicateBuffer
  split
  · rfl
  · split
    · rfl
    · rw [strInitBufferW_eq hm h1]
      refine bind_congr_ret fun r _ => ?_
      obtain ⟨st, ot⟩ := r
      cases ot with
      | none => rfl
      | some t =>
        simp only
        rw [dupIntoW_eq hm t src (by omega) hs]

theorem strConcatExW_eq (hm : m ≤ 18446744073709551616) (w : World Byte) (s1 s2 : View) (cap : Nat)
    (al : Option Nat) (g k : Nat) (h : max 32 cap + 1 < m) (hs : s1.size + s2.size < m) :
    strConcatExW m w s1 s2 cap al g k = strConcatEx w s1 s2 cap al g k := by
  unfold strConcatExW strConcatEx
  split
  · rfl
  · have e : subW m (subW m (addW m s1.size s2.size) 1) 1 = s1.size + s2.size - 2 := by
      rw [addW_eq hm hs, add64_eq (by omega), subW_nat (a := s1.size + s2.size) (by omega) hs,
        subW_nat (by omega) (by omega)]
      omega
    have e' : sub64 (sub64 (add64 s1.size s2.size) 1) 1 = s1.size + s2.size - 2 := by
      rw [add64_eq (by omega), sub64_eq (a := s1.size + s2.size) (by omega) (by omega),
        sub64_eq (by omega) (by omega)]
      omega
    rw [e, e', strInitExW_eq hm _ _ _ _ _ (by clear e e'; omega)]
    clear e e'
    refine bind_congr_ret fun r _ => ?_
    obtain ⟨st, ot, w'⟩ := r
    cases ot with
    | none => rfl
    | some t =>
      simp only
      rw [concatIntoW_eq hm t s1 s2 (by omega) (by omega) hs]

theorem strConcatBufferW_eq (hm : m ≤ 18446744073709551616) (w : World Byte) (s1 s2 : View)
    (b : Option (Block Byte)) (cap : Nat) (hs : s1.size + s2.size < m) :
    strConcatBufferW m w s1 s2 b cap = strConcatBuffer w s1 s2 b cap := by
  unfold strConcatBufferW strConcatBuffer
  split
  · rfl
  · have e : subW m (addW m s1.size s2.size) 1 = s1.size + s2.size - 1 := by
      rw [addW_eq hm hs, add64_eq (by omega), subW_nat (by omega) hs]
    have e' : sub64 (add64 s1.size s2.size) 1 = s1.size + s2.size - 1 := by
      rw [add64_eq (by omega), sub64_eq (by omega) (by omega)]
    rw [e, e']
    clear e e'
    split
    · rfl
    · rw [strInitBufferW_eq hm (by omega)]
      refine bind_congr_ret fun r _ => ?_
      obtain ⟨st, ot⟩ := r
      cases ot with
      | none => rfl
      | some t =>
        simp only
        rw [concatIntoW_eq hm t s1 s2 (by omega) (by omega) hs]

/-- A string obtained on the narrow target is a string obtained on the 64-bit target. -/
theorem SReachW.wide (hm : m ≤ 18446744073709551616) {P : Params} {t : Str}
    (h : SReachW m P t) : SReach P t ∧ SFitsW m ((sabsOf t).text.length + 1) := by
  induction h with
  | @init w w' cap a st t hw hr hP hc hm' h =>
    rw [strInitExW_eq hm _ _ _ _ _ hc] at h
    refine ⟨.init hw hr hP (by omega) h, ?_⟩
    by_cases hg : 1 ≤ P.growth
    · obtain ⟨t', b, sl, e, R, _⟩ := strInitEx_ok hw hr hP hg (cap := cap) (by omega)
      rw [h] at e
      simp only [Out.ret.injEq, Prod.mk.injEq, Option.some.injEq] at e
      rw [e.2.1, R.abs_eq]
      show (0 + 1) * 255 < m
      omega
    · rw [strInitEx_growth0 hg] at h; simp at h
  | @initBuffer w cap b st t hw hr hP hb hm' h =>
    rw [strInitBufferW_eq hm (by omega)] at h
    refine ⟨.initBuffer hw hr hP hb h, ?_⟩
    by_cases hc : cap = 0
    · subst hc; rw [strInitBuffer_zero] at h; simp at h
    · obtain ⟨v, e, R⟩ := strInitBuffer_ok hw hr hP hb hc
      rw [h] at e
      simp only [Out.ret.injEq, Prod.mk.injEq, Option.some.injEq] at e
      rw [e.2, R.abs_eq]
      show (0 + 1) * 255 < m
      omega
  | @dup w w' x cap a st t hw hr hP hc hx h =>
    have hx1 : (x.length + 1) * 255 < m := hx
    rw [strDuplicateExW_eq hm _ _ _ _ _ _ hc (by show x.length + 1 < m; omega) (by omega)] at h
    have hx' : SFits (x.length + 1) := by unfold SFits; omega
    refine ⟨.dup hw hr hP (by omega) hx' h, ?_⟩
    by_cases hg : 1 ≤ P.growth
    · obtain ⟨t', b, sl, e, R, _⟩ :=
        strDuplicateEx_ok hw hr hP hg (cap := cap) (by omega) hx' (rest := [some 0#8])
      simp only [textView] at h
      rw [h] at e
      simp only [Out.ret.injEq, Prod.mk.injEq, Option.some.injEq] at e
      rw [e.2.1, R.abs_eq]
      exact hx
    · simp only [textView, strDuplicateEx, strInitEx_growth0 hg] at h
      simp at h
  | @dupBuffer w x cap b st t hw hr hP hb hx h =>
    have hx1 : (x.length + 1) * 255 < m := hx
    rw [strDuplicateBufferW_eq hm _ _ _ _ (by show x.length + 1 < m; omega) (by omega)] at h
    have hx' : SFits (x.length + 1) := by unfold SFits; omega
    refine ⟨.dupBuffer hw hr hP hb hx' h, ?_⟩
    by_cases hc : x.length + 1 ≤ cap
    · obtain ⟨t', b', sl, e, R, _⟩ := strDuplicateBuffer_ok hw hr hP hb hx' hc (rest := [some 0#8])
      simp only [textView] at h
      rw [h] at e
      simp only [Out.ret.injEq, Prod.mk.injEq, Option.some.injEq] at e
      rw [e.2, R.abs_eq]
      exact hx
    · exfalso
      simp only [strDuplicateBuffer] at h
      rw [if_neg (by simp [textView]), if_pos (by simp only [textView]; omega)] at h
      simp at h
  | @concat w w' x y cap a st t hw hr hP hc hx h =>
    have hx1 : (x.length + y.length + 1) * 255 < m := hx
    rw [strConcatExW_eq hm _ _ _ _ _ _ _ hc (by show x.length + 1 + (y.length + 1) < m; omega)] at h
    have hx' : SFits (x.length + y.length + 1) := by unfold SFits; omega
    refine ⟨.concat hw hr hP (by omega) hx' h, ?_⟩
    by_cases hg : 1 ≤ P.growth
    · obtain ⟨t', b, sl, e, R, _⟩ :=
        strConcatEx_ok hw hr hP hg (cap := cap) (by omega) hx' (rest := [some 0#8]) (rest' := [some 0#8])
      simp only [textView] at h
      rw [h] at e
      simp only [Out.ret.injEq, Prod.mk.injEq, Option.some.injEq] at e
      rw [e.2.1, R.abs_eq]
      show ((x ++ y).length + 1) * 255 < m
      rw [List.length_append]
      exact hx1
    · simp only [textView, strConcatEx, strInitEx_growth0 hg] at h
      simp at h
  | @concatBuffer w x y cap b st t hw hr hP hb hx h =>
    have hx1 : (x.length + y.length + 1) * 255 < m := hx
    rw [strConcatBufferW_eq hm _ _ _ _ _ (by show x.length + 1 + (y.length + 1) < m; omega)] at h
    have hx' : SFits (x.length + y.length + 1) := by unfold SFits; omega
    refine ⟨.concatBuffer hw hr hP hb hx' h, ?_⟩
    by_cases hc : x.length + y.length + 1 ≤ cap
    · obtain ⟨t', b', sl, e, R, _⟩ :=
        strConcatBuffer_ok hw hr hP hb hx' hc (rest := [some 0#8]) (rest' := [some 0#8])
      simp only [textView] at h
      rw [h] at e
      simp only [Out.ret.injEq, Prod.mk.injEq, Option.some.injEq] at e
      rw [e.2, R.abs_eq]
      show ((x ++ y).length + 1) * 255 < m
      rw [List.length_append]
      exact hx1
    · exfalso
      simp only [strConcatBuffer] at h
      have hsz : sub64 (add64 (textView x).size (textView y).size) 1 = x.length + y.length + 1 := by
        simp only [textView]
        rw [add64_eq (by omega), sub64_eq (by omega) (by omega)]; omega
      rw [if_neg (by simp [textView]), hsz, if_pos (by clear hsz; omega)] at h
      simp at h
  | @step t t' st op h hd hs ih =>
    obtain ⟨hre, hf⟩ := ih
    obtain ⟨b, sl, R⟩ := hre.rep
    have RW : SRepW m P t (sabsOf t) b sl := ⟨R, hm, hf⟩
    obtain ⟨junk, st', t'', a', b', sl', hj, hstep, hop, R'⟩ := RW.step _ hd
    have hs' := hs
    rw [opStrW_eq RW _ hd] at hs'
    refine ⟨.step hre (hd.wide hm) hs', ?_⟩
    rw [hs] at hop
    simp only [Out.ret.injEq, Prod.mk.injEq] at hop
    rw [hop.2, R'.srep.abs_eq]
    exact R'.fits
  | @decU t t' st regs64 value padding h hv hp hf hs ih =>
    obtain ⟨hre, hf0⟩ := ih
    obtain ⟨b, sl, R⟩ := hre.rep
    have RW : SRepW m P t (sabsOf t) b sl := ⟨R, hm, hf0⟩
    rw [← sabsOf_text] at hf
    have hf' : ((sabsOf t).text.length + 300) * 255 < m := hf
    rw [decUW_eq RW regs64 hv hp hf] at hs
    have hsf : SFits ((sabsOf t).text.length + 300) := by unfold SFits; omega
    refine ⟨.decU hre hv hp (by rw [← sabsOf_text]; exact hsf) hs, ?_⟩
    obtain ⟨a', b', sl', R', hl⟩ := (decU_res R hv hp hsf).grown hs
    have hx := padded_length (base := 10) false (by omega) hp (Nat.lt_of_lt_of_le hv (by decide))
    rw [List.length_map] at hl
    rw [R'.abs_eq]
    exact mul255_lt hf' (by omega)
  | @hexU t t' st regs64 value padding upper h hv hp hf hc hs ih =>
    obtain ⟨hre, hf0⟩ := ih
    obtain ⟨b, sl, R⟩ := hre.rep
    have RW : SRepW m P t (sabsOf t) b sl := ⟨R, hm, hf0⟩
    rw [← sabsOf_text] at hf
    have hf' : ((sabsOf t).text.length + 300) * 255 < m := hf
    rw [hexUW_eq RW regs64 hv hp hf hc] at hs
    have hsf : SFits ((sabsOf t).text.length + 300) := by unfold SFits; omega
    refine ⟨.hexU hre hv hp (by rw [← sabsOf_text]; exact hsf) (by omega) hs, ?_⟩
    obtain ⟨a', b', sl', R', hl⟩ := (hexU_res R hv hp hsf (by rw [sabsOf_bytes]; omega) upper).grown hs
    have hx := padded_length (base := 16) upper (by omega) hp (Nat.lt_of_lt_of_le hv (by decide))
    rw [List.length_map] at hl
    rw [R'.abs_eq]
    exact mul255_lt hf' (by omega)
  | @decS t t' st regs64 value padding forceSign pre x h hp hx hf hc hs ih =>
    obtain ⟨hre, hf0⟩ := ih
    obtain ⟨b, sl, R⟩ := hre.rep
    have RW : SRepW m P t (sabsOf t) b sl := ⟨R, hm, hf0⟩
    rw [← sabsOf_text] at hf
    have hf' : ((sabsOf t).text.length + x.length + 301) * 255 < m := hf
    rw [decSW_eq RW regs64 value hp forceSign hx hc hf] at hs
    have hsf : SFits ((sabsOf t).text.length + x.length + 301) := by unfold SFits; omega
    refine ⟨.decS hre hp hx (by rw [← sabsOf_text]; exact hsf) (by omega) hs, ?_⟩
    obtain ⟨a', b', sl', R', hl⟩ := (decS_res R value hp forceSign hx hsf (by rw [sabsOf_bytes]; omega)).grown hs
    have hn := natAbs_lt value
    have hxl := padded_length (base := 10) false (by omega) hp (Nat.lt_of_lt_of_le hn (by decide))
    have hpl := signPrefix_length value.toInt forceSign x
    rw [List.length_map, List.length_append] at hl
    rw [R'.abs_eq]
    exact mul255_lt hf' (by omega)
  | @hexS t t' st regs64 value padding upper forceSign pre x h hp hx hf hc hs ih =>
    obtain ⟨hre, hf0⟩ := ih
    obtain ⟨b, sl, R⟩ := hre.rep
    have RW : SRepW m P t (sabsOf t) b sl := ⟨R, hm, hf0⟩
    rw [← sabsOf_text] at hf
    have hf' : ((sabsOf t).text.length + x.length + 301) * 255 < m := hf
    rw [hexSW_eq RW regs64 value hp upper forceSign hx hc hf] at hs
    have hsf : SFits ((sabsOf t).text.length + x.length + 301) := by unfold SFits; omega
    refine ⟨.hexS hre hp hx (by rw [← sabsOf_text]; exact hsf) (by omega) hs, ?_⟩
    obtain ⟨a', b', sl', R', hl⟩ :=
      (hexS_res R value hp upper forceSign hx hsf (by rw [sabsOf_bytes]; omega)).grown hs
    have hn := natAbs_lt value
    have hxl := padded_length (base := 16) upper (by omega) hp (Nat.lt_of_lt_of_le hn (by decide))
    have hpl := signPrefix_length value.toInt forceSign x
    rw [List.length_map, List.length_append] at hl
    rw [R'.abs_eq]
    exact mul255_lt hf' (by omega)

theorem SReachW.srepW (hm : m ≤ 18446744073709551616) {P : Params} {t : Str}
    (h : SReachW m P t) : ∃ b sl, SRepW m P t (sabsOf t) b sl := by
  obtain ⟨hre, hf⟩ := h.wide hm
  obtain ⟨b, sl, R⟩ := hre.rep
  exact ⟨b, sl, R, hm, hf⟩

/-! ## Searching and comparing -/

theorem toU64_same (hm : m ≤ 18446744073709551616) {a : Int} (h0 : 0 ≤ a) (h : a < m) :
    toUW m a = toU64 a := by
  rw [toUW_small h0 h]
  unfold toU64
  rw [Int.emod_eq_of_lt h0 (by omega)]

theorem lposInnerW_eq (hm : m ≤ 18446744073709551616) (eq : Byte → Byte → Bool) (hay needle : View)
    {last : Nat} (s : Int) (hl : last + 1 < m) : ∀ (fuel : Nat) (a b : Int), 0 ≤ a → a < m →
    lposInnerW m eq hay needle last s fuel a b = lposInner eq hay needle last s fuel a b := by
  intro fuel
  induction fuel with
  | zero => intros; rfl
  | succ fuel ih =>
    intro a b h0 h
    have e := toU64_same hm h0 h
    have e' := toUW_small h0 h
    simp only [lposInnerW, lposInner]
    rw [← e]
    split
    · rfl
    · rename_i hle
      rw [e'] at hle
      clear e e'
      refine bind_congr_ret fun cb _ => ?_
      split
      · rfl
      · refine bind_congr_ret fun ca _ => ?_
        rw [ih (a + 1) (b + 1) (by omega) (by omega)]

theorem lposOuterW_eq (hm : m ≤ 18446744073709551616) (eq : Byte → Byte → Bool) (hay needle : View)
    {last : Nat} (hl : last + 1 < m) (hh : hay.size < m) : ∀ (fuel : Nat) (s : Int), 0 ≤ s →
    lposOuterW m eq hay needle last fuel s = lposOuter eq hay needle last fuel s := by
  intro fuel
  induction fuel with
  | zero => intros; rfl
  | succ fuel ih =>
    intro s h0
    simp only [lposOuterW, lposOuter]
    split
    · refine bind_congr_ret fun cs _ => ?_
      refine bind_congr_ret fun cb _ => ?_
      rw [lposInnerW_eq hm eq hay needle s hl _ s 0 h0 (by omega), ih (s + 1) (by omega)]
      rfl
    · rfl

theorem lposW_eq (hm : m ≤ 18446744073709551616) (eq : Byte → Byte → Bool) (hay needle : View)
    (i n : Nat) (hin : i + n < m) (hh : hay.size * 2 < m) :
    strLPosExWithW m eq hay needle i n = strLPosExWith eq hay needle i n := by
  have e : add64 i n = i + n := add64_eq (by omega)
  unfold strLPosExWithW strLPosExWith
  rw [addW_eq hm hin, e]
  clear e
  split
  · rfl
  · split
    · rfl
    · rw [toIW_small (by omega), toI64_small (by omega),
        lposOuterW_eq hm eq hay needle (by omega) (by omega) _ _ (by omega)]

theorem cmpLoopW_eq (hm : m ≤ 18446744073709551616) (eq : Byte → Byte → Bool) (s1 s2 : View)
    (h : s1.size < m) : ∀ (fuel i : Nat), i + 1 < m →
    cmpLoopW m eq s1 s2 fuel i = cmpLoop eq s1 s2 fuel i := by
  intro fuel
  induction fuel with
  | zero => intros; rfl
  | succ fuel ih =>
    intro i hi
    simp only [cmpLoopW, cmpLoop]
    have e : add64 i 1 = i + 1 := add64_eq (by omega)
    rw [addW_eq hm hi, e]
    clear e
    split
    · rename_i hlt
      refine bind_congr_ret fun a _ => ?_
      refine bind_congr_ret fun b _ => ?_
      rw [ih (i + 1) (by omega)]
    · rfl

theorem compareW_eq (hm : m ≤ 18446744073709551616) (eq : Byte → Byte → Bool) (s1 s2 : View)
    (h : s1.size < m) (h1 : 1 < m) : strCompareWithW m eq s1 s2 = strCompareWith eq s1 s2 := by
  unfold strCompareWithW strCompareWith
  rw [cmpLoopW_eq hm eq s1 s2 h _ 0 (by omega)]

/-! The searches with `2^64` values are those of the 64-bit model, for all operands. -/

theorem lposInnerW_64 (eq : Byte → Byte → Bool) (hay needle : View) (last : Nat) (s : Int) :
    ∀ (fuel : Nat) (a b : Int), lposInnerW 18446744073709551616 eq hay needle last s fuel a b =
      lposInner eq hay needle last s fuel a b
  | 0, _, _ => rfl
  | fuel + 1, a, b => by
    simp only [lposInnerW, lposInner, toUW_64, lposInnerW_64 eq hay needle last s fuel]

theorem lposOuterW_64 (eq : Byte → Byte → Bool) (hay needle : View) (last : Nat) :
    ∀ (fuel : Nat) (s : Int), lposOuterW 18446744073709551616 eq hay needle last fuel s =
      lposOuter eq hay needle last fuel s
  | 0, _ => rfl
  | fuel + 1, s => by
    simp only [lposOuterW, lposOuter, lposInnerW_64, lposOuterW_64 eq hay needle last fuel]
    rfl

theorem cmpLoopW_64 (eq : Byte → Byte → Bool) (s1 s2 : View) : ∀ (fuel i : Nat),
    cmpLoopW 18446744073709551616 eq s1 s2 fuel i = cmpLoop eq s1 s2 fuel i
  | 0, _ => rfl
  | fuel + 1, i => by
    simp only [cmpLoopW, cmpLoop, addW_64, cmpLoopW_64 eq s1 s2 fuel]

theorem lposW_64 (eq : Byte → Byte → Bool) (x y : View) (i n : Nat) :
    strLPosExWithW 18446744073709551616 eq x y i n = strLPosExWith eq x y i n := by
  simp only [strLPosExWithW, strLPosExWith, addW_64, toIW_64, lposOuterW_64]

theorem compareW_64 (eq : Byte → Byte → Bool) (x y : View) :
    strCompareWithW 18446744073709551616 eq x y = strCompareWith eq x y := by
  simp only [strCompareWithW, strCompareWith, cmpLoopW_64]

/-! ## Requests that wrap on the narrow target only -/

theorem addW_wrap {i n : Nat} (hi : i < m) (hn : n < m) (h : m ≤ i + n) : addW m i n = i + n - m := by
  unfold addW
  rw [Nat.mod_eq_sub_mod h, Nat.mod_eq_of_lt (by omega)]

end

end Zy
