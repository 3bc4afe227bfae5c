import Verif.Lemmas.Format

/-!
# Helper lemmas: reachable strings are represented, and histories
-/

namespace Zy

open Spec

theorem SReach.rep {P : Params} {t : Str} (h : SReach P t) : ∃ b sl, SRep P t (sabsOf t) b sl := by
  induction h with
  | @init w w' cap a st t hw hr hP hc h =>
    by_cases hg : 1 ≤ P.growth
    · obtain ⟨t', b, sl, e, R, _⟩ := strInitEx_ok hw hr hP hg hc
      rw [h] at e
      simp only [Out.ret.injEq, Prod.mk.injEq, Option.some.injEq] at e
      rw [e.2.1]
      exact ⟨b, sl, by rw [R.abs_eq]; exact R⟩
    · rw [strInitEx_growth0 hg] at h; simp at h
  | @initBuffer w cap b st t hw hr hP hb h =>
    by_cases hc : cap = 0
    · subst hc; rw [strInitBuffer_zero] at h; simp at h
    · obtain ⟨v, e, R⟩ := strInitBuffer_ok hw hr hP hb hc
      rw [h] at e
      simp only [Out.ret.injEq, Prod.mk.injEq, Option.some.injEq] at e
      rw [e.2]
      exact ⟨_, _, by rw [R.abs_eq]; exact R⟩
  | @dup w w' x cap a st t hw hr hP hc hx h =>
    by_cases hg : 1 ≤ P.growth
    · obtain ⟨t', b, sl, e, R, _⟩ := strDuplicateEx_ok hw hr hP hg hc hx (rest := [some 0#8])
      simp only [textView] at h
      rw [h] at e
      simp only [Out.ret.injEq, Prod.mk.injEq, Option.some.injEq] at e
      rw [e.2.1]
      exact ⟨b, sl, by rw [R.abs_eq]; exact R⟩
    · simp only [textView, strDuplicateEx, strInitEx_growth0 hg] at h
      simp at h
  | @dupBuffer w x cap b st t hw hr hP hb hx h =>
    by_cases hc : x.length + 1 ≤ cap
    · obtain ⟨t', b', sl, e, R, _⟩ := strDuplicateBuffer_ok hw hr hP hb hx hc (rest := [some 0#8])
      simp only [textView] at h
      rw [h] at e
      simp only [Out.ret.injEq, Prod.mk.injEq, Option.some.injEq] at e
      rw [e.2]
      exact ⟨_, _, by rw [R.abs_eq]; exact R⟩
    · exfalso
      simp only [strDuplicateBuffer] at h
      rw [if_neg (by simp [textView]), if_pos (by simp only [textView]; omega)] at h
      simp at h
  | @concat w w' x y cap a st t hw hr hP hc hx h =>
    by_cases hg : 1 ≤ P.growth
    · obtain ⟨t', b, sl, e, R, _⟩ :=
        strConcatEx_ok hw hr hP hg hc hx (rest := [some 0#8]) (rest' := [some 0#8])
      simp only [textView] at h
      rw [h] at e
      simp only [Out.ret.injEq, Prod.mk.injEq, Option.some.injEq] at e
      rw [e.2.1]
      exact ⟨b, sl, by rw [R.abs_eq]; exact R⟩
    · simp only [textView, strConcatEx, strInitEx_growth0 hg] at h
      simp at h
  | @concatBuffer w x y cap b st t hw hr hP hb hx h =>
    by_cases hc : x.length + y.length + 1 ≤ cap
    · obtain ⟨t', b', sl, e, R, _⟩ :=
        strConcatBuffer_ok hw hr hP hb hx hc (rest := [some 0#8]) (rest' := [some 0#8])
      simp only [textView] at h
      rw [h] at e
      simp only [Out.ret.injEq, Prod.mk.injEq, Option.some.injEq] at e
      rw [e.2]
      exact ⟨_, _, by rw [R.abs_eq]; exact R⟩
    · exfalso
      have hx' := hx
      unfold SFits at hx'
      simp only [strConcatBuffer] at h
      have hsz : sub64 (add64 (textView x).size (textView y).size) 1 = x.length + y.length + 1 := by
        simp only [textView]
        rw [add64_eq (by omega), sub64_eq (by omega) (by omega)]; omega
      rw [if_neg (by simp [textView]), hsz, if_pos (by omega)] at h
      simp at h
  | @step t t' st op h hd hs ih =>
    obtain ⟨b, sl, R⟩ := ih
    obtain ⟨junk, st', t'', a', b', sl', hj, hstep, hop, R'⟩ := sop_ok R _ hd
    rw [hs] at hop
    simp only [Out.ret.injEq, Prod.mk.injEq] at hop
    rw [hop.2]
    exact ⟨b', sl', by rw [R'.abs_eq]; exact R'⟩
  | @decU t t' st value padding h hv hp hf hs ih =>
    obtain ⟨b, sl, R⟩ := ih
    have hres := decU_res R hv hp
    rw [sabsOf_text] at hres
    obtain ⟨st', t'', a', b', sl', hop, R'⟩ := (hres hf).some
    rw [hs] at hop
    simp only [Out.ret.injEq, Prod.mk.injEq] at hop
    rw [hop.2]
    exact ⟨b', sl', by rw [R'.abs_eq]; exact R'⟩
  | @hexU t t' st value padding upper h hv hp hf hc hs ih =>
    obtain ⟨b, sl, R⟩ := ih
    have hres := hexU_res R hv hp
    rw [sabsOf_text, sabsOf_bytes] at hres
    obtain ⟨st', t'', a', b', sl', hop, R'⟩ := (hres hf hc upper).some
    rw [hs] at hop
    simp only [Out.ret.injEq, Prod.mk.injEq] at hop
    rw [hop.2]
    exact ⟨b', sl', by rw [R'.abs_eq]; exact R'⟩
  | @decS t t' st value padding forceSign pre x h hp hx hf hc hs ih =>
    obtain ⟨b, sl, R⟩ := ih
    have hres := decS_res R value hp forceSign hx
    rw [sabsOf_text, sabsOf_bytes] at hres
    obtain ⟨st', t'', a', b', sl', hop, R'⟩ := (hres hf hc).some
    rw [hs] at hop
    simp only [Out.ret.injEq, Prod.mk.injEq] at hop
    rw [hop.2]
    exact ⟨b', sl', by rw [R'.abs_eq]; exact R'⟩
  | @hexS t t' st value padding upper forceSign pre x h hp hx hf hc hs ih =>
    obtain ⟨b, sl, R⟩ := ih
    have hres := hexS_res R value hp upper forceSign hx
    rw [sabsOf_text, sabsOf_bytes] at hres
    obtain ⟨st', t'', a', b', sl', hop, R'⟩ := (hres hf hc).some
    rw [hs] at hop
    simp only [Out.ret.injEq, Prod.mk.injEq] at hop
    rw [hop.2]
    exact ⟨b', sl', by rw [R'.abs_eq]; exact R'⟩

/-- Histories from a represented state. -/
theorem runStr_ok {P : Params} (ops : List SOp) : ∀ {t : Str} {a : SState} {b : Block Byte}
    {sl : List (Cell Byte)}, SRep P t a b sl → SAllInDomain P a ops →
    ∃ sts t' a' b' sl', runStr t ops = .ret (sts, t') ∧ SRuns P a ops sts a' ∧ SRep P t' a' b' sl' := by
  induction ops with
  | nil =>
    intro t a b sl R _
    exact ⟨[], t, a, b, sl, rfl, .nil a, R⟩
  | cons op ops ih =>
    intro t a b sl R hd
    cases hd with
    | cons hd ht =>
      obtain ⟨junk, st, t1, a1, b1, sl1, hj, hstep, hop, R1⟩ := sop_ok R op hd
      have ht' := ht junk hj
      rw [hstep] at ht'
      obtain ⟨sts, t', a', b', sl', hrun, hruns, R'⟩ := ih R1 ht'
      refine ⟨st :: sts, t', a', b', sl', ?_, .cons junk hj hstep hruns, R'⟩
      simp [runStr, hop, hrun]

end Zy
