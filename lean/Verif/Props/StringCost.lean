import Verif.Lemmas.StringCost
import Verif.Props.String

/-!
# Property theorems about the cost of strings (C159)

The cost of a history is the number of bytes for which it asks the allocator to find a new place
(`spent`, in `Verif.Spec.VectorCost`); `stouchedRun` is in `Verif.Spec.StringCost`.
-/

namespace Zy

open Spec

/-! ## C159: strings cost constant time per character -/

/-- **C159** (for growth factors of at least 2 and shrink thresholds that are 0 or larger than the growth
factor, for example the defaults 2 and 4): every history of requests on every string costs at most the
square of the growth factor for every character that is added, removed or asked room for, plus twice the
growth factor for every byte of the initial storage. Missing for the full property: the other growth
factors and shrink thresholds, for which it is false (`C159_negation_threshold`,
`C159_negation_growth`). -/
theorem C159_amortised_partial {P : Params} {t : Str} (h : SReach P t) (hg : 2 ≤ P.growth)
    (ht : P.thr = 0 ∨ P.growth < P.thr) (ops : List SOp) (hd : SAllInDomain P (sabsOf t) ops) :
    ∃ sts t', runStr t ops = .ret (sts, t') ∧
      spent t'.s.w.trace ≤
        spent t.s.w.trace + P.growth * P.growth * stouchedRun t ops +
          2 * P.growth * (storage t).length := by
  obtain ⟨b, sl, R⟩ := h.rep
  obtain ⟨sts, t', a', b', sl', hrun, R', hle⟩ := pay_srun hg ht ops R hd
  refine ⟨sts, t', hrun, ?_⟩
  have hlen : (sabsOf t).text.length + 1 ≤ (sabsOf t).bytes := by
    have := R.rep.len
    rwa [List.length_append] at this
  have h1 := credit_le (g := P.growth) hlen
  have h2 : (sabsOf t).bytes ≤ (storage t).length := by
    unfold storage
    rw [R.rep.data]
    exact R.rep.room
  have h3 : 2 * P.growth * (sabsOf t).bytes ≤ 2 * P.growth * (storage t).length :=
    Nat.mul_le_mul_left _ h2
  omega

/-- **C159** for the default parameters of `ZyanStringInit`. -/
theorem C159_amortised_default {P : Params} {t : Str} (h : SReach P t) (hg : P.growth = 2)
    (ht : P.thr = 4) (ops : List SOp) (hd : SAllInDomain P (sabsOf t) ops) :
    ∃ sts t', runStr t ops = .ret (sts, t') ∧
      spent t'.s.w.trace ≤ spent t.s.w.trace + 4 * stouchedRun t ops + 4 * (storage t).length := by
  have := C159_amortised_partial h (by omega) (Or.inr (by omega)) ops hd
  rw [hg] at this
  exact this

/-- **C159** fails for every shrink threshold from 1 to the growth factor: a string that has just grown to
`n` characters is emptied, character by character, at a cost of at least `growth * n * (n + 1) / 2`. -/
theorem C159_negation_threshold {P : Params} {t : Str} (h : SReach P t)
    (hdyn : P.allocator.isSome = true) (ht : P.thr ≠ 0) (htg : P.thr ≤ P.growth)
    (x : List (Cell Byte)) (hx : (sabsOf t).bytes < (textOf t).length + x.length + 1)
    (hf : SFits ((textOf t).length + x.length + 1)) :
    ∃ sts t', runStr t (.append x :: List.replicate ((textOf t).length + x.length) (.delete 0 1)) =
        .ret (sts, t') ∧ textOf t' = [] ∧
      stouchedRun t (.append x :: List.replicate ((textOf t).length + x.length) (.delete 0 1)) ≤
        (textOf t).length + 2 * x.length ∧
      2 * spent t.s.w.trace + P.growth * (((textOf t).length + x.length) *
        ((textOf t).length + x.length + 1)) ≤ 2 * spent t'.s.w.trace := by
  obtain ⟨b, sl, R⟩ := h.rep
  rw [← sabsOf_text] at hx hf ⊢
  exact threshold_costs R rfl hdyn ht htg x hx hf

/-- **C159** fails for the growth factor 1: appending `m` characters one by one to a full string costs at
least `m * (m + 1) / 2`. -/
theorem C159_negation_growth {P : Params} {t : Str} (h : SReach P t)
    (hdyn : P.allocator.isSome = true) (hg : P.growth = 1)
    (hfull : (sabsOf t).bytes = (textOf t).length + 1) (xs : List (Cell Byte))
    (hf : SFits ((textOf t).length + xs.length + 1)) :
    ∃ sts t', runStr t (xs.map fun c => .append [c]) = .ret (sts, t') ∧
      textOf t' = textOf t ++ xs ∧ stouchedRun t (xs.map fun c => .append [c]) ≤ xs.length ∧
      2 * spent t.s.w.trace + xs.length * (xs.length + 1) ≤ 2 * spent t'.s.w.trace := by
  obtain ⟨b, sl, R⟩ := h.rep
  rw [← sabsOf_text] at hfull hf ⊢
  obtain ⟨sts, t', a', b', sl', hrun, R', he, hle⟩ := appends_cost hdyn hg xs R (by omega) hf
  exact ⟨sts, t', hrun, by rw [← sabsOf_text, R'.abs_eq, he], stouchedRun_appends xs t, by omega⟩

/-! ## Examples -/

/-- The history of the examples of C18. -/
example : ∃ sts t', runStr exStr exSOps = .ret (sts, t') ∧
    spent t'.s.w.trace ≤ spent exStr.s.w.trace + 4 * stouchedRun exStr exSOps +
      4 * (storage exStr).length :=
  C159_amortised_default exStr_reach rfl rfl exSOps exSOps_inDomain

example : ∃ sts t', runStr exStr exSOps = .ret (sts, t') ∧
    spent t'.s.w.trace ≤ spent exStr.s.w.trace + 2 * 2 * stouchedRun exStr exSOps +
      2 * 2 * (storage exStr).length :=
  C159_amortised_partial exStr_reach (by decide) (Or.inr (by decide)) exSOps exSOps_inDomain

/-- A history that grows and clears: the costs are 80 for growing and 1 for clearing. -/
def exSCost : List SOp := [.append (List.replicate 35 (some 65#8)), .clear]

theorem exSCost_inDomain : SAllInDomain exSP (sabsOf exStr) exSCost := by
  refine .cons (by show _ < _; decide) fun j hj => ?_
  obtain rfl := List.eq_nil_of_length_eq_zero hj
  exact .cons trivial fun j hj => .nil _

example : (runStr exStr exSCost).bind (fun r => .ret (spent r.2.s.w.trace)) = .ret 81 := by
  decide +kernel
example : spent exStr.s.w.trace = 0 ∧ stouchedRun exStr exSCost = 75 := by decide +kernel

example : ∃ sts t', runStr exStr exSCost = .ret (sts, t') ∧
    spent t'.s.w.trace ≤ spent exStr.s.w.trace + 4 * stouchedRun exStr exSCost +
      4 * (storage exStr).length :=
  C159_amortised_default exStr_reach rfl rfl exSCost exSCost_inDomain

/-- Growth factor 3 and shrink threshold 2. -/
def exSBadP : Params := ⟨some 0, 3, 2, 1, false⟩

/-- The string "ab" with these parameters. -/
def exSBad : Str :=
  ⟨⟨{ allocator := some 0, growth := 3, shrink := 2, size := 3, cap := 33, esz := 1, hasDtor := false,
      data := some ⟨0, (chars ['a', 'b']).map some ++ [some 0#8] ++ List.replicate 30 none⟩ },
    ⟨fun _ => stSuccess, 1, 1, [.alloc 0 0 1 33]⟩⟩, false⟩

theorem exSBad_reach : SReach exSBadP exSBad :=
  SReach.dup (P := exSBadP) (w := exSW) (st := stSuccess) (w' := exSBad.s.w)
    (x := (chars ['a', 'b']).map some) (cap := 0) (a := 0) ⟨rfl, rfl⟩
    (fun _ => failed_success) ⟨rfl, by decide, by decide, rfl, rfl⟩ (by decide) (by show _ < _; decide)
    (by cbv)

example : ∃ sts t', runStr exSBad (.append (List.replicate 31 (some 65#8)) ::
    List.replicate 33 (.delete 0 1)) = .ret (sts, t') ∧ 2 * spent t'.s.w.trace ≥ 3 * (33 * 34) := by
  have e : (textOf exSBad).length = 2 := by decide +kernel
  have := C159_negation_threshold exSBad_reach rfl (by decide) (by decide)
    (List.replicate 31 (some 65#8)) (by rw [e]; decide) (by rw [e]; show _ < _; decide)
  rw [e] at this
  obtain ⟨sts, t', h1, _, _, h2⟩ := this
  have h3 : 2 * spent exSBad.s.w.trace + 3 * (33 * 34) ≤ 2 * spent t'.s.w.trace := h2
  exact ⟨sts, t', h1, Nat.le_trans (Nat.le_add_left _ _) h3⟩

/-- Growth factor 1. -/
def exSSlowP : Params := ⟨some 0, 1, 0, 1, false⟩

/-- The string "ab" with growth factor 1. -/
def exSSlow0 : Str :=
  ⟨⟨{ allocator := some 0, growth := 1, shrink := 0, size := 3, cap := 33, esz := 1, hasDtor := false,
      data := some ⟨0, (chars ['a', 'b']).map some ++ [some 0#8] ++ List.replicate 30 none⟩ },
    ⟨fun _ => stSuccess, 1, 1, [.alloc 0 0 1 33]⟩⟩, false⟩

/-- The same with exactly the storage it needs. -/
def exSSlow : Str :=
  ⟨⟨{ allocator := some 0, growth := 1, shrink := 0, size := 3, cap := 3, esz := 1, hasDtor := false,
      data := some ⟨1, (chars ['a', 'b']).map some ++ [some 0#8]⟩ },
    ⟨fun _ => stSuccess, 2, 2, [.alloc 0 0 1 33, .realloc 0 0 1 1 3]⟩⟩, false⟩

theorem exSSlow_reach : SReach exSSlowP exSSlow := by
  have h0 : SReach exSSlowP exSSlow0 :=
    SReach.dup (P := exSSlowP) (w := exSW) (st := stSuccess) (w' := exSSlow0.s.w)
      (x := (chars ['a', 'b']).map some) (cap := 0) (a := 0) ⟨rfl, rfl⟩
      (fun _ => failed_success) ⟨rfl, by decide, by decide, rfl, rfl⟩ (by decide) (by show _ < _; decide)
      (by cbv)
  exact SReach.step (op := .shrinkToFit) (st := stSuccess) h0 trivial (by cbv)

example : ∃ sts t', runStr exSSlow ([some 99#8, some 100#8, some 101#8].map fun c => .append [c]) =
    .ret (sts, t') ∧ 2 * spent t'.s.w.trace ≥ 3 * 4 := by
  have e : (textOf exSSlow).length = 2 := by decide +kernel
  obtain ⟨sts, t', h1, _, _, h2⟩ := C159_negation_growth exSSlow_reach rfl rfl (by rw [e]; rfl)
    [some 99#8, some 100#8, some 101#8] (by rw [e]; show _ < _; decide)
  exact ⟨sts, t', h1, Nat.le_trans (Nat.le_add_left _ _) h2⟩

end Zy
