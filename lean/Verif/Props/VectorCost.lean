import Verif.Lemmas.VectorCost
import Verif.Props.Vector

/-!
# Property theorems about the cost of vectors (C139)

The cost of a history is the number of elements for which it asks the allocator to find a new place.
-/

namespace Zy

open Spec

variable {α : Type}

/-- C139 (for growth factors of at least 2 and shrink thresholds that are 0 or larger than the growth
factor, for example the defaults 2 and 4): every history of requests on every vector costs at most the
square of the growth factor for every element that is added, removed or asked room for, plus twice the
growth factor for every element of the initial capacity. -/
theorem C139_amortised_partial {P : Params} {s : VS α} (h : Reach P s) (hg : 2 ≤ P.growth)
    (ht : P.thr = 0 ∨ P.growth < P.thr) (ops : List (VOp α)) (hd : AllInDomain P (absOf s) ops) :
    ∃ sts s', runVec s ops = .ret (sts, s') ∧
      spent s'.w.trace ≤
        spent s.w.trace + P.growth * P.growth * touchedRun s ops + 2 * P.growth * vecGetCapacity s := by
  obtain ⟨b, slack, R⟩ := h.rep
  obtain ⟨sts, s', a', b', sl', hrun, R', hle⟩ := pay_run hg ht ops R hd
  refine ⟨sts, s', hrun, ?_⟩
  have := credit_le (g := P.growth) R.len
  rw [show vecGetCapacity s = (absOf s).cap from rfl]
  omega

/-- C139 for the default parameters of `ZyanVectorInit`. -/
theorem C139_amortised_default {P : Params} {s : VS α} (h : Reach P s) (hg : P.growth = 2) (ht : P.thr = 4)
    (ops : List (VOp α)) (hd : AllInDomain P (absOf s) ops) :
    ∃ sts s', runVec s ops = .ret (sts, s') ∧
      spent s'.w.trace ≤ spent s.w.trace + 4 * touchedRun s ops + 4 * vecGetCapacity s := by
  have := C139_amortised_partial h (by omega) (Or.inr (by omega)) ops hd
  rw [hg] at this
  exact this

/-- C139 fails for every shrink threshold from 1 to the growth factor: a vector that has just grown to `n`
elements is emptied by `n` pops at a cost of at least `growth * n * (n - 1) / 2`. -/
theorem C139_negation_threshold {P : Params} {s : VS α} (h : Reach P s) (hdyn : P.allocator.isSome = true)
    (ht : P.thr ≠ 0) (htg : P.thr ≤ P.growth) {es : List (Cell α)} (he : contents s = .ret es) (i : Nat)
    (hi : i ≤ es.length) (xs : List (Cell α)) (hx : vecGetCapacity s < es.length + xs.length)
    (hf : Fits P (es.length + xs.length)) :
    ∃ sts s', runVec s (.insertRange i xs :: List.replicate (es.length + xs.length) .pop) = .ret (sts, s') ∧
      contents s' = .ret [] ∧
      touchedRun s (.insertRange i xs :: List.replicate (es.length + xs.length) .pop) ≤
        es.length + 2 * xs.length ∧
      2 * spent s.w.trace + P.growth * ((es.length + xs.length) * (es.length + xs.length - 1)) ≤
        2 * spent s'.w.trace := by
  obtain ⟨b, slack, R⟩ := h.rep
  rw [R.contents] at he
  injection he with he
  subst he
  obtain ⟨junk, st, s1, a1, b1, sl1, hj, hstep, hop, R1⟩ := op_ok R (.insertRange i xs) hf
  have hcap : vecGetCapacity s = (absOf s).cap := rfl
  have hlen := R.len
  have hxs : xs ≠ [] := by
    rintro rfl
    rw [List.length_nil] at hx
    omega
  have hroom : Spec.room P (absOf s).cap ((absOf s).elems.length + xs.length) =
      some (((absOf s).elems.length + xs.length) * P.growth) := by
    unfold Spec.room
    rw [if_neg (by omega), if_pos hdyn]
  have hni : ¬ i > (absOf s).elems.length := by omega
  simp only [step, hxs, hni, if_false, hroom, Prod.mk.injEq] at hstep
  obtain ⟨rfl, rfl⟩ := hstep
  obtain ⟨sts, s', a', b', sl', hrun, R', hnil, hle⟩ := pops_cost hdyn ht htg
    ((absOf s).elems.length + xs.length) R1 (by simp; omega) (Nat.le_refl _)
  refine ⟨stSuccess :: sts, s', by simp [runVec, hop, hrun], by rw [R'.contents, hnil], ?_, ?_⟩
  · rw [touchedRun, hop]
    have h1 := touchedRun_pops ((absOf s).elems.length + xs.length) s1
    have h2 : touched (absOf s) (.insertRange i xs) = xs.length := rfl
    rw [h2]
    dsimp only
    omega
  · have := (vecInsertRange_cost s _ _ _ _ hop).1.1
    dsimp only at this
    omega

/-- C139 fails for the growth factor 1: `m` pushes onto a full vector cost at least `m * (m + 1) / 2`. -/
theorem C139_negation_growth {P : Params} {s : VS α} (h : Reach P s) (hdyn : P.allocator.isSome = true)
    (hg : P.growth = 1) (hfull : vecGetCapacity s = vecGetSize s) (xs : List (Cell α))
    (hf : Fits P (vecGetSize s + xs.length)) :
    ∃ sts s', runVec s (xs.map .push) = .ret (sts, s') ∧ touchedRun s (xs.map .push) ≤ xs.length ∧
      2 * spent s.w.trace + xs.length * (xs.length + 1) ≤ 2 * spent s'.w.trace := by
  obtain ⟨b, slack, R⟩ := h.rep
  have hsz : vecGetSize s = (absOf s).elems.length := R.size
  have hcap : vecGetCapacity s = (absOf s).cap := rfl
  rw [hsz] at hf
  obtain ⟨sts, s', a', b', sl', hrun, R', -, hle⟩ := pushes_cost hdyn hg xs R (by omega) hf
  exact ⟨sts, s', hrun, touchedRun_pushes xs s, by omega⟩

/-! ## Examples -/

/-- The example history: three pushes, a deletion, an insertion that grows, everything removed. -/
def exCostOps : List (VOp Nat) :=
  [.push (some 1), .push (some 2), .push (some 3), .deleteRange 0 2,
   .insertRange 1 [some 7, some 8, some 9, some 10, some 11], .clear]

example : (runVec exS exCostOps).bind (fun r => .ret (spent r.2.w.trace)) = .ret 15 := by decide
example : spent exS.w.trace = 4 ∧ touchedRun exS exCostOps = 19 := by decide

/-- Growth factor 4 and shrink threshold 2. -/
def exBadP : Params := ⟨some 0, 4, 2, 8, false⟩

def exBad : VS Nat :=
  ⟨{ allocator := some 0, growth := 4, shrink := 2, size := 0, cap := 1, esz := 8, hasDtor := false,
     data := some ⟨0, [none]⟩ }, ⟨fun _ => stSuccess, 1, 1, [.alloc 0 0 8 1]⟩⟩

theorem exBad_reach : Reach exBadP exBad :=
  Reach.init (w := exW) (cap := 1) (a := 0) ⟨rfl, rfl⟩ (fun _ => failed_success)
    ⟨rfl, by decide, by decide⟩ (by decide) rfl

example : ∃ sts s', runVec exBad (.insertRange 0 [some 1, some 2, some 3, some 4, some 5] ::
    List.replicate 5 .pop) = .ret (sts, s') ∧ 2 * spent s'.w.trace ≥ 4 * (5 * 4) := by
  obtain ⟨sts, s', h1, _, _, h2⟩ := C139_negation_threshold exBad_reach rfl (by decide) (by decide)
    (es := []) rfl 0 (by decide) [some 1, some 2, some 3, some 4, some 5] (by decide)
    (by show _ < _; decide)
  exact ⟨sts, s', h1, h2⟩

/-- Growth factor 1. -/
def exSlowP : Params := ⟨some 0, 1, 0, 8, false⟩

def exSlow : VS Nat :=
  ⟨{ allocator := some 0, growth := 1, shrink := 0, size := 1, cap := 1, esz := 8, hasDtor := false,
     data := some ⟨0, [some 5]⟩ }, ⟨fun _ => stSuccess, 1, 1, [.alloc 0 0 8 1]⟩⟩

def exSlow0 : VS Nat :=
  ⟨{ allocator := some 0, growth := 1, shrink := 0, size := 0, cap := 1, esz := 8, hasDtor := false,
     data := some ⟨0, [none]⟩ }, ⟨fun _ => stSuccess, 1, 1, [.alloc 0 0 8 1]⟩⟩

theorem exSlow_reach : Reach exSlowP exSlow := by
  have h0 : Reach exSlowP exSlow0 :=
    Reach.init (w := exW) (cap := 1) (a := 0) ⟨rfl, rfl⟩ (fun _ => failed_success)
      ⟨rfl, by decide, by decide⟩ (by decide) rfl
  exact Reach.step (op := .push (some 5)) h0 (by show _ < _; decide) rfl

example : ∃ sts s', runVec exSlow ([some 1, some 2, some 3].map .push) = .ret (sts, s') ∧
    2 * spent s'.w.trace ≥ 3 * 4 := by
  obtain ⟨sts, s', h1, _, h2⟩ := C139_negation_growth exSlow_reach rfl rfl rfl [some 1, some 2, some 3]
    (by show _ < _; decide)
  exact ⟨sts, s', h1, h2⟩

end Zy
