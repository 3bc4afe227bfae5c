import Verif.Spec.Fair
import Verif.Lemmas.WinThreads

/-!
# Lemmas about fair schedules
-/

namespace Zy

open Spec

section

variable {σ : Type}

/-- Steps of any kind of program. -/
def stepsOf (step : σ → Nat → Out σ) (g : σ) : List Nat → Out σ
  | [] => .ret g
  | t :: ts => (step g t).bind fun g' => stepsOf step g' ts

theorem stepsOf_append (step : σ → Nat → Out σ) : ∀ (a b : List Nat) (g : σ),
    stepsOf step g (a ++ b) = (stepsOf step g a).bind fun g' => stepsOf step g' b
  | [], _, _ => rfl
  | t :: a, b, g => by
    show (step g t).bind _ = ((step g t).bind _).bind _
    cases step g t with
    | ub w => rfl
    | ret g' => exact stepsOf_append step a b g'

/-- What the argument needs: each step is without effect or makes progress (in the sense of `μ`), and unless the program is
done some thread makes progress with its next step. -/
structure Advances (step : σ → Nat → Out σ) (Inv done : σ → Prop) (μ : σ → Nat) (n : Nat) : Prop where
  each : ∀ g t, Inv g → ∃ g', step g t = .ret g' ∧ Inv g' ∧ (g' = g ∨ μ g' < μ g)
  go : ∀ g, Inv g → ¬ done g → ∃ t, t < n ∧ ∀ g', step g t = .ret g' → μ g' < μ g
  rest : ∀ g t, Inv g → done g → step g t = .ret g

variable {step : σ → Nat → Out σ} {Inv done : σ → Prop} {μ : σ → Nat} {n : Nat}

theorem Advances.steps (A : Advances step Inv done μ n) : ∀ (r : List Nat) {g : σ}, Inv g →
    ∃ g', stepsOf step g r = .ret g' ∧ Inv g' ∧ μ g' ≤ μ g
  | [], g, h => ⟨g, rfl, h, Nat.le_refl _⟩
  | t :: r, g, h => by
    obtain ⟨g1, e1, h1, hd⟩ := A.each g t h
    obtain ⟨g2, e2, h2, hl⟩ := Advances.steps A r h1
    refine ⟨g2, by rw [stepsOf, e1]; exact e2, h2, ?_⟩
    rcases hd with e | hd
    · rw [← e]; exact hl
    · omega

theorem Advances.still (A : Advances step Inv done μ n) : ∀ (r : List Nat) {g : σ}, Inv g → done g →
    stepsOf step g r = .ret g
  | [], _, _, _ => rfl
  | t :: r, g, h, hd => by
    rw [stepsOf, A.rest g t h hd]
    exact Advances.still A r h hd

/-- A round in which the thread that can go on has its turn makes progress. -/
theorem Advances.round (A : Advances step Inv done μ n) {t : Nat} : ∀ (r : List Nat) {g : σ}, Inv g → t ∈ r →
    (∀ g', step g t = .ret g' → μ g' < μ g) → ∃ g', stepsOf step g r = .ret g' ∧ Inv g' ∧ μ g' < μ g
  | u :: r, g, h, hm, hg => by
    obtain ⟨g1, e1, h1, hd⟩ := A.each g u h
    rcases hd with e | hd
    · subst e
      have hm' : t ∈ r := by
        rcases List.mem_cons.1 hm with hh | hh
        · subst hh
          exact absurd (hg _ e1) (Nat.lt_irrefl _)
        · exact hh
      obtain ⟨g2, e2, h2, hl⟩ := Advances.round A r h hm' hg
      exact ⟨g2, by rw [stepsOf, e1]; exact e2, h2, hl⟩
    · obtain ⟨g2, e2, h2, hl⟩ := A.steps r h1
      exact ⟨g2, by rw [stepsOf, e1]; exact e2, h2, by omega⟩

/-- As many rounds as there is work are enough. -/
theorem Advances.rounds (A : Advances step Inv done μ n) : ∀ (rounds : List (List Nat)) {g : σ}, Inv g →
    FullRounds n rounds → μ g ≤ rounds.length → ∃ g', stepsOf step g rounds.flatten = .ret g' ∧ Inv g' ∧ done g'
  | rounds, g, h, hf, hl => by
    by_cases hd : done g
    · exact ⟨g, A.still _ h hd, h, hd⟩
    · obtain ⟨t, ht, hg⟩ := A.go g h hd
      match rounds, hf, hl with
      | [], hf, hl =>
        obtain ⟨g1, e1, _, _⟩ := A.each g t h
        have := hg g1 e1
        simp at hl
        omega
      | r :: rs, hf, hl =>
        obtain ⟨g1, e1, h1, hlt⟩ := A.round r h (hf r List.mem_cons_self t ht) hg
        obtain ⟨g2, e2, h2, hd2⟩ := Advances.rounds A rs h1 (fun r' hr' => hf r' (List.mem_cons_of_mem _ hr')) (by
          simp at hl
          omega)
        exact ⟨g2, by rw [List.flatten_cons, stepsOf_append, e1]; exact e2, h2, hd2⟩

end

/-! ## Fair schedules contain rounds -/

/-- The steps from `i` on, `k` of them. -/
def someSteps (sched : Nat → Nat) (i k : Nat) : List Nat := (List.range k).map fun x => sched (i + x)

theorem someSteps_append (sched : Nat → Nat) (i a b : Nat) :
    someSteps sched i (a + b) = someSteps sched i a ++ someSteps sched (i + a) b := by
  unfold someSteps
  rw [List.range_add, List.map_append, List.map_map]
  congr 1
  refine List.map_congr_left fun x _ => ?_
  show sched (i + (a + x)) = _
  rw [Nat.add_assoc]

theorem firstSteps_some (sched : Nat → Nat) (k : Nat) : firstSteps sched k = someSteps sched 0 k := by
  unfold firstSteps someSteps
  refine List.map_congr_left fun x _ => ?_
  rw [Nat.zero_add]

theorem someSteps_mem {sched : Nat → Nat} {i j k : Nat} (h1 : i ≤ j) (h2 : j < i + k) : sched j ∈ someSteps sched i k :=
  List.mem_map.2 ⟨j - i, List.mem_range.2 (by omega), by rw [Nat.add_sub_cancel' h1]⟩

/-- From any moment on there is a full round. -/
theorem Spec.Fair.round {n : Nat} {sched : Nat → Nat} (h : Fair n sched) (i : Nat) :
    ∃ k, ∀ t, t < n → t ∈ someSteps sched i k := by
  suffices ∀ m, m ≤ n → ∃ k, ∀ t, t < m → t ∈ someSteps sched i k from this n (Nat.le_refl _)
  intro m
  induction m with
  | zero => exact fun _ => ⟨0, fun t ht => by omega⟩
  | succ m ih =>
    intro hm
    obtain ⟨k, hk⟩ := ih (by omega)
    obtain ⟨j, hj, e⟩ := h m (by omega) (i + k)
    refine ⟨j - i + 1, fun t ht => ?_⟩
    rcases Nat.lt_or_ge t m with h1 | h1
    · have h2 := hk t h1
      rw [show j - i + 1 = k + (j - i + 1 - k) by omega, someSteps_append]
      exact List.mem_append_left _ h2
    · have : t = m := by omega
      subst this
      rw [← e]
      exact someSteps_mem (by omega) (by omega)

/-- There are as many full rounds as one likes. -/
theorem Spec.Fair.rounds {n : Nat} {sched : Nat → Nat} (h : Fair n sched) : ∀ (m i : Nat),
    ∃ k rounds, someSteps sched i k = List.flatten rounds ∧ FullRounds n rounds ∧ rounds.length = m
  | 0, _ => ⟨0, [], rfl, (by simp [FullRounds]), rfl⟩
  | m + 1, i => by
    obtain ⟨k, hk⟩ := h.round i
    obtain ⟨k', rs, e, hf, hl⟩ := Spec.Fair.rounds h m (i + k)
    refine ⟨k + k', someSteps sched i k :: rs, ?_, ?_, by simp [hl]⟩
    · rw [someSteps_append, e]; rfl
    · intro r hr
      rcases List.mem_cons.1 hr with e | hr
      · rw [e]; exact hk
      · exact hf r hr

theorem Advances.fair {σ : Type} {step : σ → Nat → Out σ} {Inv done : σ → Prop} {μ : σ → Nat} {n : Nat}
    (A : Advances step Inv done μ n) {g : σ} (h : Inv g) {sched : Nat → Nat} (hf : Fair n sched) :
    ∃ k g', done g' ∧ Inv g' ∧ ∀ k', k ≤ k' → stepsOf step g (firstSteps sched k') = .ret g' := by
  obtain ⟨k, rounds, e, hr, hl⟩ := hf.rounds (μ g) 0
  obtain ⟨g', e', h', hd⟩ := A.rounds rounds h hr (by omega)
  refine ⟨k, g', hd, h', fun k' hk => ?_⟩
  rw [firstSteps_some, show k' = k + (k' - k) by omega, someSteps_append, e, stepsOf_append, e', Out.ret_bind']
  exact A.still _ h' hd

/-! ## The programs -/

theorem lockRun_stepsOf (limit : Nat) : ∀ (sched : List Nat) (g : LockState),
    lockRun limit g sched = stepsOf (lockStep limit) g sched
  | [], _ => rfl
  | t :: ts, g => by
    show (lockStep limit g t).bind _ = (lockStep limit g t).bind _
    cases lockStep limit g t with
    | ub w => rfl
    | ret g' => exact lockRun_stepsOf limit ts g'

/-- What remains of all programs. -/
def lockWork (n : Nat) (g : LockState) : Nat := sumBelow (fun t => (g.prog t).length) n

theorem lock_advances (limit n : Nat) : Advances (lockStep limit)
    (fun g => (∃ H, OrderInv limit g H) ∧ ∀ t, n ≤ t → g.prog t = []) (fun g => ∀ t, g.prog t = []) (lockWork n) n where
  each := by
    rintro g t ⟨⟨H, I⟩, hn⟩
    rcases lockStep_ok I t with ⟨e, _⟩ | ⟨g1, H1, i, p, e, I1, hp, hpr⟩
    · exact ⟨g, e, ⟨⟨H, I⟩, hn⟩, .inl rfl⟩
    · refine ⟨g1, e, ⟨⟨H1, I1⟩, fun u hu => ?_⟩, .inr ?_⟩
      · rw [hpr u]
        by_cases hut : u = t
        · have := hn u hu
          rw [hut, hp] at this
          cases this
        · rw [if_neg hut]; exact hn u hu
      · have htn : t < n := by
          rcases Nat.lt_or_ge t n with h | h
          · exact h
          · rw [hn t h] at hp; cases hp
        have hs := sumBelow_less (f := fun u => (g.prog u).length) (f' := fun u => (g1.prog u).length) (t := t)
          (fun u hu => by
            show (g1.prog u).length = _
            rw [hpr u, if_neg hu])
          (by
            show (g1.prog t).length + 1 = _
            rw [hpr t, if_pos rfl, hp]
            rfl) n
        rw [if_pos htn] at hs
        show sumBelow _ n < sumBelow _ n
        omega
  go := by
    rintro g ⟨⟨H, I⟩, hn⟩ hd
    obtain ⟨t0, h0⟩ := Classical.not_forall.1 hd
    obtain ⟨t, htn, hne, hnw⟩ := someone_goes I hn h0
    refine ⟨t, htn, fun g' e' => ?_⟩
    rcases lockStep_ok I t with ⟨_, h | h⟩ | ⟨g1, H1, i, p, e, I1, hp, hpr⟩
    · exact absurd h hne
    · exact absurd h hnw
    · rw [e] at e'
      injection e' with e'
      subst e'
      have hs := sumBelow_less (f := fun u => (g.prog u).length) (f' := fun u => (g1.prog u).length) (t := t)
        (fun u hu => by
          show (g1.prog u).length = _
          rw [hpr u, if_neg hu])
        (by
          show (g1.prog t).length + 1 = _
          rw [hpr t, if_pos rfl, hp]
          rfl) n
      rw [if_pos htn] at hs
      show sumBelow _ n < sumBelow _ n
      omega
  rest := by
    intro g t _ hd
    simp only [lockStep, hd t]

variable {S L : Type}

theorem guardedRun_stepsOf (limit : Nat) : ∀ (sched : List Nat) (g : GState S L),
    guardedRun limit g sched = stepsOf (guardedStep limit) g sched
  | [], _ => rfl
  | t :: ts, g => by
    show (guardedStep limit g t).bind _ = (guardedStep limit g t).bind _
    cases guardedStep limit g t with
    | ub w => rfl
    | ret g' => exact guardedRun_stepsOf limit ts g'

/-- A step of a thread that is not ready has no effect, or begins the next section. -/
theorem gstep_not_ready {limit : Nat} {p : Turns S L} {g g' : GState S L} (h : GInv limit p g) {t : Nat}
    (hR : ¬ Ready g t) (hg : guardedStep limit g t = .ret g') : g' = g ∨ work (g'.thr t) < work (g.thr t) := by
  by_cases hF : Finished g t
  · left
    unfold guardedStep at hg
    rw [hF.1, hF.2] at hg
    cases hg
    rfl
  · cases h with
    | nobody hm hs ho => exact absurd ⟨hF, .inl (by rw [hm])⟩ hR
    | inside o d b done todo hd hm hN hb hr hn hp ho =>
      have hne : o ≠ t := fun e => hR ⟨hF, .inr (by rw [hm, e])⟩
      rcases (ho t (Ne.symm hne)).2 with ⟨h1, h2⟩ | ⟨b', h1, h2⟩
      · right
        unfold guardedStep at hg
        rw [h1] at hg
        cases hr' : (g.thr t).rest with
        | nil => exact absurd ⟨h1, hr'⟩ hF
        | cons c r =>
          rw [hr'] at hg
          cases hg
          rw [gput_same]
          simp only [work, h1, hr', List.length_cons, List.length_append, List.length_nil, List.map_cons, List.sum_cons]
          omega
      · left
        unfold guardedStep at hg
        rw [h1] at hg
        obtain ⟨r, e, hr'⟩ := enter_taken (limit := limit) (d := d) hne b'.1
        simp only [hm, e, Out.bind] at hg
        rcases hr' with e1 | e1 <;> subst e1 <;> cases hg <;> rw [← hm]

theorem guarded_advances (limit n : Nat) : Advances (guardedStep (S := S) (L := L) limit)
    (fun g => (∃ p, AllNest limit p ∧ GInv limit p g) ∧ Few n g) (fun g => ∀ t, Finished g t) (fun g => workOf g n) n where
  each := by
    rintro g t ⟨⟨p, hN, h⟩, hF⟩
    obtain ⟨g1, H⟩ := gstep_ok hN h t
    have hd : g1 = g ∨ work (g1.thr t) < work (g.thr t) := by
      by_cases hR : Ready g t
      · exact .inr (H.less hR)
      · exact gstep_not_ready h hR H.eq
    refine ⟨g1, H.eq, ⟨⟨_, hN.turns (completes g t), H.inv⟩, fun u hu => ?_⟩, ?_⟩
    · by_cases hut : u = t
      · subst hut
        have hfu := hF u hu
        have := H.eq
        unfold guardedStep at this
        rw [hfu.1, hfu.2] at this
        cases this
        exact hfu
      · have := hF u hu
        unfold Finished at *
        rw [H.others u hut]; exact this
    · rcases hd with e | hl
      · exact .inl e
      · have htn : t < n := Nat.lt_of_not_le fun hle => by
          have hft := hF t hle
          have := H.eq
          unfold guardedStep at this
          rw [hft.1, hft.2] at this
          cases this
          exact Nat.lt_irrefl _ hl
        have := workOf_less H.others hl n
        rw [if_pos htn] at this
        exact .inr (by omega)
  go := by
    rintro g ⟨⟨p, hN, h⟩, hF⟩ hd
    obtain ⟨t, ht⟩ := Classical.not_forall.1 hd
    obtain ⟨u, hu⟩ := h.ready ht
    have hun : u < n := Nat.lt_of_not_le fun hle => hu.1 (hF u hle)
    refine ⟨u, hun, fun g' e' => ?_⟩
    obtain ⟨g1, H⟩ := gstep_ok hN h u
    rw [H.eq] at e'
    cases e'
    have hless := workOf_less H.others (H.less hu) n
    rw [if_pos hun] at hless
    omega
  rest := by
    intro g t _ hd
    unfold guardedStep
    rw [(hd t).1, (hd t).2]

end Zy
