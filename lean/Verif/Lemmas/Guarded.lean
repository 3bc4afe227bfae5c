import Verif.Spec.Guarded

/-!
# Lemmas about programs that guard data with a critical section
-/

namespace Zy

open Spec

variable {S L : Type}

/-! ## The invariant -/

/-- `Midway` with the state of the critical section. -/
inductive GInv (limit : Nat) (p : Turns S L) (g : GState S L) : Prop where
  | nobody (hm : g.mutex = ⟨.recursive, none, 0⟩) (hs : g.shared = p.shared) (ho : ∀ t, Outside p g t)
  | inside (t d : Nat) (b : GSection S L) (done todo : List (GItem S L)) (hd : 0 < d)
      (hm : g.mutex = ⟨.recursive, some t, d⟩) (hN : Nests limit d todo) (hb : b.2 = done ++ todo)
      (hr : p.rest t = b :: (g.thr t).rest) (hn : (g.thr t).now = todo ++ [.leave])
      (hp : (g.shared, (g.thr t).loc) = performs done p.shared (p.loc t)) (ho : ∀ u, u ≠ t → Outside p g u)

theorem GInv.midway {limit : Nat} {p : Turns S L} {g : GState S L} (h : GInv limit p g) : Midway p g := by
  cases h with
  | nobody hm hs ho => exact .nobody hs ho
  | inside t d b done todo hd hm hN hb hr hn hp ho => exact .inside t b done todo hb hr hn hp ho

theorem performs_append : ∀ (x y : List (GItem S L)) (s : S) (l : L),
    performs (x ++ y) s l = performs y (performs x s l).1 (performs x s l).2
  | [], _, _, _ => rfl
  | .act f :: x, y, s, l => performs_append x y _ _
  | .enter _ :: x, y, s, l => performs_append x y s l
  | .leave :: x, y, s, l => performs_append x y s l

/-- All sections that remain are nested properly. -/
def AllNest (limit : Nat) (p : Turns S L) : Prop := ∀ t, ∀ b ∈ p.rest t, Nests limit 1 b.2

theorem AllNest.turn {limit : Nat} {p : Turns S L} (h : AllNest limit p) (t : Nat) : AllNest limit (turn p t) := by
  unfold Spec.turn
  cases hr : p.rest t with
  | nil => exact h
  | cons b r =>
    intro u c hc
    simp only at hc
    split at hc
    · subst u; exact h t c (by rw [hr]; exact List.mem_cons_of_mem _ hc)
    · exact h u c hc

/-- The section that a step of a thread completes. -/
def completes (g : GState S L) (t : Nat) : List Nat :=
  match (g.thr t).now with
  | [.leave] => [t]
  | _ => []

theorem gput_same (g : GState S L) (t : Nat) (th : GThread S L) : (g.put t th).thr t = th := if_pos rfl

theorem gput_other (g : GState S L) {t u : Nat} (th : GThread S L) (h : u ≠ t) : (g.put t th).thr u = g.thr u := if_neg h

theorem gnext_same (g : GState S L) (t : Nat) (n : List (GItem S L)) (m : Mutex) :
    (g.next t n m).thr t = ⟨n, (g.thr t).rest, (g.thr t).loc⟩ := if_pos rfl

theorem gnext_other (g : GState S L) {t u : Nat} (n : List (GItem S L)) (m : Mutex) (h : u ≠ t) :
    (g.next t n m).thr u = g.thr u := if_neg h

theorem Spec.Outside.keep {p : Turns S L} {g g' : GState S L} {u : Nat} (h : Outside p g u) (e : g'.thr u = g.thr u) :
    Outside p g' u := by
  unfold Outside at *
  rw [e]; exact h

/-- How a free or owned section answers to an attempt to enter it. -/
theorem enter_free {limit t : Nat} (spin : Bool) : ∃ r, csStep limit ⟨.recursive, none, 0⟩ t
    (if spin then .tryEnter else .enter) = .ret (some r, ⟨.recursive, some t, 1⟩) ∧
      (r = .status stSuccess ∨ r = .bool true) := by
  cases spin
  · exact ⟨_, rfl, .inl rfl⟩
  · exact ⟨_, rfl, .inr rfl⟩

theorem enter_own {limit t d : Nat} (hd : d < limit) (spin : Bool) : ∃ r, csStep limit ⟨.recursive, some t, d⟩ t
    (if spin then .tryEnter else .enter) = .ret (some r, ⟨.recursive, some t, d + 1⟩) ∧
      (r = .status stSuccess ∨ r = .bool true) := by
  cases spin
  · refine ⟨.status stSuccess, ?_, .inl rfl⟩
    simp [csStep, csEnter, pthreadLock, hd, enterStatus]
  · refine ⟨.bool true, ?_, .inr rfl⟩
    simp [csStep, csTryEnter, pthreadTryLock, hd]

theorem enter_taken {limit t o d : Nat} (ho : o ≠ t) (spin : Bool) : ∃ r, csStep limit ⟨.recursive, some o, d⟩ t
    (if spin then .tryEnter else .enter) = .ret (r, ⟨.recursive, some o, d⟩) ∧ (r = none ∨ r = some (.bool false)) := by
  cases spin
  · refine ⟨none, ?_, .inl rfl⟩
    simp [csStep, csEnter, pthreadLock, ho]
  · refine ⟨some (.bool false), ?_, .inr rfl⟩
    simp [csStep, csTryEnter, pthreadTryLock, ho]

theorem leave_last {limit t : Nat} : csStep limit ⟨.recursive, some t, 1⟩ t .leave =
    .ret (some (.status stSuccess), ⟨.recursive, none, 0⟩) := by
  simp [csStep, csLeave, pthreadUnlock, leaveStatus]

theorem leave_inner {limit t d : Nat} (hd : 1 < d) : csStep limit ⟨.recursive, some t, d⟩ t .leave =
    .ret (some (.status stSuccess), ⟨.recursive, some t, d - 1⟩) := by
  have : ¬ d ≤ 1 := by omega
  simp [csStep, csLeave, pthreadUnlock, leaveStatus, this]

/-- The work that remains for a thread. -/
def work (th : GThread S L) : Nat := th.now.length + (th.rest.map fun b => b.2.length + 3).sum

/-- A thread that can proceed: it is not finished, and does not wait for another thread. -/
def Ready (g : GState S L) (t : Nat) : Prop := ¬ Finished g t ∧ (g.mutex.owner = none ∨ g.mutex.owner = some t)

/-- What one step does. -/
structure Stepped (limit : Nat) (p : Turns S L) (g : GState S L) (t : Nat) (g' : GState S L) : Prop where
  eq : guardedStep limit g t = .ret g'
  fine : g'.refused = g.refused
  inv : GInv limit (takeTurns p (completes g t)) g'
  others : ∀ u, u ≠ t → g'.thr u = g.thr u
  less : Ready g t → work (g'.thr t) < work (g.thr t)

theorem gstep_ok {limit : Nat} {p : Turns S L} {g : GState S L} (hN : AllNest limit p)
    (h : GInv limit p g) (t : Nat) : ∃ g', Stepped limit p g t g' := by
  -- a thread outside of the section
  have outer : ∀ (o : Option Nat), Outside p g t → g.mutex.owner = o → o ≠ some t → (∃ g', Stepped limit p g t g') := by
    intro o hO ho hne
    obtain ⟨hl, hO⟩ := hO
    rcases hO with ⟨hn, hr⟩ | ⟨b, hn, hr⟩
    · have hc : completes g t = [] := by unfold completes; rw [hn]
      cases hrest : (g.thr t).rest with
      | nil =>
        refine ⟨g, by unfold guardedStep; rw [hn, hrest], rfl, by rw [hc]; exact h, fun _ _ => rfl, fun hR => ?_⟩
        exact absurd ⟨hn, hrest⟩ hR.1
      | cons b r =>
        let g' := g.put t ⟨.enter b.1 :: (b.2 ++ [.leave]), r, (g.thr t).loc⟩
        have hother : ∀ u, u ≠ t → g'.thr u = g.thr u := fun u hu => gput_other g _ hu
        have hself : Outside p g' t := by
          unfold Outside
          rw [show g'.thr t = _ from gput_same g t _]
          exact ⟨hl, .inr ⟨b, rfl, by rw [← hr, hrest]⟩⟩
        have hall : ∀ u, Outside p g u → Outside p g' u := fun u hu => by
          by_cases e : u = t
          · subst e; exact hself
          · exact hu.keep (hother u e)
        refine ⟨g', by unfold guardedStep; rw [hn, hrest], rfl, ?_, hother, fun _ => ?_⟩
        · rw [hc]
          cases h with
          | nobody hm hs ho2 => exact .nobody hm hs fun u => hall u (ho2 u)
          | inside o' d b' done todo hd hm hN' hb hr' hn' hp ho2 =>
            have hot : o' ≠ t := fun e => hne (by rw [← ho, hm, e])
            exact .inside o' d b' done todo hd hm hN' hb (by rw [hother o' hot]; exact hr')
              (by rw [hother o' hot]; exact hn') (by rw [hother o' hot]; exact hp) fun u hu => hall u (ho2 u hu)
        · rw [show g'.thr t = _ from gput_same g t _]
          simp [work, hn, hrest]
    · have hc : completes g t = [] := by unfold completes; rw [hn]
      cases h with
      | nobody hm hs ho2 =>
        obtain ⟨r, e, hr2⟩ := enter_free (limit := limit) (t := t) b.1
        let g' := g.next t (b.2 ++ [.leave]) ⟨.recursive, some t, 1⟩
        have hother : ∀ u, u ≠ t → g'.thr u = g.thr u := fun u hu => gnext_other g _ _ hu
        refine ⟨g', ?_, rfl, ?_, hother, fun _ => ?_⟩
        · unfold guardedStep
          rw [hn]
          simp only [hm, e, Out.ret_bind']
          rcases hr2 with rfl | rfl
          · simp only [failed_success, Bool.false_eq_true, if_false]; rfl
          · rfl
        · rw [hc]
          show GInv limit p _
          refine .inside t 1 b [] b.2 (by decide) rfl (hN t b (by rw [hr]; exact List.mem_cons_self)) rfl
            (by rw [show g'.thr t = _ from gnext_same g t _ _]; exact hr)
            (by rw [show g'.thr t = _ from gnext_same g t _ _]) ?_ fun u hu => (ho2 u).keep (hother u hu)
          rw [show g'.thr t = _ from gnext_same g t _ _]
          show (g.shared, (g.thr t).loc) = (p.shared, p.loc t)
          rw [hs, hl]
        · rw [show g'.thr t = _ from gnext_same g t _ _]
          simp [work, hn]
      | inside o' d b' done todo hd hm hN' hb hr' hn' hp ho2 =>
        have hot : o' ≠ t := fun e => hne (by rw [← ho, hm, e])
        obtain ⟨r, e, hr2⟩ := enter_taken (limit := limit) (t := t) (o := o') (d := d) hot b.1
        have heq : guardedStep limit g t = .ret g := by
          unfold guardedStep
          rw [hn]
          simp only [hm, e, Out.ret_bind']
          rcases hr2 with rfl | rfl
          · simp only [← hm]
          · simp only [← hm]
        refine ⟨g, heq, rfl, ?_, fun _ _ => rfl, fun hR => ?_⟩
        · rw [hc]; exact .inside o' d b' done todo hd hm hN' hb hr' hn' hp ho2
        · rcases hR.2 with h1 | h1 <;> rw [hm] at h1 <;> simp at h1
          exact absurd h1 hot
  cases h with
  | nobody hm hs ho =>
    exact outer none (ho t) (by rw [hm]) (by simp)
  | inside o d b done todo hd hm hNd hb hr hn hp ho =>
    by_cases hot : t = o
    · subst hot
      cases htodo : todo with
      | nil =>
        subst htodo
        have hd1 : d = 1 := hNd
        subst hd1
        rw [List.nil_append] at hn
        rw [List.append_nil] at hb
        have hc : completes g t = [t] := by unfold completes; rw [hn]
        let g' := g.next t [] ⟨.recursive, none, 0⟩
        have hother : ∀ u, u ≠ t → g'.thr u = g.thr u := fun u hu => gnext_other g _ _ hu
        have hturn : takeTurns p [t] = ⟨g.shared, fun u => if u = t then (g.thr t).loc else p.loc u,
            fun u => if u = t then (g.thr t).rest else p.rest u⟩ := by
          show Spec.turn p t = _
          unfold Spec.turn
          rw [hr]
          simp only [hb, ← hp]
        refine ⟨g', ?_, rfl, ?_, hother, fun _ => ?_⟩
        · unfold guardedStep
          rw [hn]
          simp only [hm, leave_last, Out.ret_bind', failed_success, Bool.false_eq_true, if_false]
          rfl
        · rw [hc, hturn]
          refine .nobody rfl rfl fun u => ?_
          by_cases e : u = t
          · subst e
            unfold Outside
            rw [show g'.thr u = _ from gnext_same g u _ _]
            exact ⟨(if_pos rfl).symm, .inl ⟨rfl, (if_pos rfl).symm⟩⟩
          · have hO := ho u e
            unfold Outside at *
            rw [hother u e]
            simp only [if_neg e]
            exact hO
        · rw [show g'.thr t = _ from gnext_same g t _ _]
          simp [work, hn]
      | cons x n =>
        subst htodo
        have hc : completes g t = [] := by
          unfold completes
          rw [hn]
          cases n <;> cases x <;> rfl
        have hb' : b.2 = (done ++ [x]) ++ n := by rw [hb]; simp
        cases x with
        | act f =>
          let g' : GState S L := { g.put t ⟨n ++ [.leave], (g.thr t).rest, (f g.shared (g.thr t).loc).2⟩ with
            shared := (f g.shared (g.thr t).loc).1 }
          have hself : g'.thr t = ⟨n ++ [.leave], (g.thr t).rest, (f g.shared (g.thr t).loc).2⟩ := gput_same g t _
          have hother : ∀ u, u ≠ t → g'.thr u = g.thr u := fun u hu => gput_other g _ hu
          refine ⟨g', by unfold guardedStep; rw [hn]; rfl, rfl, ?_, hother, fun _ => ?_⟩
          · rw [hc]
            show GInv limit p _
            refine .inside t d b (done ++ [.act f]) n hd hm hNd hb' (by rw [hself]; exact hr) (by rw [hself]) ?_
              fun u hu => (ho u hu).keep (hother u hu)
            rw [hself, performs_append, ← hp]
            rfl
          · rw [hself]; simp [work, hn]
        | enter spin =>
          obtain ⟨h1, h2⟩ := hNd
          obtain ⟨r, e, hr2⟩ := enter_own (limit := limit) (t := t) h1 spin
          let g' := g.next t (n ++ [.leave]) ⟨.recursive, some t, d + 1⟩
          have hself : g'.thr t = ⟨n ++ [.leave], (g.thr t).rest, (g.thr t).loc⟩ := gnext_same g t _ _
          have hother : ∀ u, u ≠ t → g'.thr u = g.thr u := fun u hu => gnext_other g _ _ hu
          refine ⟨g', ?_, rfl, ?_, hother, fun _ => ?_⟩
          · unfold guardedStep
            rw [hn]
            simp only [List.cons_append, hm, e, Out.ret_bind']
            rcases hr2 with rfl | rfl
            · simp only [failed_success, Bool.false_eq_true, if_false]; rfl
            · rfl
          · rw [hc]
            show GInv limit p _
            refine .inside t (d + 1) b (done ++ [.enter spin]) n (by omega) rfl h2 hb' (by rw [hself]; exact hr)
              (by rw [hself]) ?_ fun u hu => (ho u hu).keep (hother u hu)
            rw [hself, performs_append, ← hp]
            rfl
          · rw [hself]; simp [work, hn]
        | leave =>
          obtain ⟨h1, h2⟩ := hNd
          let g' := g.next t (n ++ [.leave]) ⟨.recursive, some t, d - 1⟩
          have hself : g'.thr t = ⟨n ++ [.leave], (g.thr t).rest, (g.thr t).loc⟩ := gnext_same g t _ _
          have hother : ∀ u, u ≠ t → g'.thr u = g.thr u := fun u hu => gnext_other g _ _ hu
          refine ⟨g', ?_, rfl, ?_, hother, fun _ => ?_⟩
          · unfold guardedStep
            rw [hn]
            simp only [List.cons_append, hm, leave_inner h1, Out.ret_bind', failed_success, Bool.false_eq_true,
              if_false]
            rfl
          · rw [hc]
            show GInv limit p _
            refine .inside t (d - 1) b (done ++ [.leave]) n (by omega) rfl h2 hb' (by rw [hself]; exact hr)
              (by rw [hself]) ?_ fun u hu => (ho u hu).keep (hother u hu)
            rw [hself, performs_append, ← hp]
            rfl
          · rw [hself]; simp [work, hn]
    · exact outer (some o) (ho t hot) (by rw [hm]) fun e => hot (Option.some.inj e).symm

/-! ## Runs -/

/-- The sections that a run completes, in order. -/
def orderFrom (limit : Nat) (g : GState S L) : List Nat → List Nat
  | [] => []
  | t :: ts => completes g t ++
    match guardedStep limit g t with
    | .ret g' => orderFrom limit g' ts
    | .ub _ => []

theorem orderFrom_prefix (limit : Nat) : ∀ (a b : List Nat) (g : GState S L),
    orderFrom limit g a <+: orderFrom limit g (a ++ b)
  | [], _, _ => List.nil_prefix
  | t :: a, b, g => by
    simp only [List.cons_append, orderFrom]
    rw [List.prefix_append_right_inj]
    cases guardedStep limit g t with
    | ub w => exact List.nil_prefix
    | ret g' => exact orderFrom_prefix limit a b g'

theorem AllNest.turns {limit : Nat} : ∀ (order : List Nat) {p : Turns S L}, AllNest limit p →
    AllNest limit (takeTurns p order)
  | [], _, h => h
  | t :: ts, _, h => AllNest.turns ts (h.turn t)

theorem grun_ok {limit : Nat} : ∀ (sched : List Nat) {p : Turns S L} {g : GState S L}, AllNest limit p →
    GInv limit p g → ∃ g', guardedRun limit g sched = .ret g' ∧ g'.refused = g.refused ∧
      GInv limit (takeTurns p (orderFrom limit g sched)) g'
  | [], p, g, _, h => ⟨g, rfl, rfl, h⟩
  | t :: ts, p, g, hN, h => by
    obtain ⟨g1, H⟩ := gstep_ok hN h t
    obtain ⟨g2, e, hf, h2⟩ := grun_ok ts (hN.turns (completes g t)) H.inv
    refine ⟨g2, by rw [guardedRun, H.eq, Out.ret_bind', e], hf.trans H.fine, ?_⟩
    simp only [orderFrom, H.eq]
    rw [takeTurns, List.foldl_append]
    exact h2

theorem guardedRun_append (limit : Nat) : ∀ (a b : List Nat) (g : GState S L),
    guardedRun limit g (a ++ b) = (guardedRun limit g a).bind fun g' => guardedRun limit g' b
  | [], _, _ => rfl
  | t :: a, b, g => by
    simp only [List.cons_append, guardedRun]
    cases guardedStep limit g t with
    | ub w => rfl
    | ret g' => exact guardedRun_append limit a b g'

theorem GInv.start {limit : Nat} {s : S} {loc : Nat → L} {progs : Nat → List (GSection S L)} :
    GInv limit ⟨s, loc, progs⟩ (guardedStart ⟨.recursive, none, 0⟩ s loc progs) :=
  .nobody rfl rfl fun _ => ⟨rfl, .inl ⟨rfl, rfl⟩⟩

/-! ## Progress -/

/-- The work of the threads below `n`. -/
def workOf (g : GState S L) (n : Nat) : Nat := ((List.range n).map fun t => work (g.thr t)).sum

theorem workOf_less {g g' : GState S L} {t : Nat} (ho : ∀ u, u ≠ t → g'.thr u = g.thr u)
    (hl : work (g'.thr t) < work (g.thr t)) : ∀ n, workOf g' n + (if t < n then 1 else 0) ≤ workOf g n
  | 0 => by simp [workOf]
  | n + 1 => by
    have ih := workOf_less ho hl n
    unfold workOf at *
    rw [List.range_succ, List.map_append, List.sum_append, List.map_append, List.sum_append]
    simp only [List.map_cons, List.map_nil, List.sum_cons, List.sum_nil, Nat.add_zero]
    by_cases e : n = t
    · subst e
      rw [if_neg (Nat.lt_irrefl n)] at ih
      rw [if_pos (Nat.lt_succ_self n)]
      omega
    · rw [ho n e]
      by_cases h1 : t < n
      · rw [if_pos h1] at ih; rw [if_pos (by omega)]; omega
      · rw [if_neg h1] at ih; rw [if_neg (by omega)]; omega

/-- Somebody can proceed unless all threads are finished. -/
theorem GInv.ready {limit : Nat} {p : Turns S L} {g : GState S L} (h : GInv limit p g) {t : Nat}
    (ht : ¬ Finished g t) : ∃ u, Ready g u := by
  cases h with
  | nobody hm hs ho => exact ⟨t, ht, .inl (by rw [hm])⟩
  | inside o d b done todo hd hm hN hb hr hn hp ho =>
    refine ⟨o, fun hF => ?_, .inr (by rw [hm])⟩
    have := hF.1
    rw [hn] at this
    simp at this

/-- Beyond `n` there are no threads with work. -/
def Few (n : Nat) (g : GState S L) : Prop := ∀ t, n ≤ t → Finished g t

theorem gfinish_ok {limit n : Nat} : ∀ (k : Nat) {p : Turns S L} {g : GState S L}, AllNest limit p →
    GInv limit p g → Few n g → workOf g n ≤ k →
    ∃ more g', guardedRun limit g more = .ret g' ∧ ∀ t, Finished g' t
  | k, p, g, hN, h, hF, hk => by
    by_cases hd : ∀ t, Finished g t
    · exact ⟨[], g, rfl, hd⟩
    · have ⟨t, ht⟩ : ∃ t, ¬ Finished g t := Classical.byContradiction fun hx => hd fun t =>
        Classical.byContradiction fun ht => hx ⟨t, ht⟩
      obtain ⟨u, hu⟩ := h.ready ht
      have hun : u < n := Nat.lt_of_not_le fun hle => hu.1 (hF u hle)
      obtain ⟨g1, H⟩ := gstep_ok hN h u
      have hless := workOf_less H.others (H.less hu) n
      rw [if_pos hun] at hless
      match k, hk with
      | 0, hk => omega
      | k + 1, hk =>
        obtain ⟨more, g2, e, hd2⟩ := gfinish_ok (n := n) k (hN.turns (completes g u)) H.inv
          (fun t ht => by
            have hne : t ≠ u := by omega
            have := hF t ht
            unfold Finished at *
            rw [H.others t hne]; exact this)
          (by omega)
        exact ⟨u :: more, g2, by rw [guardedRun, H.eq, Out.ret_bind', e], hd2⟩

theorem turns_rest_nil {t : Nat} : ∀ (order : List Nat) {p : Turns S L}, p.rest t = [] →
    (takeTurns p order).rest t = []
  | [], _, h => h
  | u :: us, p, h => turns_rest_nil us (by
    unfold turn
    split
    · exact h
    · next b r hr =>
      simp only
      split
      · subst t; rw [h] at hr; cases hr
      · exact h)

/-! ## Counting -/

/-- The sum of a function of the threads below `n`. -/
def sumBelow (f : Nat → Nat) (n : Nat) : Nat := ((List.range n).map f).sum

theorem sumBelow_less {f f' : Nat → Nat} {t : Nat} (ho : ∀ u, u ≠ t → f' u = f u) (hl : f' t + 1 = f t) :
    ∀ n, sumBelow f' n + (if t < n then 1 else 0) = sumBelow f n
  | 0 => by simp [sumBelow]
  | n + 1 => by
    have ih := sumBelow_less ho hl n
    unfold sumBelow at *
    rw [List.range_succ, List.map_append, List.sum_append, List.map_append, List.sum_append]
    simp only [List.map_cons, List.map_nil, List.sum_cons, List.sum_nil, Nat.add_zero]
    by_cases e : n = t
    · subst e
      rw [if_neg (Nat.lt_irrefl n)] at ih
      rw [if_pos (Nat.lt_succ_self n)]
      omega
    · rw [ho n e]
      by_cases h1 : t < n
      · rw [if_pos h1] at ih; rw [if_pos (by omega)]; omega
      · rw [if_neg h1] at ih; rw [if_neg (by omega)]; omega

/-- Turns of threads that count. -/
theorem counting_turns {n : Nat} : ∀ (order : List Nat) {p : Turns Nat Nat} {k : Nat → Nat},
    (∀ t, p.rest t = counting (k t)) → (∀ t, n ≤ t → k t = 0) →
    ∃ k', (∀ t, (takeTurns p order).rest t = counting (k' t)) ∧
      (takeTurns p order).shared + sumBelow k' n = p.shared + sumBelow k n
  | [], p, k, h, _ => ⟨k, h, rfl⟩
  | t :: ts, p, k, h, hn => by
    show ∃ k', (∀ u, (takeTurns (turn p t) ts).rest u = _) ∧ (takeTurns (turn p t) ts).shared + _ = _
    cases hk : k t with
    | zero =>
      have e : turn p t = p := by
        have : p.rest t = [] := by rw [h t, hk]; rfl
        unfold turn; rw [this]
      rw [e]
      exact counting_turns ts h hn
    | succ m =>
      have hr : p.rest t = (false, [.act fun s _ => (s, s), .act fun _ l => (l + 1, l)]) :: counting m := by
        rw [h t, hk]; rfl
      have e : turn p t = ⟨p.shared + 1, fun u => if u = t then p.shared else p.loc u,
          fun u => if u = t then counting m else p.rest u⟩ := by
        unfold turn; rw [hr]; rfl
      rw [e]
      obtain ⟨k', h1, h2⟩ := counting_turns (n := n) ts (p := ⟨p.shared + 1, fun u => if u = t then p.shared else p.loc u,
          fun u => if u = t then counting m else p.rest u⟩) (k := fun u => if u = t then m else k u)
        (fun u => by
          simp only
          split
          · rfl
          · exact h u)
        (fun u hu => by
          split
          · subst u; have := hn t hu; omega
          · exact hn u hu)
      refine ⟨k', h1, ?_⟩
      have h3 := sumBelow_less (f := k) (f' := fun u => if u = t then m else k u) (t := t)
        (fun u hu => if_neg hu) (by rw [if_pos rfl, hk]) n
      have htn : t < n := Nat.lt_of_not_le fun hle => by have := hn t hle; omega
      rw [if_pos htn] at h3
      simp only at h2
      omega

/-! ## Nesting beyond the limit -/

/-- A thread that owns the section at depth `d` enters it again, `j` times in a row. -/
theorem grun_deeper {limit t : Nat} (spin : Bool) : ∀ (j d : Nat) {g : GState S L} {rest : List (GItem S L)},
    d + j ≤ limit → g.mutex = ⟨.recursive, some t, d⟩ →
    (g.thr t).now = List.replicate j (.enter spin) ++ rest →
    ∃ g', guardedRun limit g (List.replicate j t) = .ret g' ∧ g'.refused = g.refused ∧
      g'.mutex = ⟨.recursive, some t, d + j⟩ ∧ (g'.thr t).now = rest
  | 0, d, g, rest, hd, hm, hn => ⟨g, rfl, rfl, hm, hn⟩
  | j + 1, d, g, rest, hd, hm, hn => by
    obtain ⟨r, e, hr⟩ := enter_own (limit := limit) (t := t) (d := d) (by omega) spin
    have hs : guardedStep limit g t =
        .ret (g.next t (List.replicate j (.enter spin) ++ rest) ⟨.recursive, some t, d + 1⟩) := by
      unfold guardedStep
      rw [hn, List.replicate_succ, List.cons_append]
      simp only [hm, e, Out.bind]
      rcases hr with rfl | rfl <;> rfl
    obtain ⟨g', h1, h2, h3, h4⟩ := grun_deeper (limit := limit) (t := t) spin j (d + 1)
      (g := g.next t (List.replicate j (.enter spin) ++ rest) ⟨.recursive, some t, d + 1⟩) (rest := rest)
      (by omega) rfl (by rw [gnext_same])
    refine ⟨g', ?_, h2, by rw [h3]; congr 1; omega, h4⟩
    rw [List.replicate_succ, guardedRun, hs]
    exact h1

/-- A thread alone: it enters its section, and enters it again up to the limit. -/
theorem grun_to_limit {limit t : Nat} {s : S} {loc : Nat → L} {progs : Nat → List (GSection S L)}
    {first spin : Bool} {rest : List (GItem S L)} {r : List (GSection S L)} (hl : 0 < limit)
    (hp : progs t = (first, List.replicate (limit - 1) (.enter spin) ++ rest) :: r) :
    ∃ g, guardedRun limit (guardedStart ⟨.recursive, none, 0⟩ s loc progs) (List.replicate (limit + 1) t) = .ret g ∧
      g.refused = false ∧ g.mutex = ⟨.recursive, some t, limit⟩ ∧ (g.thr t).now = rest ++ [.leave] := by
  obtain ⟨k, rfl⟩ : ∃ k, limit = k + 1 := ⟨limit - 1, by omega⟩
  have h1 : guardedStep (k + 1) (guardedStart ⟨.recursive, none, 0⟩ s loc progs) t =
      .ret ((guardedStart ⟨.recursive, none, 0⟩ s loc progs).put t
        ⟨.enter first :: (List.replicate k (.enter spin) ++ rest ++ [.leave]), r, loc t⟩) := by
    unfold guardedStep
    simp only [guardedStart, hp]
    rfl
  obtain ⟨q, e, hq⟩ := enter_free (limit := k + 1) (t := t) first
  have h2 : guardedStep (k + 1) ((guardedStart ⟨.recursive, none, 0⟩ s loc progs).put t
        ⟨.enter first :: (List.replicate k (.enter spin) ++ rest ++ [.leave]), r, loc t⟩) t =
      .ret (((guardedStart ⟨.recursive, none, 0⟩ s loc progs).put t
        ⟨.enter first :: (List.replicate k (.enter spin) ++ rest ++ [.leave]), r, loc t⟩).next t
          (List.replicate k (.enter spin) ++ rest ++ [.leave]) ⟨.recursive, some t, 1⟩) := by
    unfold guardedStep
    rw [gput_same]
    simp only [GState.put, guardedStart, e, Out.bind]
    rcases hq with rfl | rfl <;> rfl
  obtain ⟨g, e1, e2, e3, e4⟩ := grun_deeper (limit := k + 1) (t := t) spin k 1
    (g := ((guardedStart ⟨.recursive, none, 0⟩ s loc progs).put t
        ⟨.enter first :: (List.replicate k (.enter spin) ++ rest ++ [.leave]), r, loc t⟩).next t
          (List.replicate k (.enter spin) ++ rest ++ [.leave]) ⟨.recursive, some t, 1⟩)
    (rest := rest ++ [.leave]) (by omega) rfl (by rw [gnext_same, List.append_assoc])
  refine ⟨g, ?_, e2, by rw [e3]; congr 1; omega, e4⟩
  rw [List.replicate_succ, List.replicate_succ, guardedRun, h1]
  show guardedRun _ _ _ = _
  rw [guardedRun, h2]
  exact e1

end Zy
