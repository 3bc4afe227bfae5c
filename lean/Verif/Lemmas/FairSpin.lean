import Verif.Lemmas.Fair
import Verif.Lemmas.AtomicClients

/-!
# Lemmas about fair schedules of threads with a spin lock
-/

namespace Zy

open Spec

section

variable {σ : Type}

/-- What the argument needs: no step is a step back, and unless the program is done some thread is about to make progress
within `N` steps of its own, unless others make progress meanwhile. -/
structure Nudges (step : σ → Nat → σ) (Inv done : σ → Prop) (μ : σ → Nat) (Help : σ → Nat → Prop) (ν : σ → Nat → Nat)
    (n N : Nat) : Prop where
  inv : ∀ g t, Inv g → Inv (step g t)
  le : ∀ g t, Inv g → μ (step g t) ≤ μ g
  still : ∀ g t, Inv g → done g → step g t = g
  help : ∀ g, Inv g → ¬ done g → ∃ t, t < n ∧ Help g t
  bound : ∀ g t, ν g t < N
  own : ∀ g t, Inv g → Help g t → μ (step g t) < μ g ∨ (Help (step g t) t ∧ ν (step g t) t < ν g t)
  other : ∀ g t u, Inv g → Help g t → u ≠ t → μ (step g u) < μ g ∨ (Help (step g u) t ∧ ν (step g u) t ≤ ν g t)

variable {step : σ → Nat → σ} {Inv done : σ → Prop} {μ : σ → Nat} {Help : σ → Nat → Prop} {ν : σ → Nat → Nat} {n N : Nat}

theorem Nudges.steps (A : Nudges step Inv done μ Help ν n N) : ∀ (r : List Nat) {g : σ}, Inv g →
    Inv (r.foldl step g) ∧ μ (r.foldl step g) ≤ μ g
  | [], _, h => ⟨h, Nat.le_refl _⟩
  | t :: r, g, h => by
    have h1 := Nudges.steps A r (A.inv g t h)
    exact ⟨h1.1, Nat.le_trans h1.2 (A.le g t h)⟩

theorem Nudges.rest (A : Nudges step Inv done μ Help ν n N) : ∀ (r : List Nat) {g : σ}, Inv g → done g →
    r.foldl step g = g
  | [], _, _, _ => rfl
  | t :: r, g, h, hd => by
    rw [List.foldl_cons, A.still g t h hd]
    exact Nudges.rest A r h hd

/-- The other threads do no harm. -/
theorem Nudges.keep (A : Nudges step Inv done μ Help ν n N) {t : Nat} : ∀ (r : List Nat) {g : σ}, Inv g → Help g t →
    μ (r.foldl step g) < μ g ∨ (Help (r.foldl step g) t ∧ ν (r.foldl step g) t ≤ ν g t)
  | [], _, _, hh => .inr ⟨hh, Nat.le_refl _⟩
  | u :: r, g, h, hh => by
    have hs := A.steps r (A.inv g u h)
    have hd : μ (step g u) < μ g ∨ (Help (step g u) t ∧ ν (step g u) t ≤ ν g t) := by
      by_cases e : u = t
      · subst e
        rcases A.own g u h hh with h1 | ⟨h1, h2⟩
        · exact .inl h1
        · exact .inr ⟨h1, Nat.le_of_lt h2⟩
      · exact A.other g t u h hh e
    rcases hd with h1 | ⟨h1, h2⟩
    · left
      have := hs.2
      show μ (r.foldl step (step g u)) < _
      omega
    · have hle := A.le g u h
      rcases Nudges.keep A r (A.inv g u h) h1 with h3 | ⟨h3, h4⟩
      · left
        show μ (r.foldl step (step g u)) < _
        omega
      · exact .inr ⟨h3, Nat.le_trans h4 h2⟩

/-- A round brings the thread nearer to its progress. -/
theorem Nudges.round (A : Nudges step Inv done μ Help ν n N) {t : Nat} : ∀ (r : List Nat) {g : σ}, Inv g → Help g t →
    t ∈ r → μ (r.foldl step g) < μ g ∨ (Help (r.foldl step g) t ∧ ν (r.foldl step g) t < ν g t)
  | u :: r, g, h, hh, hm => by
    have hle := A.le g u h
    by_cases e : u = t
    · subst e
      rcases A.own g u h hh with h1 | ⟨h1, h2⟩
      · left
        have := (A.steps r (A.inv g u h)).2
        show μ (r.foldl step (step g u)) < _
        omega
      · rcases A.keep r (A.inv g u h) h1 with h3 | ⟨h3, h4⟩
        · left
          show μ (r.foldl step (step g u)) < _
          omega
        · exact .inr ⟨h3, Nat.lt_of_le_of_lt h4 h2⟩
    · have hm' : t ∈ r := by
        rcases List.mem_cons.1 hm with h' | h'
        · exact absurd h'.symm e
        · exact h'
      rcases A.other g t u h hh e with h1 | ⟨h1, h2⟩
      · left
        have := (A.steps r (A.inv g u h)).2
        show μ (r.foldl step (step g u)) < _
        omega
      · rcases Nudges.round A r (A.inv g u h) h1 hm' with h3 | ⟨h3, h4⟩
        · left
          show μ (r.foldl step (step g u)) < _
          omega
        · exact .inr ⟨h3, Nat.lt_of_lt_of_le h4 h2⟩

/-- Enough rounds make progress. -/
theorem Nudges.progress (A : Nudges step Inv done μ Help ν n N) {t : Nat} : ∀ (rounds : List (List Nat)) {g : σ}, Inv g →
    Help g t → (∀ r ∈ rounds, t ∈ r) → ν g t < rounds.length → μ (rounds.flatten.foldl step g) < μ g
  | [], g, _, _, _, hl => absurd hl (Nat.not_lt_zero _)
  | r :: rs, g, h, hh, hr, hl => by
    rw [List.flatten_cons, List.foldl_append]
    have hs := A.steps r h
    have hs2 := A.steps rs.flatten hs.1
    rcases A.round r h hh (hr r List.mem_cons_self) with h1 | ⟨h1, h2⟩
    · omega
    · have := Nudges.progress A rs hs.1 h1 (fun r' hr' => hr r' (List.mem_cons_of_mem _ hr')) (by
        simp at hl
        omega)
      omega

theorem Nudges.rounds (A : Nudges step Inv done μ Help ν n N) : ∀ (m : Nat) (rounds : List (List Nat)) {g : σ}, Inv g →
    FullRounds n rounds → μ g ≤ m → m * N ≤ rounds.length → done (rounds.flatten.foldl step g)
  | m, rounds, g, h, hf, hm, hl => by
    by_cases hd : done g
    · rw [A.rest _ h hd]; exact hd
    · obtain ⟨t, ht, hh⟩ := A.help g h hd
      match m, hm, hl with
      | 0, hm, _ =>
        have := A.progress (List.replicate N [t]) h hh (fun r hr => by
          rw [List.eq_of_mem_replicate hr]; exact List.mem_singleton.2 rfl) (by
          rw [List.length_replicate]; exact A.bound g t)
        omega
      | m + 1, hm, hl =>
        have hN : N ≤ rounds.length := by
          rw [Nat.succ_mul] at hl
          omega
        rw [← List.take_append_drop N rounds, List.flatten_append, List.foldl_append]
        have h1 := A.progress (rounds.take N) h hh (fun r hr => hf r (List.mem_of_mem_take hr) t ht) (by
          rw [List.length_take, Nat.min_eq_left hN]; exact A.bound g t)
        refine Nudges.rounds A m (rounds.drop N) (A.steps _ h).1 (fun r hr => hf r (List.mem_of_mem_drop hr)) (by omega) ?_
        rw [List.length_drop]
        rw [Nat.succ_mul] at hl
        omega

theorem Nudges.fair (A : Nudges step Inv done μ Help ν n N) {g : σ} (h : Inv g) {sched : Nat → Nat} (hf : Fair n sched) :
    ∃ k g', done g' ∧ Inv g' ∧ ∀ k', k ≤ k' → (firstSteps sched k').foldl step g = g' := by
  obtain ⟨k, rounds, e, hr, hl⟩ := hf.rounds (μ g * N) 0
  have hd := A.rounds (μ g) rounds h hr (Nat.le_refl _) (by omega)
  have hI := (A.steps rounds.flatten h).1
  refine ⟨k, _, hd, hI, fun k' hk => ?_⟩
  rw [firstSteps_some, show k' = k + (k' - k) by omega, someSteps_append, e, List.foldl_append]
  exact A.rest _ hI hd

end

variable {w : Nat} {δ : Type}

/-- The work of a thread; the attempts that fail do not count. -/
def spinWork : CThr w (LockSt δ) → Nat
  | ⟨.want [], _⟩ => 0
  | ⟨.want (_ :: gs), none⟩ => 6 * gs.length + 6
  | ⟨.want (_ :: gs), some x⟩ => if x = 0 then 6 * gs.length + 5 else 6 * gs.length + 6
  | ⟨.load _ gs, _⟩ => 6 * gs.length + 4
  | ⟨.store _ gs _, _⟩ => 6 * gs.length + 3
  | ⟨.leave gs, none⟩ => 6 * gs.length + 2
  | ⟨.leave gs, some _⟩ => 6 * gs.length + 1

/-- A failed attempt has not returned yet. -/
def spinStale : CThr w (LockSt δ) → Nat
  | ⟨.want (_ :: _), some x⟩ => if x = 0 then 0 else 1
  | _ => 0

theorem spin_le (unlock : AOp w) (v : BitVec w) (d : δ) (t : CThr w (LockSt δ)) :
    spinWork (actThread (lockAct unlock) v d t).2.2 ≤ spinWork t := by
  obtain ⟨st, reg⟩ := t
  cases st with
  | want gs =>
    cases gs with
    | nil => exact Nat.le_refl _
    | cons g gs =>
      cases reg with
      | none =>
        show (if (rmw (.cas 0 1) v).2 = 0 then _ else _) ≤ _
        simp only [spinWork]
        split <;> omega
      | some x =>
        by_cases hx : x = 0
        · subst hx
          rw [lock_succeeds]
          simp [spinWork]
        · rw [lock_fails hx]
          simp only [spinWork, if_neg hx]
          omega
  | load g gs => simp [actThread, lockAct, spinWork]
  | store g gs x => simp [actThread, lockAct, spinWork]
  | leave gs =>
    cases reg with
    | none => simp [actThread, lockAct, spinWork]
    | some x =>
      cases gs with
      | nil => simp [actThread, lockAct, spinWork]
      | cons g gs => simp only [actThread, lockAct, spinWork, List.length_cons]; omega

/-- A thread without the lock leaves a free lock free, or gets it. -/
theorem spin_value (unlock : AOp w) (d : δ) (t : CThr w (LockSt δ)) (h : lockHold t = 0) :
    (actThread (lockAct unlock) 0 d t).1 = 0 ∨ spinWork (actThread (lockAct unlock) 0 d t).2.2 < spinWork t := by
  obtain ⟨st, reg⟩ := t
  cases st with
  | want gs =>
    cases gs with
    | nil => exact .inl rfl
    | cons g gs =>
      cases reg with
      | none =>
        right
        simp [actThread, lockAct, rmw, spinWork]
      | some x => exact .inl rfl
  | load g gs => exact absurd h (by simp [lockHold])
  | store g gs x => exact absurd h (by simp [lockHold])
  | leave gs =>
    cases reg with
    | none => exact absurd h (by simp [lockHold])
    | some x => exact .inl rfl

/-- The thread with the lock, and any thread if the lock is free, makes progress or forgets a failed attempt. -/
theorem spin_own {unlock : AOp w} {v : BitVec w} {d : δ} {t : CThr w (LockSt δ)}
    (h : 0 < lockHold t ∨ (v = 0 ∧ lockHold t = 0 ∧ t.st.finished = false)) :
    spinWork (actThread (lockAct unlock) v d t).2.2 < spinWork t ∨
      (v = 0 ∧ (actThread (lockAct unlock) v d t).1 = 0 ∧ lockHold (actThread (lockAct unlock) v d t).2.2 = 0 ∧
        (actThread (lockAct unlock) v d t).2.2.st.finished = false ∧
        spinStale (actThread (lockAct unlock) v d t).2.2 < spinStale t) := by
  obtain ⟨st, reg⟩ := t
  cases st with
  | want gs =>
    cases gs with
    | nil => rcases h with h | ⟨_, _, h⟩ <;> cases h
    | cons g gs =>
      cases reg with
      | none =>
        rcases h with h | ⟨hv, _, _⟩
        · cases h
        · subst hv
          left
          simp [actThread, lockAct, rmw, spinWork]
      | some x =>
        by_cases hx : x = 0
        · subst hx
          left
          rw [lock_succeeds]
          simp [spinWork]
        · rcases h with h | ⟨hv, _, _⟩
          · rw [hold_want_some, if_neg hx] at h
            cases h
          · right
            rw [lock_fails hx]
            refine ⟨hv, hv, rfl, rfl, ?_⟩
            simp only [spinStale, if_neg hx]
            omega
  | load g gs => left; simp [actThread, lockAct, spinWork]
  | store g gs x => left; simp [actThread, lockAct, spinWork]
  | leave gs =>
    left
    cases reg with
    | none => simp [actThread, lockAct, spinWork]
    | some x =>
      cases gs with
      | nil => simp [actThread, lockAct, spinWork]
      | cons g gs => simp only [actThread, lockAct, spinWork, List.length_cons]; omega

/-- Thread `i` has the lock, or wants it while it is free. -/
def SpinHelp (s : CSys w δ (LockSt δ)) (i : Nat) : Prop :=
  ∃ t, s.thr[i]? = some t ∧ (0 < lockHold t ∨ (s.value = 0 ∧ lockHold t = 0 ∧ t.st.finished = false))

def spinWait (s : CSys w δ (LockSt δ)) (i : Nat) : Nat :=
  match s.thr[i]? with
  | some t => spinStale t
  | none => 0

theorem spinStale_lt (t : CThr w (LockSt δ)) : spinStale t < 2 := by
  unfold spinStale
  split
  · split <;> omega
  · omega

theorem spin_nudges {unlock : AOp w} (hu : unlock = .cas 1 0 ∨ unlock = .dec) (hw : 0 < w) (d : δ)
    (progs : List (List (δ → δ))) : Nudges (actStep (lockAct unlock)) (LockInv d progs)
      (fun s => ∀ t ∈ s.thr, t.st.finished = true) (fun s => (s.thr.map spinWork).sum) SpinHelp spinWait progs.length 2 where
  inv s i I := by
    cases hi : s.thr[i]? with
    | none => rw [actStep_none hi]; exact I
    | some t => exact I.step hu hw hi
  le s i I := by
    cases hi : s.thr[i]? with
    | none => rw [actStep_none hi]; exact Nat.le_refl _
    | some t =>
      rw [actStep_some hi]
      have h1 := sum_set (spinWork (w := w) (δ := δ)) (actThread (lockAct unlock) s.value s.data t).2.2 hi
      have h2 := spin_le unlock s.value s.data t
      show ((s.thr.set i _).map spinWork).sum ≤ _
      omega
  still s i I hd := by
    cases hi : s.thr[i]? with
    | none => rw [actStep_none hi]
    | some t =>
      have hf := hd t (List.mem_of_getElem? hi)
      rw [actStep_some hi]
      obtain ⟨st, reg⟩ := t
      cases st with
      | want gs =>
        cases gs with
        | nil =>
          show (⟨s.value, s.data, s.thr.set i ⟨.want [], reg⟩⟩ : CSys w δ (LockSt δ)) = s
          have e : s.thr.set i ⟨.want [], reg⟩ = s.thr := by
            apply List.ext_getElem?
            intro j
            by_cases hj : i = j
            · subst hj
              rw [hi]
              rw [List.getElem?_set_self]
              rcases Nat.lt_or_ge i s.thr.length with h | h
              · exact h
              · rw [List.getElem?_eq_none h] at hi; cases hi
            · rw [List.getElem?_set_ne hj]
          rw [e]
        | cons g gs => cases hf
      | load g gs => cases hf
      | store g gs x => cases hf
      | leave gs => cases hf
  help s I hd := by
    have key : ∃ (i : Nat) (t : CThr w (LockSt δ)), s.thr[i]? = some t ∧
        (0 < lockHold t ∨ (s.value = 0 ∧ lockHold t = 0 ∧ t.st.finished = false)) := by
      rcases I.val with ⟨h1, h2⟩ | ⟨_, h2⟩
      · simp only [Classical.not_forall, Bool.not_eq_true] at hd
        obtain ⟨t, ht, hf⟩ := hd
        obtain ⟨i, hi⟩ := List.getElem?_of_mem ht
        have := le_sum_of_getElem? (lockHold (w := w) (δ := δ)) hi
        exact ⟨i, t, hi, Or.inr ⟨h1, by omega, hf⟩⟩
      · obtain ⟨i, t, hi, ht⟩ := sum_pos_getElem? (lockHold (w := w) (δ := δ)) (l := s.thr) (by omega)
        exact ⟨i, t, hi, Or.inl ht⟩
    obtain ⟨i, t, hi, hk⟩ := key
    refine ⟨i, ?_, t, hi, hk⟩
    rw [← I.len]
    rcases Nat.lt_or_ge i s.thr.length with h | h
    · exact h
    · rw [List.getElem?_eq_none h] at hi; cases hi
  bound s i := by
    unfold spinWait
    split
    · exact spinStale_lt _
    · omega
  own s i I hh := by
    obtain ⟨t, hi, hk⟩ := hh
    have hil : i < s.thr.length := by
      rcases Nat.lt_or_ge i s.thr.length with h | h
      · exact h
      · rw [List.getElem?_eq_none h] at hi; cases hi
    rw [actStep_some hi]
    have h1 := sum_set (spinWork (w := w) (δ := δ)) (actThread (lockAct unlock) s.value s.data t).2.2 hi
    rcases spin_own (unlock := unlock) (d := s.data) hk with h2 | ⟨h2, h3, h4, h5, h6⟩
    · left
      show ((s.thr.set i _).map spinWork).sum < _
      omega
    · right
      have hset : (s.thr.set i (actThread (lockAct unlock) s.value s.data t).2.2)[i]? =
        some (actThread (lockAct unlock) s.value s.data t).2.2 := List.getElem?_set_self hil
      refine ⟨⟨_, hset, .inr ⟨h3, h4, h5⟩⟩, ?_⟩
      simp only [spinWait, hset, hi]
      exact h6
  other s i j I hh hij := by
    obtain ⟨t, hi, hk⟩ := hh
    cases hj : s.thr[j]? with
    | none =>
      rw [actStep_none hj]
      exact .inr ⟨⟨t, hi, hk⟩, Nat.le_refl _⟩
    | some u =>
      rw [actStep_some hj]
      have h1 := sum_set (spinWork (w := w) (δ := δ)) (actThread (lockAct unlock) s.value s.data u).2.2 hj
      have hsame : (s.thr.set j (actThread (lockAct unlock) s.value s.data u).2.2)[i]? = some t := by
        rw [List.getElem?_set_ne hij, hi]
      rcases hk with hk | ⟨hv, hk, hf⟩
      · refine .inr ⟨⟨t, hsame, .inl hk⟩, ?_⟩
        simp only [spinWait, hsame, hi]
        exact Nat.le_refl _
      · have hz : lockHold u = 0 := by
          have := le_sum_of_getElem? (lockHold (w := w) (δ := δ)) hj
          rcases I.val with ⟨_, h2⟩ | ⟨h2, _⟩
          · omega
          · exact absurd (h2.symm.trans hv) (one_ne_zero' hw)
        have h3 := spin_value unlock s.data u hz
        rw [← hv] at h3
        rcases h3 with h3 | h3
        · refine .inr ⟨⟨t, hsame, .inr ⟨h3.trans hv, hk, hf⟩⟩, ?_⟩
          simp only [spinWait, hsame, hi]
          exact Nat.le_refl _
        · left
          show ((s.thr.set j _).map spinWork).sum < _
          omega

theorem spinWork_start (d : δ) (progs : List (List (δ → δ))) :
    ((actStart (0 : BitVec w) d (progs.map LockSt.want)).thr.map spinWork).sum = 6 * (progs.map List.length).sum := by
  unfold actStart
  induction progs with
  | nil => rfl
  | cons p ps ih =>
    simp only [List.map_cons, List.sum_cons] at ih ⊢
    have e : spinWork (⟨.want p, none⟩ : CThr w (LockSt δ)) = 6 * p.length := by
      cases p with
      | nil => rfl
      | cons g gs => rfl
    rw [ih, e, Nat.mul_add]

end Zy
