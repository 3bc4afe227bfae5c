import Verif.Lemmas.FairSpin
import Verif.Props.WinThreads
import Verif.Props.AtomicClients

/-!
# C172: fair schedules
-/

namespace Zy

open Spec

variable {S L : Type}

/-- **C172**, several sections: in every fair endless schedule there comes a moment from which on all threads have finished and
all sections are free. No thread starves, whether it waits or tries again and again. -/
theorem C172_ordered_fair {limit n : Nat} {locks : Nat → Mutex}
    (hm : ∀ k, ∃ a i st, csInitialize a i = (st, some (locks k))) {progs : Nat → List LockItem}
    (hp : ∀ t, InOrder limit [] (progs t)) (hn : ∀ t, n ≤ t → progs t = []) {sched : Nat → Nat} (hf : Fair n sched) :
    ∃ k g, (∀ k', k ≤ k' → lockRun limit (lockStart locks progs) (firstSteps sched k') = .ret g) ∧
      (∀ t, g.prog t = []) ∧ g.refused = false ∧ ∀ k, (g.locks k).owner = none := by
  obtain ⟨k, g, hd, ⟨⟨H, I⟩, _⟩, h⟩ := (lock_advances limit n).fair (g := lockStart locks progs)
    ⟨⟨_, OrderInv.start hm hp⟩, hn⟩ hf
  refine ⟨k, g, fun k' hk => by rw [lockRun_stepsOf]; exact h k' hk, hd, I.fine, fun k => ?_⟩
  cases ho : (g.locks k).owner with
  | none => rfl
  | some t =>
    exfalso
    have h7 := I.depth t k
    have h8 := I.held k t ho
    have h9 : H t = [] := by
      have := I.rule t
      rw [hd t] at this
      exact this
    unfold depthOf at h7
    rw [if_pos ho, h9] at h7
    simp at h7
    omega

/-- **C172**, with a bound: as many rounds as there are calls and other steps in all programs together are enough, if each
thread has its turn at least once in each round. -/
theorem C172_ordered_rounds {limit n : Nat} {locks : Nat → Mutex}
    (hm : ∀ k, ∃ a i st, csInitialize a i = (st, some (locks k))) {progs : Nat → List LockItem}
    (hp : ∀ t, InOrder limit [] (progs t)) (hn : ∀ t, n ≤ t → progs t = []) {rounds : List (List Nat)}
    (hr : FullRounds n rounds) (hl : ((List.range n).map fun t => (progs t).length).sum ≤ rounds.length) :
    ∃ g, lockRun limit (lockStart locks progs) rounds.flatten = .ret g ∧ (∀ t, g.prog t = []) ∧ g.refused = false := by
  obtain ⟨g, e, ⟨⟨H, I⟩, _⟩, hd⟩ := (lock_advances limit n).rounds rounds (g := lockStart locks progs)
    ⟨⟨_, OrderInv.start hm hp⟩, hn⟩ hr hl
  exact ⟨g, by rw [lockRun_stepsOf]; exact e, hd, I.fine⟩

/-- **C172**, guarded data: in every fair endless schedule all threads finish their sections. -/
theorem C172_guarded_fair {limit n : Nat} {a i : Option Errno} {st : Status} {m : Mutex}
    (hm : csInitialize a i = (st, some m)) (s : S) (loc : Nat → L) (progs : Nat → List (GSection S L))
    (hN : ∀ t, ∀ b ∈ progs t, Nests limit 1 b.2) (hn : ∀ t, n ≤ t → progs t = []) {sched : Nat → Nat}
    (hf : Fair n sched) :
    ∃ k g, (∀ k', k ≤ k' → guardedRun limit (guardedStart m s loc progs) (firstSteps sched k') = .ret g) ∧
      (∀ t, Finished g t) ∧ g.refused = false := by
  obtain ⟨k, g, hd, _, h⟩ := (guarded_advances (S := S) (L := L) limit n).fair (g := guardedStart m s loc progs)
    ⟨⟨⟨s, loc, progs⟩, hN, by rw [csInitialize_some hm]; exact GInv.start⟩, fun t ht => ⟨rfl, hn t ht⟩⟩ hf
  have h1 := h k (Nat.le_refl _)
  rw [← guardedRun_stepsOf] at h1
  refine ⟨k, g, fun k' hk => by rw [guardedRun_stepsOf]; exact h k' hk, hd, ?_⟩
  rw [csInitialize_some hm] at h1
  obtain ⟨g', e, hr, _⟩ := grun_ok (limit := limit) (firstSteps sched k) (p := ⟨s, loc, progs⟩) hN GInv.start
  rw [h1] at e
  cases e
  exact hr

/-- **C172** for a counter: in every fair schedule the number reaches its final value, and stays there. -/
theorem C172_counter_fair {limit n : Nat} {a i : Option Errno} {st : Status} {m : Mutex}
    (hm : csInitialize a i = (st, some m)) (s : Nat) (loc : Nat → Nat) (k : Nat → Nat) (hn : ∀ t, n ≤ t → k t = 0)
    {sched : Nat → Nat} (hf : Fair n sched) :
    ∃ b, ∀ b', b ≤ b' → ∃ g, guardedRun limit (guardedStart m s loc fun t => counting (k t)) (firstSteps sched b') =
      .ret g ∧ g.shared = s + ((List.range n).map k).sum := by
  obtain ⟨b, g, h, hF, _⟩ := C172_guarded_fair (limit := limit) hm s loc (fun t => counting (k t)) (fun t b hb => by
    rw [List.eq_of_mem_replicate hb]; rfl) (fun t ht => by rw [hn t ht]; rfl) hf
  exact ⟨b, fun b' hb => ⟨g, h b' hb, C148_counter hm s loc k hn (h b' hb) hF⟩⟩

/-- **C172** on Windows: the same for several sections. -/
theorem C172_windows_fair {limit n : Nat} {progs : Nat → List LockItem} (hp : ∀ t, InOrder limit [] (progs t))
    (hn : ∀ t, n ≤ t → progs t = []) {sched : Nat → Nat} (hf : Fair n sched) :
    ∃ k, ∀ k', k ≤ k' → ∃ v, winLockRun ⟨fun _ => winCsInitialize.2, progs, false⟩ (firstSteps sched k') = .ret v ∧
      (∀ t, v.prog t = []) ∧ v.refused = false ∧ ∀ k, (v.locks k).owner = none := by
  have hm : ∀ k : Nat, ∃ a i st, csInitialize a i = (st, some (exFree k)) := fun _ => ⟨none, none, stSuccess, rfl⟩
  have hs : SameLocks (lockStart exFree progs) ⟨fun _ => winCsInitialize.2, progs, false⟩ :=
    ⟨fun _ => ⟨rfl, rfl, rfl⟩, rfl, rfl⟩
  obtain ⟨k, g, h, h1, h2, h3⟩ := C172_ordered_fair hm hp hn hf
  refine ⟨k, fun k' hk => ?_⟩
  obtain ⟨g', v, e1, e2, h'⟩ := SameLocks.run (limit := limit) (firstSteps sched k') (OrderInv.start hm hp) hs
  rw [h k' hk] at e1
  cases e1
  exact ⟨v, e2, fun t => by rw [h'.prog, h1 t], h'.refused.trans h2, fun j => by rw [(h'.sec j).owner, h3 j]⟩

/-- **C172**, fairness is needed: if a thread that is inside of a section never gets its turn again, no other thread that is
about to enter it ever goes on. -/
theorem C172_unfair {limit k t u : Nat} (htu : t ≠ u) {locks : Nat → Mutex}
    (hm : ∀ k, ∃ a i st, csInitialize a i = (st, some (locks k))) {progs : Nat → List LockItem} {b : Bool}
    {p : List LockItem} (hk : (progs t) = [.enter k b, .leave k]) {c : Bool} (hu : progs u = .enter k c :: p)
    (more : List Nat) (hmore : t ∉ more) :
    ∃ g, lockRun limit (lockStart locks progs) (t :: more) = .ret g ∧ g.prog u = .enter k c :: p := by
  have hl : ∀ k, locks k = ⟨.recursive, none, 0⟩ := fun k => by
    obtain ⟨a, i, st, h⟩ := hm k
    exact csInitialize_some h
  have h1 : lockStep limit (lockStart locks progs) t =
      .ret (((lockStart locks progs).lock k ⟨.recursive, some t, 1⟩).goOn t [.leave k]) := by
    cases b <;>
      simp [lockStep, lockStart, hk, hl, csStep, csEnter, csTryEnter, pthreadLock, pthreadTryLock, Out.bind, enterStatus,
        failed_success]
  have key : ∀ (more : List Nat) (g : LockState), t ∉ more → (∀ k, (g.locks k).kind = .recursive) →
      g.prog u = .enter k c :: p → g.locks k = ⟨.recursive, some t, 1⟩ →
      ∃ g', lockRun limit g more = .ret g' ∧ g'.prog u = .enter k c :: p := by
    intro more
    induction more with
    | nil => exact fun g _ _ e1 _ => ⟨g, rfl, e1⟩
    | cons x more ih =>
      intro g hx hk e1 e2
      have hxt : x ≠ t := fun e => hx (by rw [e]; exact List.mem_cons_self)
      have hx' : t ∉ more := fun h => hx (List.mem_cons_of_mem _ h)
      by_cases hxu : x = u
      · have hst : lockStep limit g x = .ret (g.lock k (g.locks k)) := by
          rw [hxu]
          cases c <;>
            simp [lockStep, e1, e2, csStep, csEnter, csTryEnter, pthreadLock, pthreadTryLock, htu, Out.bind]
        rw [lockRun, hst, lock_same]
        exact ih g hx' hk e1 e2
      · obtain ⟨g', hst, hk', hpr, hlo⟩ := lockStep_others limit hk x
        rw [lockRun, hst]
        refine ih g' hx' hk' ?_ ?_
        · rw [hpr u (Ne.symm hxu), e1]
        · rw [hlo k t (by rw [e2]) (Ne.symm hxt), e2]
  show ∃ g, (lockStep limit (lockStart locks progs) t).bind _ = _ ∧ _
  rw [h1]
  refine key more _ hmore (fun x => ?_) ?_ ?_
  · simp only [LockState.goOn, LockState.lock, lockStart, hl]
    split <;> rfl
  · show (if u = t then _ else progs u) = _
    rw [if_neg (Ne.symm htu), hu]
  · simp [LockState.goOn, LockState.lock]

/-- **C172** for a spin lock: in every fair endless schedule there comes a moment from which on all threads have applied all
their functions to the data, one after the other. -/
theorem C172_spin_fair {w : Nat} {δ : Type} {unlock : AOp w} (hu : unlock = .cas 1 0 ∨ unlock = .dec) (hw : 0 < w) (d : δ)
    (progs : List (List (δ → δ))) {sched : Nat → Nat} (hf : Fair progs.length sched) :
    ∃ k s, (∀ k', k ≤ k' → actRun (lockAct unlock) (actStart 0 d (progs.map .want)) (firstSteps sched k') = s) ∧
      (∀ t ∈ s.thr, t.st.finished = true) ∧ s.value = 0 ∧
      ∃ log : List (Nat × (δ → δ)), s.data = log.foldl (fun d p => p.2 d) d ∧
        ∀ (i : Nat) (p : List (δ → δ)), progs[i]? = some p → entriesOf log i = p := by
  obtain ⟨k, s, hd, I, h⟩ := (spin_nudges hu hw d progs).fair (LockInv.start (w := w) d progs) hf
  refine ⟨k, s, h, hd, ?_, ?_⟩
  · rcases I.val with ⟨h1, _⟩ | ⟨_, h2⟩
    · exact h1
    · exfalso
      obtain ⟨i, t, hi, ht⟩ := sum_pos_getElem? (lockHold (w := w) (δ := δ)) (l := s.thr) (by omega)
      have hfin := hd t (List.mem_of_getElem? hi)
      obtain ⟨st, reg⟩ := t
      cases st with
      | want gs =>
        cases gs with
        | nil => exact absurd ht (by simp [lockHold])
        | cons g gs => cases hfin
      | load g gs => cases hfin
      | store g gs x => cases hfin
      | leave gs => cases hfin
  · obtain ⟨log, h1, h2⟩ := C156_serial hu hw d progs (firstSteps sched k)
    have e : actRun (lockAct unlock) (actStart 0 d (progs.map .want)) (firstSteps sched k) = s := h k (Nat.le_refl _)
    rw [e] at h1 h2
    refine ⟨log, h1, fun i p hp => ?_⟩
    have hi : i < s.thr.length := by
      rw [I.len]
      rcases Nat.lt_or_ge i progs.length with h | h
      · exact h
      · rw [List.getElem?_eq_none h] at hp; cases hp
    exact (h2 i p hp).2 _ (List.getElem?_eq_getElem hi) (hd _ (List.getElem_mem hi))

/-- **C172** for a spin lock, with a bound: twelve rounds for each function. -/
theorem C172_spin_rounds {w : Nat} {δ : Type} {unlock : AOp w} (hu : unlock = .cas 1 0 ∨ unlock = .dec) (hw : 0 < w) (d : δ)
    (progs : List (List (δ → δ))) {rounds : List (List Nat)} (hr : FullRounds progs.length rounds)
    (hl : 12 * (progs.map List.length).sum ≤ rounds.length) :
    ∀ t ∈ (actRun (lockAct unlock) (actStart 0 d (progs.map .want)) rounds.flatten).thr, t.st.finished = true :=
  (spin_nudges hu hw d progs).rounds (6 * (progs.map List.length).sum) rounds (LockInv.start (w := w) d progs) hr
    (Nat.le_of_eq (spinWork_start d progs)) (by omega)

/-- Taking turns is fair. -/
theorem exFair : Fair 3 fun i => i % 3 := fun t ht i => ⟨3 * i + t, by omega, by
  show (3 * i + t) % 3 = t
  omega⟩

example : ∃ k g, (∀ k', k ≤ k' → lockRun 2 (lockStart exFree exLockProgs) (firstSteps (fun i => i % 3) k') = .ret g) ∧
      (∀ t, g.prog t = []) ∧ g.refused = false ∧ ∀ k, (g.locks k).owner = none :=
  C172_ordered_fair (fun _ => ⟨none, none, stSuccess, rfl⟩) exLockProgs_inOrder (fun t ht => by
    match t, ht with
    | t + 3, _ => rfl) exFair

/-- Rounds in different orders. -/
example : ∃ g, lockRun 2 (lockStart exFree exLockProgs) (List.replicate 9 [0, 1, 2] ++ List.replicate 9 [2, 2, 1, 0]).flatten
      = .ret g ∧ (∀ t, g.prog t = []) ∧ g.refused = false :=
  C172_ordered_rounds (n := 3) (fun _ => ⟨none, none, stSuccess, rfl⟩) exLockProgs_inOrder (fun t ht => by
    match t, ht with
    | t + 3, _ => rfl) (fun r hr t ht => by
      rcases List.mem_append.1 hr with h | h <;> rw [List.eq_of_mem_replicate h] <;>
        (match t, ht with
          | 0, _ => simp
          | 1, _ => simp
          | 2, _ => simp)) (by decide)

example : ∃ b, ∀ b', b ≤ b' → ∃ g, guardedRun 1 (guardedStart ⟨.recursive, none, 0⟩ 5 (fun _ => 0) fun t =>
      counting (if t = 0 then 3 else if t = 2 then 4 else 0)) (firstSteps (fun i => i % 3) b') = .ret g ∧ g.shared = 12 :=
  C172_counter_fair (n := 3) (a := none) (i := none) (st := stSuccess) rfl 5 _
    (fun t => if t = 0 then 3 else if t = 2 then 4 else 0) (fun t ht => by
      show (if t = 0 then 3 else if t = 2 then 4 else 0) = 0
      rw [if_neg (by omega), if_neg (by omega)]) exFair

example : ∃ g, lockRun 1 (lockStart exFree fun t => [.enter t true, .leave t]) [0] = .ret g ∧ g.prog 0 = [.leave 0] :=
  ⟨_, rfl, rfl⟩
example : ∃ g, lockRun 1 (lockStart exFree fun t => if t = 4 then [.enter 9 true, .leave 9] else
      if t = 5 then [.enter 9 false, .work] else [.work, .work]) [4, 5, 6, 5, 5, 6, 5] = .ret g ∧
    g.prog 5 = [.enter 9 false, .work] :=
  C172_unfair (t := 4) (by decide) (fun _ => ⟨none, none, stSuccess, rfl⟩) rfl rfl [5, 6, 5, 5, 6, 5] (by decide)

/-- Three threads with a spin lock; the second one has nothing to do. -/
example : ∃ k s, (∀ k', k ≤ k' → actRun (lockAct .dec) (actStart 0#32 5 ([[(· + 1), (· * 2)], [], [(· + 3)]].map .want))
      (firstSteps (fun i => i % 3) k') = s) ∧ (∀ t ∈ s.thr, t.st.finished = true) ∧ s.value = 0 ∧
      ∃ log : List (Nat × (Nat → Nat)), s.data = log.foldl (fun d p => p.2 d) 5 ∧
        ∀ (i : Nat) (p : List (Nat → Nat)), [[(· + 1), (· * 2)], [], [(· + 3)]][i]? = some p → entriesOf log i = p :=
  C172_spin_fair (Or.inr rfl) (by decide) 5 _ exFair
example : ∀ t ∈ (actRun (lockAct (.cas 1 0)) (actStart 0#32 5 ([[(· + 1)], [(· + 3)]].map .want))
      (List.replicate 24 [1, 0]).flatten).thr, t.st.finished = true :=
  C172_spin_rounds (Or.inl rfl) (by decide) 5 _ (fun r hr t ht => by
    rw [List.eq_of_mem_replicate hr]
    match t, ht with
    | 0, _ => simp
    | 1, _ => simp) (by decide)

end Zy
