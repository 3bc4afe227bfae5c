import Verif.Lemmas.LockOrder

/-!
# C170: several critical sections
-/

namespace Zy

open Spec

/-- **C170**: the threads share any number of critical sections. If each thread enters them in the order of their numbers
(and may re-enter those that it is inside of), then, whatever the threads have done so far, no call has failed, and all threads
can finish, in as many further steps as remain of their programs. -/
theorem C170_no_deadlock {limit n : Nat} {locks : Nat → Mutex}
    (hm : ∀ k, ∃ a i st, csInitialize a i = (st, some (locks k))) {progs : Nat → List LockItem}
    (hp : ∀ t, InOrder limit [] (progs t)) (hn : ∀ t, n ≤ t → progs t = []) (sched : List Nat) :
    ∃ g, lockRun limit (lockStart locks progs) sched = .ret g ∧ g.refused = false ∧
      ∃ more g', lockRun limit (lockStart locks progs) (sched ++ more) = .ret g' ∧ g'.refused = false ∧
        (∀ t, g'.prog t = []) ∧ (∀ k, (g'.locks k).owner = none) ∧
        more.length ≤ ((List.range n).map fun t => (g.prog t).length).sum := by
  obtain ⟨g, H, h1, I, hs⟩ := lockRun_ok (limit := limit) sched (OrderInv.start hm hp)
  have hn' : ∀ t, n ≤ t → g.prog t = [] := fun t ht => by
    have h2 := hs t
    have h3 : (lockStart locks progs).prog t = [] := hn t ht
    rw [h3] at h2
    exact List.suffix_nil.1 h2
  obtain ⟨more, g', H', h4, I', h5, h6⟩ := lock_finish (n := n) _ I hn' (Nat.le_refl _)
  refine ⟨g, h1, I.fine, more, g', ?_, I'.fine, h5, fun k => ?_, h6⟩
  · rw [lockRun_append, h1]
    exact h4
  · cases ho : (g'.locks k).owner with
    | none => rfl
    | some t =>
      exfalso
      have h7 := I'.depth t k
      have h8 := I'.held k t ho
      have h9 : H' t = [] := by
        have := I'.rule t
        rw [h5 t] at this
        exact this
      unfold depthOf at h7
      rw [if_pos ho, h9] at h7
      simp at h7
      omega

/-- **C170**, at each moment: unless all threads have finished, some thread can make its next step. -/
theorem C170_someone_can_go_on {limit n : Nat} {locks : Nat → Mutex}
    (hm : ∀ k, ∃ a i st, csInitialize a i = (st, some (locks k))) {progs : Nat → List LockItem}
    (hp : ∀ t, InOrder limit [] (progs t)) (hn : ∀ t, n ≤ t → progs t = []) {sched : List Nat} {g : LockState}
    (hr : lockRun limit (lockStart locks progs) sched = .ret g) {t0 : Nat} (h0 : g.prog t0 ≠ []) :
    ∃ t g', t < n ∧ lockStep limit g t = .ret g' ∧ (g'.prog t).length + 1 = (g.prog t).length := by
  obtain ⟨g1, H, h1, I, hs⟩ := lockRun_ok (limit := limit) sched (OrderInv.start hm hp)
  rw [hr] at h1
  cases h1
  have hn' : ∀ t, n ≤ t → g.prog t = [] := fun t ht => by
    have h2 := hs t
    have h3 : (lockStart locks progs).prog t = [] := hn t ht
    rw [h3] at h2
    exact List.suffix_nil.1 h2
  obtain ⟨t, ht, hne, hnw⟩ := someone_goes I hn' h0
  rcases lockStep_ok I t with ⟨_, h | h⟩ | ⟨g2, H2, i, p, e, _, hpr, hn2⟩
  · exact absurd h hne
  · exact absurd h hnw
  · refine ⟨t, g2, ht, e, ?_⟩
    rw [hn2 t, if_pos rfl, hpr]
    rfl

/-- **C170**, the rule is needed: two threads that enter two sections in opposite orders can come to a state from which
neither of them ever goes on, whatever the schedule, whether they wait or try again and again, whatever they would do
afterwards, and whatever the other threads do. -/
theorem C170_opposite_orders {limit j k t u : Nat} (hjk : j ≠ k) (htu : t ≠ u) {locks : Nat → Mutex}
    (hm : ∀ k, ∃ a i st, csInitialize a i = (st, some (locks k))) {progs : Nat → List LockItem} {a b c d : Bool}
    {p q : List LockItem} (ht : progs t = .enter j a :: .enter k b :: p) (hu : progs u = .enter k c :: .enter j d :: q)
    (more : List Nat) :
    ∃ g, lockRun limit (lockStart locks progs) (t :: u :: more) = .ret g ∧
      g.prog t = .enter k b :: p ∧ g.prog u = .enter j d :: q := by
  have hl : ∀ k, locks k = ⟨.recursive, none, 0⟩ := fun k => by
    obtain ⟨a, i, st, h⟩ := hm k
    exact csInitialize_some h
  have hut : u ≠ t := Ne.symm htu
  have hkj : k ≠ j := Ne.symm hjk
  have h1 : lockStep limit (lockStart locks progs) t =
      .ret (((lockStart locks progs).lock j ⟨.recursive, some t, 1⟩).goOn t (.enter k b :: p)) := by
    cases a <;>
      simp [lockStep, lockStart, ht, hl, csStep, csEnter, csTryEnter, pthreadLock, pthreadTryLock, Out.bind, enterStatus,
        failed_success]
  have h2 : lockStep limit (((lockStart locks progs).lock j ⟨.recursive, some t, 1⟩).goOn t (.enter k b :: p)) u =
      .ret (((((lockStart locks progs).lock j ⟨.recursive, some t, 1⟩).goOn t (.enter k b :: p)).lock k
        ⟨.recursive, some u, 1⟩).goOn u (.enter j d :: q)) := by
    cases c <;>
      simp [lockStep, lockStart, LockState.goOn, LockState.lock, hu, hut, hkj, hl, csStep, csEnter, csTryEnter,
        pthreadLock, pthreadTryLock, Out.bind, enterStatus, failed_success]
  have key : ∀ (more : List Nat) (g : LockState), (∀ k, (g.locks k).kind = .recursive) →
      g.prog t = .enter k b :: p → g.prog u = .enter j d :: q → g.locks j = ⟨.recursive, some t, 1⟩ →
      g.locks k = ⟨.recursive, some u, 1⟩ →
      ∃ g', lockRun limit g more = .ret g' ∧ g'.prog t = .enter k b :: p ∧ g'.prog u = .enter j d :: q := by
    intro more
    induction more with
    | nil => exact fun g _ e1 e2 _ _ => ⟨g, rfl, e1, e2⟩
    | cons x more ih =>
      intro g hk e1 e2 e3 e4
      by_cases hx : x = t
      · have hst : lockStep limit g x = .ret (g.lock k (g.locks k)) := by
          rw [hx]
          cases b <;>
            simp [lockStep, e1, e4, csStep, csEnter, csTryEnter, pthreadLock, pthreadTryLock, hut, Out.bind]
        rw [lockRun, hst, lock_same]
        exact ih g hk e1 e2 e3 e4
      · by_cases hx' : x = u
        · have hst : lockStep limit g x = .ret (g.lock j (g.locks j)) := by
            rw [hx']
            cases d <;>
              simp [lockStep, e2, e3, csStep, csEnter, csTryEnter, pthreadLock, pthreadTryLock, htu, Out.bind]
          rw [lockRun, hst, lock_same]
          exact ih g hk e1 e2 e3 e4
        · obtain ⟨g', hst, hk', hpr, hlo⟩ := lockStep_others limit hk x
          rw [lockRun, hst]
          refine ih g' hk' ?_ ?_ ?_ ?_
          · rw [hpr t (Ne.symm hx), e1]
          · rw [hpr u (Ne.symm hx'), e2]
          · rw [hlo j t (by rw [e3]) (Ne.symm hx), e3]
          · rw [hlo k u (by rw [e4]) (Ne.symm hx'), e4]
  show ∃ g, (lockStep limit (lockStart locks progs) t).bind _ = _ ∧ _
  rw [h1]
  show ∃ g, (lockStep limit _ u).bind _ = _ ∧ _
  rw [h2]
  refine key more _ (fun x => ?_) ?_ ?_ ?_ ?_
  · simp only [LockState.goOn, LockState.lock, lockStart, hl]
    split
    · rfl
    · split <;> rfl
  · simp [LockState.goOn, LockState.lock, htu]
  · simp [LockState.goOn]
  · simp [LockState.goOn, LockState.lock, hjk]
  · simp [LockState.goOn, LockState.lock]

/-- Three threads with three sections: one re-enters, one leaves in the other order, one tries. -/
def exLockProgs : Nat → List LockItem
  | 0 => [.enter 1 false, .enter 2 false, .enter 1 false, .work, .leave 1, .leave 1, .leave 2]
  | 1 => [.work, .enter 0 true, .enter 2 false, .leave 0, .leave 2]
  | 2 => [.enter 0 false, .enter 1 true, .enter 2 true, .leave 2, .leave 1, .leave 0]
  | _ => []

def exFree : Nat → Mutex := fun _ => ⟨.recursive, none, 0⟩

theorem exLockProgs_inOrder : ∀ t, InOrder 2 [] (exLockProgs t)
  | 0 => by simp [exLockProgs, InOrder]
  | 1 => by simp [exLockProgs, InOrder]
  | 2 => by simp [exLockProgs, InOrder]
  | _ + 3 => by simp [exLockProgs, InOrder]

example : ∃ g, lockRun 2 (lockStart exFree exLockProgs) [0, 2, 0, 2, 1, 1, 2, 0] = .ret g ∧ g.refused = false ∧
    ∃ more g', lockRun 2 (lockStart exFree exLockProgs) ([0, 2, 0, 2, 1, 1, 2, 0] ++ more) = .ret g' ∧ g'.refused = false ∧
      (∀ t, g'.prog t = []) ∧ (∀ k, (g'.locks k).owner = none) ∧
      more.length ≤ ((List.range 3).map fun t => (g.prog t).length).sum :=
  C170_no_deadlock (fun _ => ⟨none, none, stSuccess, rfl⟩) exLockProgs_inOrder
    (fun t ht => by
      match t, ht with
      | t + 3, _ => rfl) _

/-- Thread 0 is inside of sections 1 and 2, thread 2 inside of section 0; threads 1 and 2 wait. -/
example : ∃ g, lockRun 2 (lockStart exFree exLockProgs) [0, 2, 0, 2, 1, 1, 2] = .ret g ∧
    (g.prog 0).length = 5 ∧ (g.prog 1).length = 4 ∧ (g.prog 2).length = 5 := ⟨_, rfl, rfl, rfl, rfl⟩

example : ∃ g, lockRun 9 (lockStart exFree fun t => if t = 0 then [.enter 5 false, .enter 7 true, .leave 7, .leave 5]
      else if t = 1 then [.enter 7 false, .enter 5 false, .leave 5, .leave 7] else []) [0, 1, 1, 0, 0, 1] = .ret g ∧
    g.prog 0 = [.enter 7 true, .leave 7, .leave 5] ∧ g.prog 1 = [.enter 5 false, .leave 5, .leave 7] :=
  C170_opposite_orders (by decide) (by decide) (fun _ => ⟨none, none, stSuccess, rfl⟩) rfl rfl [1, 0, 0, 1]

end Zy
