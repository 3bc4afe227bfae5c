import Verif.Spec.LockOrder
import Verif.Lemmas.Sync
import Verif.Lemmas.Guarded

/-!
# Lemmas about programs with several critical sections
-/

namespace Zy

open Spec

/-- How often thread `t` is inside of a section. -/
def depthOf (m : Mutex) (t : Nat) : Nat := if m.owner = some t then m.count else 0

/-- The invariant: `H t` are the sections that thread `t` is inside of. -/
structure OrderInv (limit : Nat) (g : LockState) (H : Nat → List Nat) : Prop where
  kind : ∀ k, (g.locks k).kind = .recursive
  depth : ∀ t k, (H t).count k = depthOf (g.locks k) t
  held : ∀ k t, (g.locks k).owner = some t → 0 < (g.locks k).count
  rule : ∀ t, InOrder limit (H t) (g.prog t)
  fine : g.refused = false

/-- Another list for one thread. -/
def lists (H : Nat → List Nat) (t : Nat) (h : List Nat) : Nat → List Nat := fun u => if u = t then h else H u

/-- The invariant after a call of thread `t` for section `k`. -/
theorem OrderInv.call {limit : Nat} {g : LockState} {H : Nat → List Nat} (I : OrderInv limit g H) {t k : Nat}
    {p : List LockItem} {m : Mutex} {h : List Nat} (hk : m.kind = .recursive) (hp : InOrder limit h p)
    (hh : ∀ u, m.owner = some u → 0 < m.count)
    (h1 : h.count k = depthOf m t) (h2 : ∀ j, j ≠ k → h.count j = (H t).count j)
    (h3 : ∀ u, u ≠ t → depthOf m u = depthOf (g.locks k) u) :
    OrderInv limit ((g.lock k m).goOn t p) (lists H t h) where
  kind j := by
    show (if j = k then m else g.locks j).kind = _
    split
    · exact hk
    · exact I.kind j
  depth u j := by
    show (if u = t then h else H u).count j = depthOf (if j = k then m else g.locks j) u
    by_cases hu : u = t
    · by_cases hj : j = k
      · rw [if_pos hu, if_pos hj, hj, hu, h1]
      · rw [if_pos hu, if_neg hj, h2 j hj, hu, I.depth t j]
    · by_cases hj : j = k
      · rw [if_neg hu, if_pos hj, h3 u hu, hj, I.depth u k]
      · rw [if_neg hu, if_neg hj, I.depth u j]
  held j u := by
    show (if j = k then m else g.locks j).owner = some u → 0 < (if j = k then m else g.locks j).count
    split
    · exact hh u
    · exact I.held j u
  rule u := by
    show InOrder limit (if u = t then h else H u) (if u = t then p else g.prog u)
    split
    · exact hp
    · exact I.rule u
  fine := I.fine

/-- Nothing happened to a section that is put back as it is. -/
theorem lock_same (g : LockState) (k : Nat) : g.lock k (g.locks k) = g := by
  unfold LockState.lock
  cases g with
  | mk l p r =>
    simp only [LockState.mk.injEq, and_true]
    funext j
    by_cases h : j = k
    · rw [if_pos h, h]
    · rw [if_neg h]

/-- The section is free for thread `t`. -/
def FreeToEnter (m : Mutex) (t : Nat) : Prop := m.owner = none ∨ m.owner = some t

instance (m : Mutex) (t : Nat) : Decidable (FreeToEnter m t) := by unfold FreeToEnter; infer_instance

/-- Thread `t` waits for section `k`. -/
def WaitsFor (g : LockState) (t k : Nat) : Prop :=
  (∃ s p, g.prog t = .enter k s :: p) ∧ ¬ FreeToEnter (g.locks k) t

/-- What a step does: nothing for a finished or a waiting thread, else the thread goes on. -/
theorem lockStep_ok {limit : Nat} {g : LockState} {H : Nat → List Nat} (I : OrderInv limit g H) (t : Nat) :
    (lockStep limit g t = .ret g ∧ (g.prog t = [] ∨ ∃ k, WaitsFor g t k)) ∨
    ∃ g' H' i p, lockStep limit g t = .ret g' ∧ OrderInv limit g' H' ∧ g.prog t = i :: p ∧
      (∀ u, g'.prog u = if u = t then p else g.prog u) := by
  have hR := I.rule t
  cases hp : g.prog t with
  | nil =>
    left
    exact ⟨by simp only [lockStep, hp], .inl rfl⟩
  | cons i p =>
    rw [hp] at hR
    cases i with
    | work =>
      right
      refine ⟨g.goOn t p, H, .work, p, by simp only [lockStep, hp], ⟨I.kind, I.depth, I.held, fun u => ?_, I.fine⟩, rfl,
        fun u => rfl⟩
      show InOrder limit (H u) (if u = t then p else g.prog u)
      by_cases hu : u = t
      · rw [if_pos hu, hu]; exact hR
      · rw [if_neg hu]; exact I.rule u
    | enter k s =>
      obtain ⟨hc, hR⟩ := hR
      have hD := I.depth t k
      have hK := I.kind k
      have hH := I.held k
      unfold depthOf at hD
      by_cases hfree : FreeToEnter (g.locks k) t
      · right
        rcases hfree with ho | ho
        · have hst : lockStep limit g t =
              .ret ((g.lock k { g.locks k with owner := some t, count := 1 }).goOn t p) := by
            cases s <;>
              simp [lockStep, hp, csStep, csEnter, csTryEnter, pthreadLock, pthreadTryLock, ho, Out.bind, enterStatus,
                failed_success]
          refine ⟨_, lists H t (k :: H t), _, p, hst, I.call hK hR (fun _ _ => Nat.one_pos) ?_ ?_ ?_, rfl, fun u => rfl⟩
          · rw [ho] at hD
            simp only [reduceCtorEq, if_false] at hD
            simp [depthOf, hD]
          · intro j hj
            rw [List.count_cons_of_ne (Ne.symm hj)]
          · intro u hu
            simp [depthOf, ho, Ne.symm hu]
        · rw [if_pos ho] at hD
          have hcnt : (g.locks k).count < limit := by
            rcases hc with ⟨_, h⟩ | h
            · omega
            · have h0 : 0 < (H t).count k := by have := hH t ho; omega
              exact absurd (h k (List.count_pos_iff.1 h0)) (by omega)
          have hst : lockStep limit g t =
              .ret ((g.lock k { g.locks k with count := (g.locks k).count + 1 }).goOn t p) := by
            cases s <;>
              simp [lockStep, hp, csStep, csEnter, csTryEnter, pthreadLock, pthreadTryLock, ho, hK, hcnt, Out.bind,
                enterStatus, failed_success]
          refine ⟨_, lists H t (k :: H t), _, p, hst, I.call hK hR (fun _ _ => Nat.succ_pos _) ?_ ?_ ?_, rfl,
            fun u => rfl⟩
          · simp [depthOf, ho, hD]
          · intro j hj
            rw [List.count_cons_of_ne (Ne.symm hj)]
          · intro u hu
            simp [depthOf, ho, Ne.symm hu]
      · left
        refine ⟨?_, .inr ⟨k, ⟨s, p, hp⟩, hfree⟩⟩
        have hst : lockStep limit g t = .ret (g.lock k (g.locks k)) := by
          unfold FreeToEnter at hfree
          cases ho : (g.locks k).owner with
          | none => exact absurd (.inl ho) hfree
          | some o =>
            have hne : o ≠ t := fun e => hfree (.inr (by rw [ho, e]))
            cases s <;>
              simp [lockStep, hp, csStep, csEnter, csTryEnter, pthreadLock, pthreadTryLock, ho, hne, Out.bind]
        rw [hst, lock_same]
    | leave k =>
      right
      obtain ⟨hm, hR⟩ := hR
      have hD := I.depth t k
      have hpos := List.count_pos_iff.2 hm
      unfold depthOf at hD
      have ho : (g.locks k).owner = some t := by
        by_cases h : (g.locks k).owner = some t
        · exact h
        · rw [if_neg h] at hD
          omega
      rw [if_pos ho] at hD
      by_cases hc : (g.locks k).count ≤ 1
      · have hst : lockStep limit g t =
            .ret ((g.lock k { g.locks k with owner := none, count := 0 }).goOn t p) := by
          simp [lockStep, hp, csStep, csLeave, pthreadUnlock, ho, hc, Out.bind, leaveStatus, failed_success]
        refine ⟨_, lists H t ((H t).erase k), _, p, hst, I.call (I.kind k) hR (fun _ h => by simp at h) ?_ ?_ ?_, rfl,
          fun u => rfl⟩
        · rw [List.count_erase_self]
          simp [depthOf]
          omega
        · intro j hj
          rw [List.count_erase_of_ne hj]
        · intro u hu
          simp [depthOf, ho, Ne.symm hu]
      · have hst : lockStep limit g t =
            .ret ((g.lock k { g.locks k with count := (g.locks k).count - 1 }).goOn t p) := by
          simp [lockStep, hp, csStep, csLeave, pthreadUnlock, ho, hc, Out.bind, leaveStatus, failed_success]
        refine ⟨_, lists H t ((H t).erase k), _, p, hst, I.call (I.kind k) hR (fun _ _ => by
          show 0 < (g.locks k).count - 1
          omega) ?_ ?_ ?_, rfl, fun u => rfl⟩
        · rw [List.count_erase_self]
          simp [depthOf, ho]
          omega
        · intro j hj
          rw [List.count_erase_of_ne hj]
        · intro u hu
          simp [depthOf, ho, Ne.symm hu]

theorem lockRun_append (limit : Nat) : ∀ (a b : List Nat) (g : LockState),
    lockRun limit g (a ++ b) = (lockRun limit g a).bind fun g' => lockRun limit g' b
  | [], _, _ => rfl
  | t :: a, b, g => by
    show (lockStep limit g t).bind _ = ((lockStep limit g t).bind _).bind _
    cases lockStep limit g t with
    | ub w => rfl
    | ret g' => exact lockRun_append limit a b g'

/-- After any schedule the invariant holds, and what remains of the programs are suffixes. -/
theorem lockRun_ok {limit : Nat} : ∀ (sched : List Nat) {g : LockState} {H : Nat → List Nat},
    OrderInv limit g H → ∃ g' H', lockRun limit g sched = .ret g' ∧ OrderInv limit g' H' ∧ ∀ t, g'.prog t <:+ g.prog t
  | [], g, H, I => ⟨g, H, rfl, I, fun _ => List.suffix_refl _⟩
  | t :: ts, g, H, I => by
    rcases lockStep_ok I t with ⟨e, _⟩ | ⟨g1, H1, i, p, e, I1, hp, hn⟩
    · obtain ⟨g', H', h1, h2, h3⟩ := lockRun_ok ts I
      exact ⟨g', H', by rw [lockRun, e]; exact h1, h2, h3⟩
    · obtain ⟨g', H', h1, h2, h3⟩ := lockRun_ok ts I1
      refine ⟨g', H', by rw [lockRun, e]; exact h1, h2, fun u => (h3 u).trans ?_⟩
      rw [hn u]
      by_cases hu : u = t
      · rw [if_pos hu, hu, hp]
        exact List.suffix_cons _ _
      · rw [if_neg hu]
        exact List.suffix_refl _

/-- If every unfinished thread waits, there are threads that wait for sections with arbitrarily great numbers. -/
theorem waits_above {limit n : Nat} {g : LockState} {H : Nat → List Nat} (I : OrderInv limit g H)
    (hn : ∀ t, n ≤ t → g.prog t = []) (hw : ∀ t, g.prog t ≠ [] → ∃ k, WaitsFor g t k) {t0 : Nat}
    (h0 : g.prog t0 ≠ []) : ∀ N, ∃ t k, t < n ∧ WaitsFor g t k ∧ N ≤ k
  | 0 => by
    obtain ⟨k, hk⟩ := hw t0 h0
    refine ⟨t0, k, ?_, hk, Nat.zero_le _⟩
    rcases Nat.lt_or_ge t0 n with h | h
    · exact h
    · exact absurd (hn t0 h) h0
  | N + 1 => by
    obtain ⟨t, k, _, ⟨_, hb⟩, hN⟩ := waits_above I hn hw h0 N
    unfold FreeToEnter at hb
    cases ho : (g.locks k).owner with
    | none => exact absurd (.inl ho) hb
    | some u =>
      have hin : k ∈ H u := by
        have h1 := I.depth u k
        have h2 := I.held k u ho
        unfold depthOf at h1
        rw [if_pos ho] at h1
        exact List.count_pos_iff.1 (by omega)
      have hne : g.prog u ≠ [] := fun e => by
        have := I.rule u
        rw [e] at this
        have h3 : H u = [] := this
        rw [h3] at hin
        simp at hin
      obtain ⟨k', hk'⟩ := hw u hne
      refine ⟨u, k', ?_, hk', ?_⟩
      · rcases Nat.lt_or_ge u n with h | h
        · exact h
        · exact absurd (hn u h) hne
      · obtain ⟨⟨s, p, hp⟩, hb'⟩ := hk'
        have hr := I.rule u
        rw [hp] at hr
        rcases hr.1 with ⟨hm, _⟩ | hgt
        · exfalso
          have h1 := I.depth u k'
          have h2 := List.count_pos_iff.2 hm
          unfold depthOf at h1
          refine hb' (.inr ?_)
          by_cases h : (g.locks k').owner = some u
          · exact h
          · rw [if_neg h] at h1
            omega
        · have := hgt k hin
          omega

/-- The number of the section that a thread is about to enter. -/
def wanted (g : LockState) (t : Nat) : Nat :=
  match g.prog t with
  | .enter k _ :: _ => k
  | _ => 0

theorem sumBelow_ge (f : Nat → Nat) {t : Nat} : ∀ {n : Nat}, t < n → f t ≤ sumBelow f n
  | 0, h => by omega
  | n + 1, h => by
    have e : sumBelow f (n + 1) = sumBelow f n + f n := by
      unfold sumBelow
      rw [List.range_succ, List.map_append, List.sum_append]
      simp
    rw [e]
    rcases Nat.lt_or_ge t n with h1 | h1
    · have := sumBelow_ge f h1
      omega
    · have : t = n := by omega
      subst this
      omega

/-- Some thread can go on, unless all have finished. -/
theorem someone_goes {limit n : Nat} {g : LockState} {H : Nat → List Nat} (I : OrderInv limit g H)
    (hn : ∀ t, n ≤ t → g.prog t = []) {t0 : Nat} (h0 : g.prog t0 ≠ []) :
    ∃ t, t < n ∧ g.prog t ≠ [] ∧ ¬ ∃ k, WaitsFor g t k := by
  refine Classical.byContradiction fun hc => ?_
  have hw : ∀ t, g.prog t ≠ [] → ∃ k, WaitsFor g t k := fun t ht => Classical.byContradiction fun hk =>
    hc ⟨t, by
      rcases Nat.lt_or_ge t n with h | h
      · exact h
      · exact absurd (hn t h) ht, ht, hk⟩
  obtain ⟨t, k, ht, ⟨⟨s, p, hp⟩, _⟩, hN⟩ := waits_above I hn hw h0 (sumBelow (wanted g) n + 1)
  have h1 : wanted g t = k := by simp only [wanted, hp]
  have := sumBelow_ge (wanted g) ht
  omega

/-- All can finish. -/
theorem lock_finish {limit n : Nat} : ∀ (N : Nat) {g : LockState} {H : Nat → List Nat},
    OrderInv limit g H → (∀ t, n ≤ t → g.prog t = []) → sumBelow (fun t => (g.prog t).length) n ≤ N →
    ∃ more g' H', lockRun limit g more = .ret g' ∧ OrderInv limit g' H' ∧ (∀ t, g'.prog t = []) ∧ more.length ≤ N
  | N, g, H, I, hn, hN => by
    by_cases hd : ∀ t, g.prog t = []
    · exact ⟨[], g, H, rfl, I, hd, Nat.zero_le _⟩
    · obtain ⟨t0, h0⟩ := Classical.not_forall.1 hd
      obtain ⟨t, htn, hne, hnw⟩ := someone_goes I hn h0
      rcases lockStep_ok I t with ⟨_, h | h⟩ | ⟨g1, H1, i, p, e, I1, hp, hpr⟩
      · exact absurd h hne
      · exact absurd h hnw
      · have hs := sumBelow_less (f := fun u => (g.prog u).length) (f' := fun u => (g1.prog u).length) (t := t)
          (fun u hu => by
            show (g1.prog u).length = _
            rw [hpr u, if_neg hu])
          (by
            show (g1.prog t).length + 1 = _
            rw [hpr t, if_pos rfl, hp]
            rfl) n
        rw [if_pos htn] at hs
        match N, hN with
        | 0, hN => omega
        | N + 1, hN =>
          obtain ⟨more, g', H', h1, h2, h3, h4⟩ := lock_finish (n := n) N I1 (fun u hu => by
            rw [hpr u, if_neg (by omega)]
            exact hn u hu) (by omega)
          exact ⟨t :: more, g', H', by rw [lockRun, e]; exact h1, h2, h3, by simp only [List.length_cons]; omega⟩

/-- A step of a thread changes no program but its own, and no section that another thread is inside of. -/
theorem lockStep_others (limit : Nat) {g : LockState} (hk : ∀ k, (g.locks k).kind = .recursive) (x : Nat) :
    ∃ g', lockStep limit g x = .ret g' ∧ (∀ k, (g'.locks k).kind = .recursive) ∧ (∀ y, y ≠ x → g'.prog y = g.prog y) ∧
      ∀ k o, (g.locks k).owner = some o → o ≠ x → g'.locks k = g.locks k := by
  have hset : ∀ (k : Nat) (m : Mutex) (p : List LockItem), m.kind = .recursive →
      ((g.locks k).owner = none ∨ (g.locks k).owner = some x ∨ m = g.locks k) →
      (∀ j, (((g.lock k m).goOn x p).locks j).kind = .recursive) ∧
      (∀ y, y ≠ x → ((g.lock k m).goOn x p).prog y = g.prog y) ∧
      ∀ j o, (g.locks j).owner = some o → o ≠ x → ((g.lock k m).goOn x p).locks j = g.locks j := by
    intro k m p hm ho
    refine ⟨fun j => ?_, fun y hy => ?_, fun j o hj hne => ?_⟩
    · show (if j = k then m else g.locks j).kind = _
      split
      · exact hm
      · exact hk j
    · show (if y = x then p else g.prog y) = _
      rw [if_neg hy]
    · show (if j = k then m else g.locks j) = _
      split
      · rename_i e
        subst e
        rcases ho with h | h | h
        · rw [h] at hj; cases hj
        · rw [h] at hj
          cases hj
          exact absurd rfl hne
        · exact h
      · rfl
  have hsame : (∀ k, (g.locks k).kind = .recursive) ∧ (∀ y, y ≠ x → g.prog y = g.prog y) ∧
      ∀ k o, (g.locks k).owner = some o → o ≠ x → g.locks k = g.locks k := ⟨hk, fun _ _ => rfl, fun _ _ _ _ => rfl⟩
  cases hp : g.prog x with
  | nil => exact ⟨g, by simp only [lockStep, hp], hsame⟩
  | cons i p =>
    cases i with
    | work =>
      refine ⟨g.goOn x p, by simp only [lockStep, hp], hk, fun y hy => ?_, fun _ _ _ _ => rfl⟩
      show (if y = x then p else g.prog y) = _
      rw [if_neg hy]
    | enter k s =>
      cases ho : (g.locks k).owner with
      | none =>
        refine ⟨(g.lock k { g.locks k with owner := some x, count := 1 }).goOn x p, ?_, hset _ _ _ (hk k) (.inl ho)⟩
        cases s <;>
          simp [lockStep, hp, csStep, csEnter, csTryEnter, pthreadLock, pthreadTryLock, ho, Out.bind, enterStatus,
            failed_success]
      | some o =>
        by_cases hox : o = x
        · subst hox
          by_cases hc : (g.locks k).count < limit
          · refine ⟨(g.lock k { g.locks k with count := (g.locks k).count + 1 }).goOn o p, ?_,
              hset _ _ _ (hk k) (.inr (.inl ho))⟩
            cases s <;>
              simp [lockStep, hp, csStep, csEnter, csTryEnter, pthreadLock, pthreadTryLock, ho, hk k, hc, Out.bind,
                enterStatus, failed_success]
          · cases s with
            | false =>
              refine ⟨{ g with refused := true }, ?_, hsame⟩
              have hf : failed stInvalidOperation = true := by decide
              simp [lockStep, hp, csStep, csEnter, pthreadLock, ho, hk k, hc, Out.bind, enterStatus, hf]
            | true =>
              refine ⟨g.lock k (g.locks k), ?_, ?_⟩
              · simp [lockStep, hp, csStep, csTryEnter, pthreadTryLock, ho, hk k, hc, Out.bind]
              · rw [lock_same]; exact hsame
        · refine ⟨g.lock k (g.locks k), ?_, ?_⟩
          · cases s <;>
              simp [lockStep, hp, csStep, csEnter, csTryEnter, pthreadLock, pthreadTryLock, ho, hox, Out.bind]
          · rw [lock_same]; exact hsame
    | leave k =>
      by_cases ho : (g.locks k).owner = some x
      · by_cases hc : (g.locks k).count ≤ 1
        · refine ⟨(g.lock k { g.locks k with owner := none, count := 0 }).goOn x p, ?_,
            hset _ _ _ (hk k) (.inr (.inl ho))⟩
          simp [lockStep, hp, csStep, csLeave, pthreadUnlock, ho, hc, Out.bind, leaveStatus, failed_success]
        · refine ⟨(g.lock k { g.locks k with count := (g.locks k).count - 1 }).goOn x p, ?_,
            hset _ _ _ (hk k) (.inr (.inl ho))⟩
          simp [lockStep, hp, csStep, csLeave, pthreadUnlock, ho, hc, Out.bind, leaveStatus, failed_success]
      · refine ⟨{ g with refused := true }, ?_, hsame⟩
        have hf : failed stInvalidOperation = true := by decide
        simp [lockStep, hp, csStep, csLeave, pthreadUnlock, ho, hk k, Out.bind, leaveStatus, hf]

/-- All critical sections after a successful initialisation. -/
theorem OrderInv.start {limit : Nat} {locks : Nat → Mutex} (hm : ∀ k, ∃ a i st, csInitialize a i = (st, some (locks k)))
    {progs : Nat → List LockItem} (hp : ∀ t, InOrder limit [] (progs t)) :
    OrderInv limit (lockStart locks progs) fun _ => [] := by
  have h : ∀ k, locks k = ⟨.recursive, none, 0⟩ := fun k => by
    obtain ⟨a, i, st, h⟩ := hm k
    exact csInitialize_some h
  refine ⟨fun k => ?_, fun t k => ?_, fun k t ho => ?_, hp, rfl⟩
  · show (locks k).kind = _
    rw [h]
  · show _ = depthOf (locks k) t
    rw [h]
    rfl
  · have ho : (locks k).owner = some t := ho
    rw [h] at ho
    simp at ho

end Zy
