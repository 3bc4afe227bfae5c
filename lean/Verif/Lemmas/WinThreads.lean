import Verif.Model.WinThreads
import Verif.Lemmas.LockOrder
import Verif.Lemmas.Guarded

/-!
# Lemmas about programs with critical sections on Windows
-/

namespace Zy

open Spec

variable {S L : Type}

/-- The same thread is inside of both sections, as often. -/
structure SameSec (m : Mutex) (w : WinCs) : Prop where
  kind : m.kind = .recursive
  owner : w.owner = m.owner
  count : w.count = m.count

/-- Calls that keep the rules have the same answer. -/
theorem SameSec.step {limit t : Nat} {m : Mutex} {w : WinCs} (h : SameSec m w) {c : CsCall}
    (hc : c ≠ .leave → m.owner = some t → m.count < limit) (hl : c = .leave → m.owner = some t) :
    ∃ r m' w', csStep limit m t c = .ret (r, m') ∧ winCsStep w t c = .ret (r, w') ∧ SameSec m' w' := by
  obtain ⟨mk, mo, mc⟩ := m
  obtain ⟨wo, wc⟩ := w
  obtain ⟨h1, h2, h3⟩ := h
  simp only at h1 h2 h3 hc hl
  subst h1 h2 h3
  cases c with
  | enter =>
    cases wo with
    | none => exact ⟨_, _, _, rfl, rfl, rfl, rfl, rfl⟩
    | some o =>
      by_cases e : o = t
      · have hlt := hc (by simp) (by rw [e])
        refine ⟨some (.status stSuccess), ⟨.recursive, some o, wc + 1⟩, ⟨some o, wc + 1⟩, ?_, ?_, rfl, rfl, rfl⟩
        · simp [csStep, csEnter, pthreadLock, hlt, e, enterStatus]
        · simp [winCsStep, winCsEnter, e]
      · refine ⟨none, ⟨.recursive, some o, wc⟩, ⟨some o, wc⟩, ?_, ?_, rfl, rfl, rfl⟩
        · simp [csStep, csEnter, pthreadLock, e]
        · simp [winCsStep, winCsEnter, e]
  | tryEnter =>
    cases wo with
    | none => exact ⟨_, _, _, rfl, rfl, rfl, rfl, rfl⟩
    | some o =>
      by_cases e : o = t
      · have hlt := hc (by simp) (by rw [e])
        refine ⟨some (.bool true), ⟨.recursive, some o, wc + 1⟩, ⟨some o, wc + 1⟩, ?_, ?_, rfl, rfl, rfl⟩
        · simp [csStep, csTryEnter, pthreadTryLock, hlt, e]
        · simp [winCsStep, winCsTryEnter, e]
      · refine ⟨some (.bool false), ⟨.recursive, some o, wc⟩, ⟨some o, wc⟩, ?_, ?_, rfl, rfl, rfl⟩
        · simp [csStep, csTryEnter, pthreadTryLock, e]
        · simp [winCsStep, winCsTryEnter, e]
  | leave =>
    have ho := hl rfl
    subst ho
    by_cases hd : wc ≤ 1
    · refine ⟨some (.status stSuccess), ⟨.recursive, none, 0⟩, ⟨none, 0⟩, ?_, ?_, rfl, rfl, rfl⟩
      · simp [csStep, csLeave, pthreadUnlock, leaveStatus, hd]
      · simp [winCsStep, winCsLeave, hd, Out.bind]
    · refine ⟨some (.status stSuccess), ⟨.recursive, some t, wc - 1⟩, ⟨some t, wc - 1⟩, ?_, ?_, rfl, rfl, rfl⟩
      · simp [csStep, csLeave, pthreadUnlock, leaveStatus, hd]
      · simp [winCsStep, winCsLeave, hd, Out.bind]

/-! ## Guarded data -/

/-- Both programs are in the same state. -/
structure SameG (g : GState S L) (v : WGState S L) : Prop where
  sec : SameSec g.mutex v.cs
  shared : v.shared = g.shared
  thr : v.thr = g.thr
  refused : v.refused = g.refused

theorem SameG.put {g : GState S L} {v : WGState S L} (h : SameG g v) (t : Nat) (th : GThread S L) :
    SameG (g.put t th) (v.put t th) :=
  ⟨h.sec, h.shared, by show (fun u => if u = t then th else v.thr u) = _; rw [h.thr]; rfl, h.refused⟩

theorem SameG.next {g : GState S L} {v : WGState S L} (h : SameG g v) (t : Nat) (n : List (GItem S L)) {m : Mutex}
    {w : WinCs} (hs : SameSec m w) : SameG (g.next t n m) (v.next t n w) := by
  have h1 := h.put t ⟨n, (g.thr t).rest, (g.thr t).loc⟩
  refine ⟨hs, h1.shared, ?_, h1.refused⟩
  have h2 := h1.thr
  show (v.put t ⟨n, (v.thr t).rest, (v.thr t).loc⟩).thr = _
  rw [h.thr]
  exact h2

/-- What the invariant tells about the calls to come. -/
theorem GInv.calls {limit : Nat} {p : Turns S L} {g : GState S L} (h : GInv limit p g) {t : Nat} {i : GItem S L}
    {n : List (GItem S L)} (hn : (g.thr t).now = i :: n) :
    ((∃ s, i = .enter s) → g.mutex.owner = some t → g.mutex.count < limit) ∧ (i = .leave → g.mutex.owner = some t) := by
  have outer : Outside p g t → i ≠ .leave := by
    rintro ⟨_, ⟨h1, _⟩ | ⟨b, h1, _⟩⟩ <;> rw [hn] at h1
    · cases h1
    · cases h1
      simp
  cases h with
  | nobody hm hs ho =>
    rw [hm]
    exact ⟨by simp, fun e => absurd e (outer (ho t))⟩
  | inside o d b done todo hd hm hN hb hr hn' hp ho =>
    rw [hm]
    by_cases e : t = o
    · subst e
      refine ⟨?_, fun _ => rfl⟩
      rintro ⟨s, rfl⟩ _
      rw [hn] at hn'
      cases todo with
      | nil => simp at hn'
      | cons x todo =>
        simp only [List.cons_append, List.cons.injEq] at hn'
        rw [← hn'.1] at hN
        exact hN.1
    · refine ⟨fun _ he => ?_, fun he => absurd he (outer (ho t e))⟩
      cases he
      exact absurd rfl e

theorem SameG.step {limit : Nat} {p : Turns S L} {g : GState S L} {v : WGState S L} (hI : GInv limit p g)
    (h : SameG g v) (t : Nat) {g' : GState S L} (hg : guardedStep limit g t = .ret g') :
    ∃ v', winGuardedStep v t = .ret v' ∧ SameG g' v' := by
  have ht : v.thr t = g.thr t := by rw [h.thr]
  unfold guardedStep at hg
  unfold winGuardedStep
  rw [ht]
  cases hn : (g.thr t).now with
  | nil =>
    rw [hn] at hg
    cases hr : (g.thr t).rest with
    | nil =>
      rw [hr] at hg
      cases hg
      exact ⟨v, rfl, h⟩
    | cons b r =>
      rw [hr] at hg
      cases hg
      exact ⟨_, rfl, h.put t _⟩
  | cons i n =>
    rw [hn] at hg
    obtain ⟨hc, hl⟩ := hI.calls hn
    cases i with
    | act f =>
      simp only at hg ⊢
      cases hg
      rw [h.shared]
      have h1 := h.put t ⟨n, (g.thr t).rest, (f g.shared (g.thr t).loc).2⟩
      exact ⟨_, rfl, h1.sec, rfl, h1.thr, h1.refused⟩
    | enter s =>
      obtain ⟨r, m', w', e1, e2, hs⟩ := h.sec.step (limit := limit) (t := t)
        (c := if s then .tryEnter else .enter) (fun _ => hc ⟨s, rfl⟩) (fun e => by cases s <;> cases e)
      simp only [e1, e2, Out.bind] at hg ⊢
      rcases r with _ | (st | b)
      · cases hg
        exact ⟨_, rfl, hs, h.shared, h.thr, h.refused⟩
      · simp only at hg ⊢
        by_cases hf : failed st = true
        · rw [if_pos hf] at hg ⊢
          cases hg
          exact ⟨_, rfl, h.sec, h.shared, h.thr, rfl⟩
        · rw [if_neg hf] at hg ⊢
          cases hg
          exact ⟨_, rfl, h.next t n hs⟩
      · cases b
        · cases hg
          exact ⟨_, rfl, hs, h.shared, h.thr, h.refused⟩
        · cases hg
          exact ⟨_, rfl, h.next t n hs⟩
    | leave =>
      obtain ⟨r, m', w', e1, e2, hs⟩ := h.sec.step (limit := limit) (t := t) (c := .leave)
        (fun e => absurd rfl e) (fun _ => hl rfl)
      simp only [e1, e2, Out.bind] at hg ⊢
      rcases r with _ | (st | b)
      · cases hg
        exact ⟨_, rfl, h⟩
      · simp only at hg ⊢
        by_cases hf : failed st = true
        · rw [if_pos hf] at hg ⊢
          cases hg
          exact ⟨_, rfl, h.sec, h.shared, h.thr, rfl⟩
        · rw [if_neg hf] at hg ⊢
          cases hg
          exact ⟨_, rfl, h.next t n hs⟩
      · cases hg
        exact ⟨_, rfl, h⟩

theorem SameG.run {limit : Nat} : ∀ (sched : List Nat) {p : Turns S L} {g : GState S L} {v : WGState S L},
    AllNest limit p → GInv limit p g → SameG g v →
    ∃ g' v', guardedRun limit g sched = .ret g' ∧ winGuardedRun v sched = .ret v' ∧ SameG g' v'
  | [], _, g, v, _, _, h => ⟨g, v, rfl, rfl, h⟩
  | t :: ts, p, g, v, hN, hI, h => by
    obtain ⟨g1, H⟩ := gstep_ok hN hI t
    obtain ⟨v1, e1, h1⟩ := h.step hI t H.eq
    obtain ⟨g2, v2, e2, e3, h2⟩ := SameG.run ts (hN.turns (completes g t)) H.inv h1
    exact ⟨g2, v2, by rw [guardedRun, H.eq, Out.ret_bind', e2], by rw [winGuardedRun, e1, Out.ret_bind', e3], h2⟩

/-! ## Several sections -/

/-- Both programs are in the same state. -/
structure SameLocks (g : LockState) (v : WinLockState) : Prop where
  sec : ∀ k, SameSec (g.locks k) (v.locks k)
  prog : v.prog = g.prog
  refused : v.refused = g.refused

theorem SameLocks.lock {g : LockState} {v : WinLockState} (h : SameLocks g v) (k : Nat) {m : Mutex} {w : WinCs}
    (hs : SameSec m w) : SameLocks (g.lock k m) (v.lock k w) := by
  refine ⟨fun j => ?_, h.prog, h.refused⟩
  show SameSec (if j = k then m else g.locks j) (if j = k then w else v.locks j)
  split
  · exact hs
  · exact h.sec j

theorem SameLocks.goOn {g : LockState} {v : WinLockState} (h : SameLocks g v) (t : Nat) (p : List LockItem) :
    SameLocks (g.goOn t p) (v.goOn t p) :=
  ⟨h.sec, by show (fun u => if u = t then p else v.prog u) = _; rw [h.prog]; rfl, h.refused⟩

theorem OrderInv.calls {limit : Nat} {g : LockState} {H : Nat → List Nat} (I : OrderInv limit g H) {t : Nat}
    {i : LockItem} {p : List LockItem} (hp : g.prog t = i :: p) :
    (∀ k s, i = .enter k s → (g.locks k).owner = some t → (g.locks k).count < limit) ∧
    (∀ k, i = .leave k → (g.locks k).owner = some t) := by
  have hR := I.rule t
  rw [hp] at hR
  refine ⟨fun k s e ho => ?_, fun k e => ?_⟩
  · subst e
    have hD := I.depth t k
    rw [depthOf, if_pos ho] at hD
    rcases hR.1 with ⟨_, h⟩ | h
    · omega
    · have h0 : 0 < (H t).count k := by have := I.held k t ho; omega
      exact absurd (h k (List.count_pos_iff.1 h0)) (by omega)
  · subst e
    have hD := I.depth t k
    have hpos := List.count_pos_iff.2 hR.1
    unfold depthOf at hD
    by_cases h : (g.locks k).owner = some t
    · exact h
    · rw [if_neg h] at hD
      omega

theorem SameLocks.step {limit : Nat} {H : Nat → List Nat} {g : LockState} {v : WinLockState} (I : OrderInv limit g H)
    (h : SameLocks g v) (t : Nat) {g' : LockState} (hg : lockStep limit g t = .ret g') :
    ∃ v', winLockStep v t = .ret v' ∧ SameLocks g' v' := by
  have ht : v.prog t = g.prog t := by rw [h.prog]
  unfold lockStep at hg
  unfold winLockStep
  rw [ht]
  cases hn : g.prog t with
  | nil =>
    rw [hn] at hg
    cases hg
    exact ⟨v, rfl, h⟩
  | cons i n =>
    rw [hn] at hg
    obtain ⟨hc, hl⟩ := I.calls hn
    cases i with
    | work =>
      cases hg
      exact ⟨_, rfl, h.goOn t n⟩
    | enter k s =>
      obtain ⟨r, m', w', e1, e2, hs⟩ := (h.sec k).step (limit := limit) (t := t)
        (c := if s then .tryEnter else .enter) (fun _ => hc k s rfl) (fun e => by cases s <;> cases e)
      simp only [e1, e2, Out.bind] at hg ⊢
      rcases r with _ | (st | b)
      · cases hg
        exact ⟨_, rfl, h.lock k hs⟩
      · simp only at hg ⊢
        by_cases hf : failed st = true
        · rw [if_pos hf] at hg ⊢
          cases hg
          exact ⟨_, rfl, h.sec, h.prog, rfl⟩
        · rw [if_neg hf] at hg ⊢
          cases hg
          exact ⟨_, rfl, (h.lock k hs).goOn t n⟩
      · cases b
        · cases hg
          exact ⟨_, rfl, h.lock k hs⟩
        · cases hg
          exact ⟨_, rfl, (h.lock k hs).goOn t n⟩
    | leave k =>
      obtain ⟨r, m', w', e1, e2, hs⟩ := (h.sec k).step (limit := limit) (t := t) (c := .leave)
        (fun e => absurd rfl e) (fun _ => hl k rfl)
      simp only [e1, e2, Out.bind] at hg ⊢
      rcases r with _ | (st | b)
      · cases hg
        exact ⟨_, rfl, h⟩
      · simp only at hg ⊢
        by_cases hf : failed st = true
        · rw [if_pos hf] at hg ⊢
          cases hg
          exact ⟨_, rfl, h.sec, h.prog, rfl⟩
        · rw [if_neg hf] at hg ⊢
          cases hg
          exact ⟨_, rfl, (h.lock k hs).goOn t n⟩
      · cases hg
        exact ⟨_, rfl, h⟩

/-- A step keeps the invariant. -/
theorem lockStep_inv {limit : Nat} {g : LockState} {H : Nat → List Nat} (I : OrderInv limit g H) (t : Nat) :
    ∃ g' H', lockStep limit g t = .ret g' ∧ OrderInv limit g' H' := by
  rcases lockStep_ok I t with ⟨e, _⟩ | ⟨g', H', _, _, e, I', _⟩
  · exact ⟨g, H, e, I⟩
  · exact ⟨g', H', e, I'⟩

theorem SameLocks.run {limit : Nat} : ∀ (sched : List Nat) {H : Nat → List Nat} {g : LockState} {v : WinLockState},
    OrderInv limit g H → SameLocks g v →
    ∃ g' v', lockRun limit g sched = .ret g' ∧ winLockRun v sched = .ret v' ∧ SameLocks g' v'
  | [], _, g, v, _, h => ⟨g, v, rfl, rfl, h⟩
  | t :: ts, H, g, v, I, h => by
    obtain ⟨g1, H1, e, I1⟩ := lockStep_inv I t
    obtain ⟨v1, e1, h1⟩ := h.step I t e
    obtain ⟨g2, v2, e2, e3, h2⟩ := SameLocks.run ts I1 h1
    exact ⟨g2, v2, by rw [lockRun, e, Out.ret_bind', e2], by rw [winLockRun, e1, Out.ret_bind', e3], h2⟩

end Zy
