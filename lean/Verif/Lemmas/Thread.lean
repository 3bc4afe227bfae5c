import Verif.Spec.Thread
import Verif.Lemmas.Sync

/-!
# Lemmas about destructors of thread-local values
-/

namespace Zy

open Zy.Spec

theorem exitCalls_mem (s : DtState) (t : Nat) (c : DtorCall) : ∀ order,
    c ∈ exitCalls s t order ↔
      c.key ∈ order ∧ s.tls.used c.key = true ∧ s.dtor c.key = some c.fn ∧ s.tls.val t c.key = c.val ∧ c.val ≠ 0
  | [] => by simp [exitCalls]
  | k :: ks => by
    have ih := exitCalls_mem s t c ks
    unfold exitCalls
    split
    · rename_i h
      cases hd : s.dtor k with
      | none =>
        simp only [ih, List.mem_cons]
        constructor
        · rintro ⟨h1, h2⟩; exact ⟨.inr h1, h2⟩
        · rintro ⟨h1 | h1, h2, h3, h4⟩
          · rw [h1, hd] at h3; cases h3
          · exact ⟨h1, h2, h3, h4⟩
      | some f =>
        simp only [List.mem_cons, ih]
        constructor
        · rintro (rfl | ⟨h1, h2⟩)
          · exact ⟨.inl rfl, h.1, hd, rfl, h.2⟩
          · exact ⟨.inr h1, h2⟩
        · rintro ⟨h1 | h1, h2, h3, h4, h5⟩
          · refine .inl ?_
            obtain ⟨k', f', v'⟩ := c
            simp only at h1 h2 h3 h4 h5
            subst h1
            rw [hd] at h3
            cases h3
            rw [h4]
          · exact .inr ⟨h1, h2, h3, h4, h5⟩
    · rename_i h
      rw [ih, List.mem_cons]
      constructor
      · rintro ⟨h1, h2⟩; exact ⟨.inr h1, h2⟩
      · rintro ⟨h1 | h1, h2, h3, h4, h5⟩
        · exact absurd ⟨h1 ▸ h2, by rw [← h1, h4]; exact h5⟩ h
        · exact ⟨h1, h2, h3, h4, h5⟩

theorem exitCalls_keys (s : DtState) (t : Nat) : ∀ order,
    ((exitCalls s t order).map (·.key)).Sublist order
  | [] => by simp [exitCalls]
  | k :: ks => by
    have ih := exitCalls_keys s t ks
    unfold exitCalls
    split
    · cases s.dtor k with
      | none => exact ih.cons _
      | some f => exact ih.cons_cons _
    · exact ih.cons _

/-- One step of the model agrees with one step of the functions on histories. -/
theorem dtStep_agrees {s s' : DtState} {t : Nat} {c : DtStep} {cs : List DtorCall}
    (h : dtStep s t c = .ret (cs, s')) (u k : Nat) :
    s'.tls.val u k = lastStored u k [(t, c)] (s.tls.val u k) ∧
    s'.tls.used k = keyInUse k [(t, c)] (s.tls.used k) ∧
    s'.dtor k = dtorOf k [(t, c)] (s.dtor k) := by
  have key : ∀ reply : Except Errno Nat, (tlsAlloc s.tls reply).2.2 = (pthreadKeyCreate s.tls reply).2 := by
    intro reply
    cases reply with
    | ok q => rfl
    | error e => cases e <;> rfl
  cases c with
  | exit order =>
    simp only [dtStep, Out.ret.injEq, Prod.mk.injEq] at h
    obtain ⟨_, rfl⟩ := h
    refine ⟨?_, rfl, rfl⟩
    simp only [lastStored, eq_comm]
  | allocWith reply d =>
    simp only [dtStep, tlsStep, Out.ret_bind', Out.ret.injEq, Prod.mk.injEq] at h
    obtain ⟨_, rfl⟩ := h
    simp only [key]
    cases reply with
    | error e => exact ⟨rfl, rfl, rfl⟩
    | ok q => simp only [pthreadKeyCreate, setDtor, lastStored, keyInUse, dtorOf, eq_comm, and_self]
  | call c =>
    cases c with
    | alloc reply =>
      simp only [dtStep, tlsStep, Out.ret_bind', Out.ret.injEq, Prod.mk.injEq] at h
      obtain ⟨_, rfl⟩ := h
      simp only [key]
      cases reply with
      | error e => exact ⟨rfl, rfl, rfl⟩
      | ok q => simp only [pthreadKeyCreate, setDtor, lastStored, keyInUse, dtorOf, eq_comm, and_self]
    | free q =>
      simp only [dtStep, tlsStep, Out.ret_bind', Out.ret.injEq, Prod.mk.injEq] at h
      obtain ⟨_, rfl⟩ := h
      unfold tlsFree
      by_cases hu : s.tls.used q = true
      · simp only [hu, if_true, lastStored, keyInUse, dtorOf, eq_comm, and_self]
      · simp only [hu, if_false, lastStored, keyInUse, dtorOf, true_and, and_true]
        by_cases hk : q = k
        · subst hk; simpa using hu
        · simp [hk]
    | get q =>
      simp only [dtStep, tlsStep, tlsGetValue, pthreadGetSpecific] at h
      split at h
      · simp only [Out.ret_bind', Out.ret.injEq, Prod.mk.injEq] at h
        obtain ⟨_, rfl⟩ := h
        exact ⟨rfl, rfl, rfl⟩
      · simp at h
    | set q x fail =>
      simp only [dtStep, tlsStep, tlsSetValue, pthreadSetSpecific] at h
      split at h
      · cases fail with
        | none =>
          simp only [Out.ret_bind', Out.ret.injEq, Prod.mk.injEq] at h
          obtain ⟨_, rfl⟩ := h
          refine ⟨?_, rfl, rfl⟩
          simp only [lastStored, @eq_comm _ u, @eq_comm _ k]
        | some e =>
          have : ∃ r, s'.tls = s.tls ∧ s'.dtor = s.dtor ∧ cs = r := by
            cases e <;> simp only [Out.ret_bind', Out.ret.injEq, Prod.mk.injEq] at h <;>
              (obtain ⟨h1, rfl⟩ := h; exact ⟨cs, rfl, rfl, rfl⟩)
          obtain ⟨_, h1, h2, _⟩ := this
          rw [h1, h2]
          exact ⟨rfl, rfl, rfl⟩
      · simp at h

theorem lastStored_cons (u k : Nat) (e : Nat × DtStep) (h : List (Nat × DtStep)) (d : Nat) :
    lastStored u k (e :: h) d = lastStored u k h (lastStored u k [e] d) := by
  obtain ⟨t, c⟩ := e
  cases c with
  | exit o => rfl
  | allocWith r f => cases r <;> rfl
  | call c =>
    cases c with
    | alloc r => cases r <;> rfl
    | free q => rfl
    | get q => rfl
    | set q x f => cases f <;> rfl

theorem keyInUse_cons (k : Nat) (e : Nat × DtStep) (h : List (Nat × DtStep)) (d : Bool) :
    keyInUse k (e :: h) d = keyInUse k h (keyInUse k [e] d) := by
  obtain ⟨t, c⟩ := e
  cases c with
  | exit o => rfl
  | allocWith r f => cases r <;> rfl
  | call c =>
    cases c with
    | alloc r => cases r <;> rfl
    | free q => rfl
    | get q => rfl
    | set q x f => cases f <;> rfl

theorem dtorOf_cons (k : Nat) (e : Nat × DtStep) (h : List (Nat × DtStep)) (d : Option Nat) :
    dtorOf k (e :: h) d = dtorOf k h (dtorOf k [e] d) := by
  obtain ⟨t, c⟩ := e
  cases c with
  | exit o => rfl
  | allocWith r f => cases r <;> rfl
  | call c =>
    cases c with
    | alloc r => cases r <;> rfl
    | free q => rfl
    | get q => rfl
    | set q x f => cases f <;> rfl

theorem dtRun_agrees : ∀ (p : List (Nat × DtStep)) {s s' : DtState} {cs : List (List DtorCall)},
    dtRun s p = .ret (cs, s') → cs.length = p.length ∧ ∀ u k,
      s'.tls.val u k = lastStored u k p (s.tls.val u k) ∧ s'.tls.used k = keyInUse k p (s.tls.used k) ∧
      s'.dtor k = dtorOf k p (s.dtor k)
  | [], s, s', cs, h => by
    simp only [dtRun, Out.ret.injEq, Prod.mk.injEq] at h
    obtain ⟨rfl, rfl⟩ := h
    exact ⟨rfl, fun u k => ⟨rfl, rfl, rfl⟩⟩
  | (t, c) :: p, s, s', cs, h => by
    simp only [dtRun] at h
    cases h1 : dtStep s t c with
    | ub w => rw [h1] at h; simp at h
    | ret r =>
      obtain ⟨c1, s1⟩ := r
      rw [h1, Out.ret_bind'] at h
      cases h2 : dtRun s1 p with
      | ub w => rw [h2] at h; simp at h
      | ret q =>
        obtain ⟨c2, s2⟩ := q
        rw [h2, Out.ret_bind'] at h
        simp only [Out.ret.injEq, Prod.mk.injEq] at h
        obtain ⟨rfl, rfl⟩ := h
        obtain ⟨hl, ih⟩ := dtRun_agrees p h2
        refine ⟨by simp [hl], fun u k => ?_⟩
        obtain ⟨a1, a2, a3⟩ := dtStep_agrees h1 u k
        obtain ⟨b1, b2, b3⟩ := ih u k
        rw [lastStored_cons, keyInUse_cons, dtorOf_cons, ← a1, ← a2, ← a3]
        exact ⟨b1, b2, b3⟩

theorem dtRun_append : ∀ (p q : List (Nat × DtStep)) (s : DtState),
    dtRun s (p ++ q) = (dtRun s p).bind fun r => (dtRun r.2 q).bind fun r' => .ret (r.1 ++ r'.1, r'.2)
  | [], q, s => by
    simp only [List.nil_append, dtRun, Out.ret_bind']
    cases dtRun s q <;> rfl
  | (t, c) :: p, q, s => by
    simp only [List.cons_append, dtRun]
    cases dtStep s t c with
    | ub w => rfl
    | ret r =>
      simp only [Out.ret_bind', dtRun_append p q r.2]
      cases dtRun r.2 p with
      | ub w => rfl
      | ret r1 =>
        simp only [Out.ret_bind']
        cases dtRun r1.2 q <;> rfl

end Zy
