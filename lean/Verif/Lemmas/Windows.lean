import Verif.Spec.Windows
import Verif.Lemmas.Sync
import Verif.Lemmas.Api

/-!
# Lemmas about the Windows branches
-/

namespace Zy

open Zy.Spec

/-- The two critical sections are in the same state, and the recursion limit is `n` locks away. -/
structure SameCs (limit n : Nat) (m : Mutex) (w : WinCs) : Prop where
  kind : m.kind = .recursive
  owner : m.owner = w.owner
  count : m.count = w.count
  room : m.count + n ≤ limit

theorem SameCs.step {limit n : Nat} {m : Mutex} {w : WinCs} (S : SameCs limit (n + 1) m w) (t : Nat) (c : CsCall) :
    ∃ r m', csStep limit m t c = .ret (r, m') ∧
      ((∃ w', winCsStep w t c = .ret (r, w') ∧ SameCs limit n m' w' ∧
          ((r.toList.map fun x => (t, c, x)).any refusedLeave) = false) ∨
        (winCsStep w t c = .ub .other ∧ ((r.toList.map fun x => (t, c, x)).any refusedLeave) = true)) := by
  obtain ⟨k, o, q⟩ := m
  obtain ⟨o', q'⟩ := w
  obtain ⟨h1, h2, h3, h4⟩ := S
  simp only at h1 h2 h3 h4
  subst h1 h2 h3
  cases c with
  | enter =>
    cases o with
    | none =>
      refine ⟨_, _, rfl, .inl ⟨_, rfl, ⟨rfl, rfl, rfl, ?_⟩, rfl⟩⟩
      show 1 + n ≤ limit
      omega
    | some o =>
      by_cases ho : o = t
      · subst ho
        have hq : q < limit := by omega
        refine ⟨some (.status stSuccess), ⟨.recursive, some o, q + 1⟩, by
          simp [csStep, csEnter, pthreadLock, hq, enterStatus], .inl ⟨⟨some o, q + 1⟩, by
          simp [winCsStep, winCsEnter], ⟨rfl, rfl, rfl, ?_⟩, rfl⟩⟩
        show q + 1 + n ≤ limit
        omega
      · refine ⟨none, ⟨.recursive, some o, q⟩, by simp [csStep, csEnter, pthreadLock, ho],
          .inl ⟨⟨some o, q⟩, by simp [winCsStep, winCsEnter, ho], ⟨rfl, rfl, rfl, ?_⟩, rfl⟩⟩
        show q + n ≤ limit
        omega
  | tryEnter =>
    cases o with
    | none =>
      refine ⟨_, _, rfl, .inl ⟨_, rfl, ⟨rfl, rfl, rfl, ?_⟩, rfl⟩⟩
      show 1 + n ≤ limit
      omega
    | some o =>
      by_cases ho : o = t
      · subst ho
        have hq : q < limit := by omega
        refine ⟨some (.bool true), ⟨.recursive, some o, q + 1⟩, by
          simp [csStep, csTryEnter, pthreadTryLock, hq], .inl ⟨⟨some o, q + 1⟩, by
          simp [winCsStep, winCsTryEnter], ⟨rfl, rfl, rfl, ?_⟩, rfl⟩⟩
        show q + 1 + n ≤ limit
        omega
      · refine ⟨some (.bool false), ⟨.recursive, some o, q⟩, by simp [csStep, csTryEnter, pthreadTryLock, ho],
          .inl ⟨⟨some o, q⟩, by simp [winCsStep, winCsTryEnter, ho], ⟨rfl, rfl, rfl, ?_⟩, rfl⟩⟩
        show q + n ≤ limit
        omega
  | leave =>
    by_cases ho : o = some t
    · subst ho
      by_cases hq : q ≤ 1
      · refine ⟨some (.status stSuccess), ⟨.recursive, none, 0⟩, by
          simp [csStep, csLeave, pthreadUnlock, hq, leaveStatus], .inl ⟨⟨none, 0⟩, by
          simp [winCsStep, winCsLeave, hq], ⟨rfl, rfl, rfl, ?_⟩, by simp [refusedLeave]⟩⟩
        show 0 + n ≤ limit
        omega
      · refine ⟨some (.status stSuccess), ⟨.recursive, some t, q - 1⟩, by
          simp [csStep, csLeave, pthreadUnlock, hq, leaveStatus], .inl ⟨⟨some t, q - 1⟩, by
          simp [winCsStep, winCsLeave, hq], ⟨rfl, rfl, rfl, ?_⟩, ?_⟩⟩
        · show q - 1 + n ≤ limit
          omega
        · simp [refusedLeave]
    · refine ⟨some (.status stInvalidOperation), ⟨.recursive, o, q⟩, by
        simp [csStep, csLeave, pthreadUnlock, ho, leaveStatus], .inr ⟨by
        simp [winCsStep, winCsLeave, ho], ?_⟩⟩
      simp [refusedLeave]
      decide

theorem csStep_recursive (limit : Nat) {m : Mutex} (hm : m.kind = .recursive) (t : Nat) (c : CsCall) :
    ∃ r m1, csStep limit m t c = .ret (r, m1) ∧ m1.kind = .recursive := by
  obtain ⟨k, o, q⟩ := m
  simp only at hm
  subst hm
  cases c with
  | enter =>
    cases o with
    | none => exact ⟨_, _, rfl, rfl⟩
    | some o =>
      by_cases h1 : o = t
      · by_cases h2 : q < limit
        · exact ⟨_, _, by simp [csStep, csEnter, pthreadLock, h1, h2]; exact ⟨rfl, rfl⟩, rfl⟩
        · exact ⟨_, _, by simp [csStep, csEnter, pthreadLock, h1, h2]; exact ⟨rfl, rfl⟩, rfl⟩
      · exact ⟨_, _, by simp [csStep, csEnter, pthreadLock, h1]; exact ⟨rfl, rfl⟩, rfl⟩
  | tryEnter =>
    refine ⟨_, _, rfl, ?_⟩
    cases o with
    | none => rfl
    | some o =>
      simp only [csTryEnter, pthreadTryLock]
      split
      · split <;> rfl
      · rfl
  | leave =>
    by_cases h1 : o = some t
    · by_cases h2 : q ≤ 1
      · exact ⟨_, _, by simp [csStep, csLeave, pthreadUnlock, h1, h2]; exact ⟨rfl, rfl⟩, rfl⟩
      · exact ⟨_, _, by simp [csStep, csLeave, pthreadUnlock, h1, h2]; exact ⟨rfl, rfl⟩, rfl⟩
    · exact ⟨_, _, by simp [csStep, csLeave, pthreadUnlock, h1]; exact ⟨rfl, rfl⟩, rfl⟩

theorem csRun_recursive (limit : Nat) : ∀ (as : List (Nat × CsCall)) {m : Mutex}, m.kind = .recursive →
    ∃ h m', csRun limit m as = .ret (h, m')
  | [], m, _ => ⟨[], m, rfl⟩
  | (t, c) :: as, m, hm => by
    obtain ⟨r, m1, e1, h1⟩ := csStep_recursive limit hm t c
    obtain ⟨h, m2, e2⟩ := csRun_recursive limit as h1
    exact ⟨_, m2, by simp only [csRun, e1, e2, Out.ret_bind']; rfl⟩

theorem SameCs.run {limit : Nat} : ∀ (as : List (Nat × CsCall)) {m : Mutex} {w : WinCs},
    SameCs limit as.length m w →
    ∃ h m', csRun limit m as = .ret (h, m') ∧
      ((h.any refusedLeave = false ∧ ∃ w', winCsRun w as = .ret (h, w')) ∨
       (h.any refusedLeave = true ∧ winCsRun w as = .ub .other))
  | [], m, w, _ => ⟨[], m, rfl, .inl ⟨rfl, w, rfl⟩⟩
  | (t, c) :: as, m, w, S => by
    obtain ⟨r, m', e, hw⟩ := SameCs.step (n := as.length) S t c
    rcases hw with ⟨w', ew, S', hr⟩ | ⟨ew, hr⟩
    · obtain ⟨h, m'', e2, h2⟩ := SameCs.run as S'
      refine ⟨_, m'', by simp only [csRun, e, e2, Out.ret_bind']; rfl, ?_⟩
      rcases h2 with ⟨h3, w'', h4⟩ | ⟨h3, h4⟩
      · exact .inl ⟨by rw [List.any_append, hr, h3]; rfl, w'', by simp only [winCsRun, ew, h4, Out.ret_bind']⟩
      · exact .inr ⟨by rw [List.any_append, h3]; simp, by simp only [winCsRun, ew, h4, Out.ret_bind', Out.ub_bind']⟩
    · obtain ⟨r', m1, e1, hk⟩ := csStep_recursive limit S.kind t c
      rw [e1] at e
      simp only [Out.ret.injEq, Prod.mk.injEq] at e
      obtain ⟨h, m'', e2⟩ := csRun_recursive limit as (e.2 ▸ hk)
      obtain ⟨rfl, rfl⟩ := e
      refine ⟨_, m'', by simp only [csRun, e1, e2, Out.ret_bind']; rfl, .inr ⟨?_, ?_⟩⟩
      · rw [List.any_append, hr]; rfl
      · simp only [winCsRun, ew, Out.ub_bind']

/-- One call on thread-local storage gives the same on both systems. -/
theorem winTlsStep_same {s s' : TlsState} {t : Nat} {c : TlsCall} {r : TlsResult}
    (h : tlsStep s t c = .ret (r, s')) (hg : granted c = true) : winTlsStep s t c = (r, s') := by
  cases c with
  | alloc reply =>
    cases reply with
    | error e => simp [granted] at hg
    | ok k =>
      simp only [tlsStep, Out.ret.injEq] at h
      rw [← h]
      rfl
  | free k =>
    simp only [tlsStep, Out.ret.injEq] at h
    rw [← h]
    rfl
  | get k =>
    simp only [tlsStep, tlsGetValue, pthreadGetSpecific] at h
    split at h
    · rename_i hu
      simp only [Out.ret_bind', Out.ret.injEq] at h
      rw [← h]
      simp [winTlsStep, winTlsGetValue, hu]
    · simp at h
  | set k d fail =>
    cases fail with
    | some e => simp [granted] at hg
    | none =>
      simp only [tlsStep, tlsSetValue, pthreadSetSpecific] at h
      split at h
      · rename_i hu
        simp only [Out.ret_bind', Out.ret.injEq] at h
        rw [← h]
        simp [winTlsStep, winTlsSetValue, hu]
      · simp at h

theorem winTlsRun_same : ∀ (as : List (Nat × TlsCall)) {s s' : TlsState} {rs : List (Nat × TlsResult)},
    tlsRun s as = .ret (rs, s') → (∀ a ∈ as, granted a.2 = true) → winTlsRun s as = (rs, s')
  | [], s, s', rs, h, _ => by
    simp only [tlsRun, Out.ret.injEq] at h
    exact h
  | (t, c) :: as, s, s', rs, h, hg => by
    simp only [tlsRun] at h
    cases h1 : tlsStep s t c with
    | ub w => rw [h1] at h; simp at h
    | ret r =>
      rw [h1, Out.ret_bind'] at h
      cases h2 : tlsRun r.2 as with
      | ub w => rw [h2] at h; simp at h
      | ret q =>
        rw [h2, Out.ret_bind', Out.ret.injEq] at h
        have e1 := winTlsStep_same h1 (hg (t, c) (by simp))
        have e2 := winTlsRun_same as h2 fun a ha => hg a (List.mem_cons_of_mem _ ha)
        simp only [winTlsRun, e1, e2]
        exact h

end Zy
