import Verif.Lemmas.Sync

/-!
# Property theorems: critical sections and thread-local storage

The vocabulary (`Inside`, `enters`, `leaves`, `stored`, `KeysInUse`, `concerns`) is in `Verif.Spec.Sync`.
-/

namespace Zy

open Zy.Spec

/-! ## C74 -/

/-- C74: no attempts by any threads on an initialised section are undefined, and at any time at most one
thread is inside. -/
theorem C74_exclusion {limit : Nat} (hl : 0 < limit) {a i : Option Errno} {st : Status} {m : Mutex}
    (hm : csInitialize a i = (st, some m)) (as : List (Nat × CsCall)) :
    ∃ h m', csRun limit m as = .ret (h, m') ∧ ∀ t u, Inside t h → Inside u h → t = u := by
  rw [csInitialize_some hm]
  obtain ⟨h, m', e, I⟩ := (CsInv.start limit).run hl as
  rw [List.nil_append] at I
  refine ⟨h, m', e, fun t u ht hu => ?_⟩
  rcases Decidable.em (u = t) with e | e
  · exact e.symm
  · exfalso
    cases ho : m'.owner with
    | none => have := I.free ho t; unfold Inside at ht; omega
    | some o =>
      have h4 := (I.held o ho).2.2.2
      have h5 : o = t := Decidable.byContradiction fun h => by
        have := h4 t (Ne.symm h); unfold Inside at ht; omega
      have h6 : o = u := Decidable.byContradiction fun h => by
        have := h4 u (Ne.symm h); unfold Inside at hu; omega
      exact e (h6.symm.trans h5)

/-- C74: an enter waits exactly if another thread is inside. Otherwise it succeeds, also if the thread is
already inside, until the limit of recursive locks is reached; then it is refused. -/
theorem C74_enter {limit : Nat} (hl : 0 < limit) {a i : Option Errno} {st : Status} {m m' : Mutex}
    (hm : csInitialize a i = (st, some m)) {as : List (Nat × CsCall)} {h : List CsEvent}
    (hr : csRun limit m as = .ret (h, m')) (t : Nat) :
    ∃ r m'', csStep limit m' t .enter = .ret (r, m'') ∧
      (r = none ↔ ∃ u, u ≠ t ∧ Inside u h) ∧
      (r = some (.status stSuccess) ↔ (∀ u, u ≠ t → ¬ Inside u h) ∧ enters t h < leaves t h + limit) ∧
      (r = some (.status stInvalidOperation) ↔
        (∀ u, u ≠ t → ¬ Inside u h) ∧ leaves t h + limit ≤ enters t h) := by
  have I := CsInv.of_run hl hm hr
  have hn : (∃ u, u ≠ t ∧ Inside u h) ↔ ¬ ∀ u, u ≠ t → ¬ Inside u h := by
    constructor
    · rintro ⟨u, h1, h2⟩ h3; exact h3 u h1 h2
    · intro h1
      exact Classical.byContradiction fun h2 => h1 fun u h3 h4 => h2 ⟨u, h3, h4⟩
  rw [hn, I.others t]
  have hne : stSuccess ≠ stInvalidOperation := by decide
  obtain ⟨k, o, n⟩ := m'
  have hk : k = .recursive := I.kind
  subst hk
  cases o with
  | none =>
    have := I.free rfl t
    refine ⟨_, _, rfl, by simp, ?_, ?_⟩
    · simp [enterStatus]; omega
    · simp [enterStatus, hne]; omega
  | some o =>
    obtain ⟨h1, h2, h3, h4⟩ := I.held o rfl
    simp only at h1 h2 h3
    by_cases ho : o = t
    · subst ho
      by_cases hlt : n < limit
      · refine ⟨some (.status stSuccess), _, by simp [csStep, csEnter, pthreadLock, hlt, enterStatus]; rfl,
          by simp, ?_, ?_⟩
        · simp; omega
        · simp [hne]; omega
      · refine ⟨some (.status stInvalidOperation), _, by
          simp [csStep, csEnter, pthreadLock, hlt, enterStatus]; rfl, by simp, ?_, ?_⟩
        · simp [hne.symm]; omega
        · simp; omega
    · exact ⟨none, _, by simp [csStep, csEnter, pthreadLock, ho]; rfl, by simp [ho], by simp [ho], by simp [ho]⟩

/-- C74: a try-enter never waits; it succeeds exactly if no other thread is inside and the limit is not
reached. -/
theorem C74_tryEnter {limit : Nat} (hl : 0 < limit) {a i : Option Errno} {st : Status} {m m' : Mutex}
    (hm : csInitialize a i = (st, some m)) {as : List (Nat × CsCall)} {h : List CsEvent}
    (hr : csRun limit m as = .ret (h, m')) (t : Nat) :
    ∃ b m'', csStep limit m' t .tryEnter = .ret (some (.bool b), m'') ∧
      (b = true ↔ (∀ u, u ≠ t → ¬ Inside u h) ∧ enters t h < leaves t h + limit) := by
  have I := CsInv.of_run hl hm hr
  rw [I.others t]
  obtain ⟨k, o, n⟩ := m'
  have hk : k = .recursive := I.kind
  subst hk
  cases o with
  | none =>
    have := I.free rfl t
    refine ⟨_, _, rfl, ?_⟩
    simp [csTryEnter, pthreadTryLock]; omega
  | some o =>
    obtain ⟨h1, h2, h3, h4⟩ := I.held o rfl
    simp only at h1 h2 h3
    refine ⟨_, _, rfl, ?_⟩
    by_cases ho : o = t
    · subst ho
      by_cases hlt : n < limit
      · simp [csTryEnter, pthreadTryLock, hlt]; omega
      · simp [csTryEnter, pthreadTryLock, hlt]; omega
    · simp [csTryEnter, pthreadTryLock, ho]

/-- C74: a leave never waits; it succeeds exactly if the thread is inside, else it is refused. -/
theorem C74_leave {limit : Nat} (hl : 0 < limit) {a i : Option Errno} {st : Status} {m m' : Mutex}
    (hm : csInitialize a i = (st, some m)) {as : List (Nat × CsCall)} {h : List CsEvent}
    (hr : csRun limit m as = .ret (h, m')) (t : Nat) :
    ∃ s m'', csStep limit m' t .leave = .ret (some (.status s), m'') ∧
      (Inside t h → s = stSuccess) ∧ (¬ Inside t h → s = stInvalidOperation) := by
  have I := CsInv.of_run hl hm hr
  obtain ⟨k, o, n⟩ := m'
  have hk : k = .recursive := I.kind
  subst hk
  have key : Inside t h ↔ o = some t := by
    unfold Inside
    cases o with
    | none => have := I.free rfl t; simp; omega
    | some o =>
      obtain ⟨h1, h2, h3, h4⟩ := I.held o rfl
      simp only at h1 h3
      by_cases ho : o = t
      · subst ho; simp; omega
      · have := h4 t (Ne.symm ho); simp [ho]; omega
  rw [key]
  by_cases ho : o = some t
  · subst ho
    by_cases hn : n ≤ 1
    · exact ⟨stSuccess, _, by simp [csStep, csLeave, pthreadUnlock, hn, leaveStatus]; rfl, by simp, by simp⟩
    · exact ⟨stSuccess, _, by simp [csStep, csLeave, pthreadUnlock, hn, leaveStatus]; rfl, by simp, by simp⟩
  · exact ⟨stInvalidOperation, _, by simp [csStep, csLeave, pthreadUnlock, ho, leaveStatus]; rfl, by simp [ho],
      by simp⟩

/-- C74: the section can be initialised, and a failure of the system leaves no section. -/
theorem C74_initialize (a i : Option Errno) :
    ((csInitialize a i).1 = stSuccess ↔ a = none ∧ i = none) ∧
      ((csInitialize a i).2.isSome ↔ a = none ∧ i = none) := by
  cases a with
  | none =>
    cases i with
    | none => simp [csInitialize]
    | some e => cases e <;> simp [csInitialize] <;> decide
  | some e => cases e <;> simp [csInitialize] <;> decide

/-- Thread 1 enters twice, thread 2 waits, fails to try, is refused to leave and gets in after two
leaves. -/
example : csRun 8 ⟨.recursive, none, 0⟩
    [(1, .enter), (1, .enter), (2, .enter), (2, .tryEnter), (2, .leave), (1, .leave), (2, .tryEnter), (1, .leave),
     (2, .enter)] =
    .ret ([(1, .enter, .status stSuccess), (1, .enter, .status stSuccess), (2, .tryEnter, .bool false),
      (2, .leave, .status stInvalidOperation), (1, .leave, .status stSuccess), (2, .tryEnter, .bool false),
      (1, .leave, .status stSuccess), (2, .enter, .status stSuccess)], ⟨.recursive, some 2, 1⟩) := by decide
example : csInitialize none none = (stSuccess, some ⟨.recursive, none, 0⟩) := rfl
example : Inside 1 [(1, .enter, .status stSuccess), (2, .tryEnter, .bool false)] := by unfold Inside; decide

/-! ## C75 -/

/-- C75: whatever the threads do with indices in use, no call is undefined, and each get returns what its
own thread has stored last. -/
theorem C75_get (h : List (Nat × TlsCall)) (hk : KeysInUse h) :
    ∃ rs s, tlsRun .start h = .ret (rs, s) ∧
      ∀ p t k r, h = p ++ (t, .get k) :: r → rs[p.length]? = some (t, .value stSuccess (stored t k p 0)) := by
  obtain ⟨rs, s, e, I, _⟩ := TlsInv.start.run h hk
  refine ⟨rs, s, e, fun p t k r hp => ?_⟩
  subst hp
  obtain ⟨rs1, s1, e1, I1, l1⟩ := TlsInv.start.run p (fun p' u c r' h' => hk p' u c (r' ++ (t, .get k) :: r) (by
    rw [List.nil_append] at h'; rw [h']; simp))
  rw [List.nil_append] at I1
  have hu : s1.used k = true := Spec.KeysInUse.needs hk I1
  rw [tlsRun_append, e1, Out.ret_bind'] at e
  simp only [tlsRun, tlsStep, tlsGetValue, pthreadGetSpecific, hu, if_true, Out.ret_bind'] at e
  cases e2 : tlsRun s1 r with
  | ub w => rw [e2] at e; simp at e
  | ret q =>
    rw [e2] at e
    simp only [Out.ret_bind', Out.ret.injEq, Prod.mk.injEq] at e
    rw [← e.1]
    have hlen : rs1.length = p.length := by simpa using congrArg List.length l1
    rw [List.getElem?_append_right (by omega), hlen, I1.val]
    simp

/-- C75: what a thread observes does not depend on what other threads store and read. -/
theorem C75_private (h : List (Nat × TlsCall)) (t : Nat) {rs : List (Nat × TlsResult)} {s : TlsState}
    (hr : tlsRun .start h = .ret (rs, s)) :
    ∃ rs' s', tlsRun .start (h.filter (concerns t)) = .ret (rs', s') ∧
      rs'.filter (·.1 == t) = rs.filter (·.1 == t) :=
  SameFor.run h ⟨rfl, rfl⟩ hr

/-- Two threads with one index. -/
example : (match tlsRun .start [(1, .alloc (.ok 3)), (1, .set 3 10 none), (2, .set 3 20 none), (1, .get 3),
    (2, .get 3), (9, .get 3)] with | .ret r => r.1 | .ub _ => []) =
    [(1, .index stSuccess (some 3)), (1, .status stSuccess), (2, .status stSuccess), (1, .value stSuccess 10),
     (2, .value stSuccess 20), (9, .value stSuccess 0)] := by decide
example : stored 1 3 [(1, .alloc (.ok 3)), (1, .set 3 10 none), (2, .set 3 20 none)] 0 = 10 := by decide

/-- A history that meets the hypothesis of `C75_get`. -/
example : KeysInUse [(1, .alloc (.ok 3)), (1, .set 3 10 none), (2, .get 3)] := by
  intro p u c r h
  match p, h with
  | [], h => cases h; exact ⟨by simp, by simp⟩
  | [_], h => cases h; exact ⟨by simp, fun k d f e => by cases e; rfl⟩
  | [_, _], h => cases h; exact ⟨fun k e => by cases e; rfl, by simp⟩
  | _ :: _ :: _ :: p, h => simp at h

end Zy
