import Verif.Spec.Sync

/-!
# Lemmas about critical sections and thread-local storage
-/

namespace Zy

open Zy.Spec

/-! ## Critical sections -/

/-- The mutex agrees with the history. -/
structure CsInv (limit : Nat) (h : List CsEvent) (m : Mutex) : Prop where
  kind : m.kind = .recursive
  free : m.owner = none → ∀ t, enters t h = leaves t h
  held : ∀ o, m.owner = some o →
    0 < m.count ∧ m.count ≤ limit ∧ enters o h = leaves o h + m.count ∧ ∀ t, t ≠ o → enters t h = leaves t h

theorem enters_snoc (t u : Nat) (h : List CsEvent) (c : CsCall) (r : CsResult) :
    enters t (h ++ [(u, c, r)]) = enters t h + if u = t ∧ entered (c, r) = true then 1 else 0 := by
  unfold enters
  rw [List.countP_append, List.countP_singleton]
  by_cases h1 : u = t <;> simp [h1]

theorem leaves_snoc (t u : Nat) (h : List CsEvent) (c : CsCall) (r : CsResult) :
    leaves t (h ++ [(u, c, r)]) = leaves t h + if u = t ∧ left (c, r) = true then 1 else 0 := by
  unfold leaves
  rw [List.countP_append, List.countP_singleton]
  by_cases h1 : u = t <;> simp [h1]

theorem st_inv_ne : (stInvalidOperation == stSuccess) = false := by decide

theorem CsInv.step {limit : Nat} (hl : 0 < limit) {h : List CsEvent} {m : Mutex} (I : CsInv limit h m)
    (t : Nat) (c : CsCall) :
    ∃ r m', csStep limit m t c = .ret (r, m') ∧ CsInv limit (h ++ r.toList.map fun x => (t, c, x)) m' := by
  obtain ⟨k, o, n⟩ := m
  obtain ⟨hk, hf, hh⟩ := I
  simp only at hk hf hh
  subst hk
  cases o with
  | none =>
    have hf := hf rfl
    cases c with
    | enter =>
      refine ⟨_, _, rfl, rfl, by simp, ?_⟩
      intro o ho
      simp only [Option.some.injEq] at ho
      subst ho
      simp only [enterStatus, Option.toList_some, List.map_cons, List.map_nil, enters_snoc, leaves_snoc]
      refine ⟨by simp, hl, by simp [entered, left, hf], ?_⟩
      intro u hu
      simp [Ne.symm hu, hf]
    | tryEnter =>
      refine ⟨_, _, rfl, rfl, by simp [csTryEnter, pthreadTryLock], ?_⟩
      intro o ho
      simp only [csTryEnter, pthreadTryLock, Option.some.injEq] at ho
      subst ho
      simp only [csTryEnter, pthreadTryLock, Option.toList_some, List.map_cons, List.map_nil, enters_snoc,
        leaves_snoc]
      refine ⟨by simp, hl, by simp [entered, left, hf], ?_⟩
      intro u hu
      simp [Ne.symm hu, hf]
    | leave =>
      refine ⟨some (.status stInvalidOperation), ⟨.recursive, none, n⟩, by
        simp [csStep, csLeave, pthreadUnlock, leaveStatus], rfl, ?_, by simp⟩
      intro _ u
      simp [enters_snoc, leaves_snoc, entered, left, st_inv_ne, hf]
  | some o =>
    obtain ⟨h1, h2, h3, h4⟩ := hh o rfl
    by_cases ho : o = t
    · subst ho
      cases c with
      | enter =>
        by_cases hn : n < limit
        · refine ⟨some (.status stSuccess), ⟨.recursive, some o, n + 1⟩, by
            simp [csStep, csEnter, pthreadLock, hn, enterStatus], rfl, by simp, ?_⟩
          intro u hu
          simp only [Option.some.injEq] at hu
          subst hu
          simp only [Option.toList_some, List.map_cons, List.map_nil, enters_snoc, leaves_snoc]
          refine ⟨by simp, hn, by simp [entered, left, h3]; omega, ?_⟩
          intro v hv
          simp [Ne.symm hv, h4 v hv]
        · refine ⟨some (.status stInvalidOperation), ⟨.recursive, some o, n⟩, by
            simp [csStep, csEnter, pthreadLock, hn, enterStatus], rfl, by simp, ?_⟩
          intro u hu
          simp only [Option.some.injEq] at hu
          subst hu
          simp only [Option.toList_some, List.map_cons, List.map_nil, enters_snoc, leaves_snoc]
          refine ⟨h1, h2, by simp [entered, left, st_inv_ne, h3], ?_⟩
          intro v hv
          simp [Ne.symm hv, h4 v hv]
      | tryEnter =>
        by_cases hn : n < limit
        · refine ⟨some (.bool true), ⟨.recursive, some o, n + 1⟩, by
            simp [csStep, csTryEnter, pthreadTryLock, hn], rfl, by simp, ?_⟩
          intro u hu
          simp only [Option.some.injEq] at hu
          subst hu
          simp only [Option.toList_some, List.map_cons, List.map_nil, enters_snoc, leaves_snoc]
          refine ⟨by simp, hn, by simp [entered, left, h3]; omega, ?_⟩
          intro v hv
          simp [Ne.symm hv, h4 v hv]
        · refine ⟨some (.bool false), ⟨.recursive, some o, n⟩, by
            simp [csStep, csTryEnter, pthreadTryLock, hn], rfl, by simp, ?_⟩
          intro u hu
          simp only [Option.some.injEq] at hu
          subst hu
          simp only [Option.toList_some, List.map_cons, List.map_nil, enters_snoc, leaves_snoc]
          refine ⟨h1, h2, by simp [entered, left, h3], ?_⟩
          intro v hv
          simp [Ne.symm hv, h4 v hv]
      | leave =>
        by_cases hn : n ≤ 1
        · refine ⟨some (.status stSuccess), ⟨.recursive, none, 0⟩, by
            simp [csStep, csLeave, pthreadUnlock, hn, leaveStatus], rfl, ?_, by simp⟩
          intro _ u
          simp only [Option.toList_some, List.map_cons, List.map_nil, enters_snoc, leaves_snoc]
          by_cases hu : u = o
          · subst hu
            simp [entered, left, h3]
            omega
          · simp [Ne.symm hu, h4 u hu]
        · refine ⟨some (.status stSuccess), ⟨.recursive, some o, n - 1⟩, by
            simp [csStep, csLeave, pthreadUnlock, hn, leaveStatus], rfl, by simp, ?_⟩
          intro u hu
          simp only [Option.some.injEq] at hu
          subst hu
          simp only [Option.toList_some, List.map_cons, List.map_nil, enters_snoc, leaves_snoc]
          refine ⟨by show 0 < n - 1; omega, by show n - 1 ≤ limit; omega, by simp [entered, left, h3]; omega, ?_⟩
          intro v hv
          simp [Ne.symm hv, h4 v hv]
    · have same : ∀ (c : CsCall) (x : CsResult), entered (c, x) = false → left (c, x) = false →
          CsInv limit (h ++ [(t, c, x)]) ⟨.recursive, some o, n⟩ := by
        intro c x he hle
        refine ⟨rfl, by simp, ?_⟩
        intro u hu
        simp only [Option.some.injEq] at hu
        subst hu
        simp only [enters_snoc, leaves_snoc, he, hle]
        refine ⟨h1, h2, by simp [h3], ?_⟩
        intro v hv
        simp [h4 v hv]
      cases c with
      | enter =>
        refine ⟨none, ⟨.recursive, some o, n⟩, by simp [csStep, csEnter, pthreadLock, ho], ?_⟩
        simp only [Option.toList_none, List.map_nil, List.append_nil]
        exact ⟨rfl, by simp, fun u hu => by
          simp only [Option.some.injEq] at hu; subst hu; exact ⟨h1, h2, h3, h4⟩⟩
      | tryEnter =>
        exact ⟨some (.bool false), _, by simp [csStep, csTryEnter, pthreadTryLock, ho], same _ _ rfl rfl⟩
      | leave =>
        exact ⟨some (.status stInvalidOperation), _, by simp [csStep, csLeave, pthreadUnlock, ho, leaveStatus],
          same _ _ rfl (by simp [left, st_inv_ne])⟩

theorem CsInv.run {limit : Nat} (hl : 0 < limit) :
    ∀ (as : List (Nat × CsCall)) {p : List CsEvent} {m : Mutex}, CsInv limit p m →
      ∃ h m', csRun limit m as = .ret (h, m') ∧ CsInv limit (p ++ h) m'
  | [], p, m, I => ⟨[], m, rfl, by simpa using I⟩
  | (t, c) :: as, p, m, I => by
    obtain ⟨r, m1, e1, I1⟩ := I.step hl t c
    obtain ⟨h, m2, e2, I2⟩ := CsInv.run hl as I1
    refine ⟨_, m2, by rw [csRun, e1, Out.ret_bind', e2, Out.ret_bind'], ?_⟩
    rw [List.append_assoc] at I2
    exact I2

/-- Only a successful initialisation gives a mutex, a free recursive one. -/
theorem csInitialize_some {a i : Option Errno} {st : Status} {m : Mutex}
    (h : csInitialize a i = (st, some m)) : m = ⟨.recursive, none, 0⟩ := by
  unfold csInitialize at h
  split at h
  · simp at h
  · simp at h
  · split at h <;> simp at h
    exact h.2.symm

theorem CsInv.start (limit : Nat) : CsInv limit [] ⟨.recursive, none, 0⟩ :=
  ⟨rfl, fun _ _ => rfl, by simp⟩

/-- The history and the mutex after any attempts on a fresh section. -/
theorem CsInv.of_run {limit : Nat} (hl : 0 < limit) {a i : Option Errno} {st : Status} {m m' : Mutex}
    (hm : csInitialize a i = (st, some m)) {as : List (Nat × CsCall)} {h : List CsEvent}
    (hr : csRun limit m as = .ret (h, m')) : CsInv limit h m' := by
  rw [csInitialize_some hm] at hr
  obtain ⟨h2, m2, e, I⟩ := (CsInv.start limit).run hl as
  rw [hr] at e
  cases e
  simpa using I

/-- Nobody else is inside, seen from the mutex. -/
theorem CsInv.others {limit : Nat} {h : List CsEvent} {m : Mutex} (I : CsInv limit h m) (t : Nat) :
    (∀ u, u ≠ t → ¬ Inside u h) ↔ (m.owner = none ∨ m.owner = some t) := by
  constructor
  · intro hu
    cases ho : m.owner with
    | none => exact .inl rfl
    | some o =>
      obtain ⟨h1, _, h3, _⟩ := I.held o ho
      by_cases e : o = t
      · exact .inr (by rw [e])
      · exact absurd (show Inside o h by unfold Inside; omega) (hu o e)
  · rintro (ho | ho) u hu hi
    · have := I.free ho u
      unfold Inside at hi; omega
    · have := (I.held t ho).2.2.2 u hu
      unfold Inside at hi; omega

/-! ## Thread-local storage -/

/-- The state agrees with the history. -/
structure TlsInv (p : List (Nat × TlsCall)) (s : TlsState) : Prop where
  used : ∀ k, s.used k = inUse k p false
  val : ∀ t k, s.val t k = stored t k p 0

theorem inUse_append (k : Nat) : ∀ (p q : List (Nat × TlsCall)) (b : Bool),
    inUse k (p ++ q) b = inUse k q (inUse k p b)
  | [], _, _ => rfl
  | (_, .alloc (.ok _)) :: p, q, _ => inUse_append k p q _
  | (_, .alloc (.error _)) :: p, q, _ => inUse_append k p q _
  | (_, .free _) :: p, q, _ => inUse_append k p q _
  | (_, .get _) :: p, q, _ => inUse_append k p q _
  | (_, .set ..) :: p, q, _ => inUse_append k p q _

theorem stored_append (t k : Nat) : ∀ (p q : List (Nat × TlsCall)) (d : Nat),
    stored t k (p ++ q) d = stored t k q (stored t k p d)
  | [], _, _ => rfl
  | (_, .alloc (.ok _)) :: p, q, _ => stored_append t k p q _
  | (_, .alloc (.error _)) :: p, q, _ => stored_append t k p q _
  | (_, .free _) :: p, q, _ => stored_append t k p q _
  | (_, .get _) :: p, q, _ => stored_append t k p q _
  | (_, .set _ _ none) :: p, q, _ => stored_append t k p q _
  | (_, .set _ _ (some _)) :: p, q, _ => stored_append t k p q _

theorem TlsInv.start : TlsInv [] TlsState.start := ⟨fun _ => rfl, fun _ _ => rfl⟩

/-- The index is in use if the call needs it. -/
def needs (s : TlsState) : TlsCall → Prop
  | .get k => s.used k = true
  | .set k _ _ => s.used k = true
  | _ => True

theorem TlsInv.step {p : List (Nat × TlsCall)} {s : TlsState} (I : TlsInv p s) (t : Nat) (c : TlsCall)
    (hc : needs s c) : ∃ r s', tlsStep s t c = .ret (r, s') ∧ TlsInv (p ++ [(t, c)]) s' := by
  have hu : ∀ k, inUse k (p ++ [(t, c)]) false = inUse k [(t, c)] (s.used k) := fun k => by
    rw [inUse_append, I.used]
  have hv : ∀ u k, stored u k (p ++ [(t, c)]) 0 = stored u k [(t, c)] (s.val u k) := fun u k => by
    rw [stored_append, I.val]
  cases c with
  | alloc reply =>
    cases reply with
    | error e =>
      refine ⟨_, _, rfl, ⟨fun k => ?_, fun u k => ?_⟩⟩
      · rw [hu]; cases e <;> rfl
      · rw [hv]; cases e <;> rfl
    | ok q =>
      refine ⟨_, _, rfl, ⟨fun k => ?_, fun u k => ?_⟩⟩
      · rw [hu]; simp [tlsAlloc, pthreadKeyCreate, inUse, eq_comm]
      · rw [hv]; simp [tlsAlloc, pthreadKeyCreate, stored, eq_comm]
  | free q =>
    refine ⟨_, _, rfl, ⟨fun k => ?_, fun u k => ?_⟩⟩
    · rw [hu]
      simp only [tlsFree, inUse]
      by_cases hq : s.used q = true
      · simp [hq, eq_comm]
      · simp only [hq]
        by_cases e : q = k
        · subst e; simpa using hq
        · simp [e]
    · rw [hv]
      simp only [tlsFree, stored]
      split <;> rfl
  | get q =>
    refine ⟨.value stSuccess (s.val t q), s, ?_, ⟨fun k => ?_, fun u k => ?_⟩⟩
    · have h : s.used q = true := hc
      simp [tlsStep, tlsGetValue, pthreadGetSpecific, h]
    · rw [hu]; rfl
    · rw [hv]; rfl
  | set q d fail =>
    have h : s.used q = true := hc
    cases fail with
    | none =>
      refine ⟨.status stSuccess, _, by simp [tlsStep, tlsSetValue, pthreadSetSpecific, h]; rfl,
        ⟨fun k => ?_, fun u k => ?_⟩⟩
      · rw [hu]; rfl
      · rw [hv]; simp [stored, eq_comm]
    | some e =>
      have : ∃ st, tlsStep s t (.set q d (some e)) = .ret (.status st, s) := by
        simp only [tlsStep, tlsSetValue, pthreadSetSpecific, h, if_true, Out.ret_bind']
        cases e <;> exact ⟨_, rfl⟩
      obtain ⟨st, e1⟩ := this
      refine ⟨_, _, e1, ⟨fun k => ?_, fun u k => ?_⟩⟩
      · rw [hu]; rfl
      · rw [hv]; rfl

theorem Spec.KeysInUse.needs {p : List (Nat × TlsCall)} {t : Nat} {c : TlsCall} {r : List (Nat × TlsCall)}
    (hk : KeysInUse (p ++ (t, c) :: r)) {s : TlsState} (I : TlsInv p s) : Zy.needs s c := by
  obtain ⟨h1, h2⟩ := hk p t c r rfl
  cases c with
  | alloc _ => trivial
  | free _ => trivial
  | get k => exact (I.used k).trans (h1 k rfl)
  | set k d f => exact (I.used k).trans (h2 k d f rfl)

theorem TlsInv.run : ∀ (h : List (Nat × TlsCall)) {p : List (Nat × TlsCall)} {s : TlsState}, TlsInv p s →
    KeysInUse (p ++ h) → ∃ rs s', tlsRun s h = .ret (rs, s') ∧ TlsInv (p ++ h) s' ∧ rs.map (·.1) = h.map (·.1)
  | [], p, s, I, _ => ⟨[], s, rfl, by simpa using I, rfl⟩
  | (t, c) :: h, p, s, I, hk => by
    obtain ⟨r, s1, e1, I1⟩ := I.step t c (Spec.KeysInUse.needs hk I)
    have e : p ++ (t, c) :: h = (p ++ [(t, c)]) ++ h := by simp
    obtain ⟨rs, s2, e2, I2, e3⟩ := TlsInv.run h I1 (by rw [← e]; exact hk)
    exact ⟨(t, r) :: rs, s2, by rw [tlsRun, e1, Out.ret_bind', e2, Out.ret_bind'], by rw [e]; exact I2, by simp [e3]⟩

theorem tlsRun_append : ∀ (p q : List (Nat × TlsCall)) (s : TlsState),
    tlsRun s (p ++ q) = (tlsRun s p).bind fun a => (tlsRun a.2 q).bind fun b => .ret (a.1 ++ b.1, b.2)
  | [], q, s => by
    simp only [List.nil_append, tlsRun, Out.ret_bind']
    cases tlsRun s q <;> rfl
  | (t, c) :: p, q, s => by
    simp only [List.cons_append, tlsRun]
    cases tlsStep s t c with
    | ub w => rfl
    | ret r =>
      simp only [Out.ret_bind', tlsRun_append p q r.2]
      cases tlsRun r.2 p with
      | ub w => rfl
      | ret a =>
        simp only [Out.ret_bind']
        cases tlsRun a.2 q <;> rfl

/-- Equal for thread `t`: the keys in use and the values of `t`. -/
def SameFor (t : Nat) (s s' : TlsState) : Prop := s.used = s'.used ∧ s.val t = s'.val t

theorem SameFor.step {t : Nat} {s s' : TlsState} (h : SameFor t s s') (u : Nat) (c : TlsCall)
    (hc : concerns t (u, c) = true) {r : TlsResult} {s1 : TlsState} (e : tlsStep s u c = .ret (r, s1)) :
    ∃ s1', tlsStep s' u c = .ret (r, s1') ∧ SameFor t s1 s1' := by
  obtain ⟨hu, hv⟩ := h
  cases c with
  | alloc reply =>
    cases reply with
    | error x => cases x <;> (simp [tlsStep, tlsAlloc, pthreadKeyCreate] at e ⊢; obtain ⟨rfl, rfl⟩ := e; exact ⟨_, ⟨rfl, rfl⟩, hu, hv⟩)
    | ok q =>
      simp [tlsStep, tlsAlloc, pthreadKeyCreate] at e ⊢
      obtain ⟨rfl, rfl⟩ := e
      exact ⟨_, ⟨rfl, rfl⟩, by simp [hu], by simp [hv]⟩
  | free q =>
    simp only [tlsStep, tlsFree, Out.ret.injEq, Prod.mk.injEq] at e ⊢
    obtain ⟨rfl, rfl⟩ := e
    rw [← hu]
    by_cases hq : s.used q = true <;> simp [hq, SameFor, hu, hv]
  | get q =>
    have hut : u = t := by simpa [concerns] using hc
    subst hut
    simp only [tlsStep, tlsGetValue, pthreadGetSpecific, ← hu, ← hv] at e ⊢
    split at e
    · rename_i h1
      simp only [Out.ret_bind', Out.ret.injEq, Prod.mk.injEq] at e
      obtain ⟨rfl, rfl⟩ := e
      exact ⟨s', by simp [h1], hu, hv⟩
    · simp at e
  | set q d fail =>
    have hut : u = t := by simpa [concerns] using hc
    subst hut
    simp only [tlsStep, tlsSetValue, pthreadSetSpecific, ← hu] at e ⊢
    split at e
    · rename_i h1
      cases fail with
      | none =>
        simp only [Out.ret_bind', Out.ret.injEq, Prod.mk.injEq] at e
        obtain ⟨rfl, rfl⟩ := e
        refine ⟨{ s' with val := fun v x => if v = u ∧ x = q then d else s'.val v x }, by simp [h1]; exact hu, hu, ?_⟩
        funext x
        simp [hv]
      | some x =>
        cases x <;> (simp only [Out.ret_bind', Out.ret.injEq, Prod.mk.injEq] at e; obtain ⟨rfl, rfl⟩ := e; exact ⟨s', by simp [h1], hu, hv⟩)
    · simp at e

/-- A call that does not concern `t` changes nothing for `t`. -/
theorem SameFor.skip {t : Nat} {s s' : TlsState} (h : SameFor t s s') (u : Nat) (c : TlsCall)
    (hc : concerns t (u, c) = false) {r : TlsResult} {s1 : TlsState} (e : tlsStep s u c = .ret (r, s1)) :
    u ≠ t ∧ SameFor t s1 s' := by
  obtain ⟨hu, hv⟩ := h
  cases c with
  | alloc reply => simp [concerns] at hc
  | free q => simp [concerns] at hc
  | get q =>
    have hut : u ≠ t := by simpa [concerns] using hc
    refine ⟨hut, ?_⟩
    simp only [tlsStep, tlsGetValue, pthreadGetSpecific] at e
    split at e
    · simp only [Out.ret_bind', Out.ret.injEq, Prod.mk.injEq] at e
      obtain ⟨_, rfl⟩ := e
      exact ⟨hu, hv⟩
    · simp at e
  | set q d fail =>
    have hut : u ≠ t := by simpa [concerns] using hc
    refine ⟨hut, ?_⟩
    simp only [tlsStep, tlsSetValue, pthreadSetSpecific] at e
    split at e
    · cases fail with
      | none =>
        simp only [Out.ret_bind', Out.ret.injEq, Prod.mk.injEq] at e
        obtain ⟨_, rfl⟩ := e
        refine ⟨hu, ?_⟩
        funext x
        simp [Ne.symm hut, hv]
      | some x =>
        cases x <;> (simp only [Out.ret_bind', Out.ret.injEq, Prod.mk.injEq] at e; obtain ⟨_, rfl⟩ := e; exact ⟨hu, hv⟩)
    · simp at e

theorem SameFor.run {t : Nat} : ∀ (h : List (Nat × TlsCall)) {s s' : TlsState}, SameFor t s s' →
    ∀ {rs s1}, tlsRun s h = .ret (rs, s1) →
      ∃ rs' s1', tlsRun s' (h.filter (concerns t)) = .ret (rs', s1') ∧
        rs'.filter (·.1 == t) = rs.filter (·.1 == t)
  | [], s, s', _, rs, s1, e => by
    simp only [tlsRun, Out.ret.injEq, Prod.mk.injEq] at e
    obtain ⟨rfl, rfl⟩ := e
    exact ⟨[], s', rfl, rfl⟩
  | (u, c) :: h, s, s', H, rs, s1, e => by
    rw [tlsRun] at e
    cases e1 : tlsStep s u c with
    | ub w => rw [e1] at e; simp at e
    | ret q =>
      obtain ⟨r, sm⟩ := q
      rw [e1, Out.ret_bind'] at e
      cases e2 : tlsRun sm h with
      | ub w => rw [e2] at e; simp at e
      | ret q2 =>
        obtain ⟨rs2, s2⟩ := q2
        rw [e2] at e
        simp only [Out.ret_bind', Out.ret.injEq, Prod.mk.injEq] at e
        obtain ⟨rfl, rfl⟩ := e
        cases hc : concerns t (u, c) with
        | true =>
          obtain ⟨sm', e3, H'⟩ := H.step u c hc e1
          obtain ⟨rs', s1', e4, e5⟩ := SameFor.run h H' e2
          refine ⟨(u, r) :: rs', s1', ?_, ?_⟩
          · rw [List.filter_cons_of_pos hc, tlsRun, e3, Out.ret_bind', e4, Out.ret_bind']
          · simp only [List.filter_cons, e5]
        | false =>
          obtain ⟨hne, H'⟩ := H.skip u c hc e1
          obtain ⟨rs', s1', e4, e5⟩ := SameFor.run h H' e2
          refine ⟨rs', s1', ?_, ?_⟩
          · rw [List.filter_cons_of_neg (by simp [hc]), e4]
          · simp [e5, hne]

end Zy
