import Verif.Lemmas.Thread

/-!
# Property theorems: status of failing system calls, thread ids, destructors of thread-local values

The vocabulary (`statusFor`, `lastStored`, `keyInUse`, `dtorOf`, `CompleteOrder`) is in `Verif.Spec.Thread`.
-/

namespace Zy

open Zy.Spec

/-! ## C101 -/

/-- C101: each error of each system call is reported with the status of the table. -/
theorem C101_status_table (e : Errno) (s : TlsState) (t k d : Nat) (hk : s.used k = true) :
    (∀ i, (csInitialize (some e) i).1 = statusFor .attrInit e) ∧
    (csInitialize none (some e)).1 = statusFor .mutexInit e ∧
    enterStatus (some e) = statusFor .mutexLock e ∧
    leaveStatus (some e) = statusFor .mutexUnlock e ∧
    csDelete (some e) = statusFor .mutexDestroy e ∧
    tlsAlloc s (.error e) = (statusFor .keyCreate e, none, s) ∧
    tlsSetValue s t k d (some e) = .ret (statusFor .setSpecific e, s) := by
  have h : tlsSetValue s t k d (some e) =
      .ret (if e = .EINVAL then stInvalidArgument else stBadSystemcall, s) := by
    simp only [tlsSetValue, pthreadSetSpecific, hk, if_true, Out.ret_bind']
    cases e <;> rfl
  rw [h]
  cases e <;> exact ⟨fun _ => rfl, rfl, rfl, rfl, rfl, rfl, rfl⟩

/-- C101: different kinds of errors stay distinguishable from success and from each other: memory and
resources exhausted, permission denied, and invalid arguments have five different failing statuses. -/
theorem C101_distinct : [stSuccess, stNoMemory, stOutOfResources, stAccessDenied, stInvalidArgument,
    stInvalidOperation, stBadSystemcall].Nodup := by decide

example : (csInitialize none (some .EPERM)).1 = stAccessDenied ∧ statusFor .mutexInit .EPERM = stAccessDenied := by
  decide
example : tlsAlloc .start (.error .ENOTTY) = (stBadSystemcall, none, .start) := rfl
example : (tlsAlloc .start (.ok 3)).2.2.used 3 = true := rfl

/-! ## C102 -/

/-- C102, for the systems on which the block of each thread begins with a pointer to itself: the id of each
thread is its handle. So threads with different handles have different ids, whatever else the memory holds.
Missing: other layouts of the block, see the next theorem. -/
theorem C102_ids_partial {mem : Nat → Option (BitVec 64)} {handles : List (BitVec 64)}
    (hn : ∀ h ∈ handles, h ≠ 0#64) (hs : ∀ h ∈ handles, mem h.toNat = some h) (hd : handles.Nodup) :
    ∃ ids : List (BitVec 64), handles.map (getCurrentThreadId mem) = ids.map (fun i => .ret (stSuccess, i)) ∧ ids.Nodup ∧
      handles.map getCurrentThread = ids.map fun i => (stSuccess, i) := by
  refine ⟨handles, ?_, hd, rfl⟩
  apply List.map_congr_left
  intro h hh
  have h0 : h.toNat ≠ 0 := fun h0 => hn h hh (BitVec.eq_of_toNat_eq h0)
  simp [getCurrentThreadId, h0, hs h hh]

/-- C102 is false in general: the id is the first word of the memory behind the handle, whatever it is. It is
undefined if the handle does not point to readable memory, it is shared by all threads whose blocks begin
with the same word, and it changes whenever this word changes. -/
theorem C102_ids_negation (mem mem' : Nat → Option (BitVec 64)) (h h' : BitVec 64) (hn : h ≠ 0#64)
    (hn' : h' ≠ 0#64) :
    (mem h.toNat = none → getCurrentThreadId mem h = .ub .oob) ∧
    (∀ x, mem h.toNat = some x → mem h'.toNat = some x →
      getCurrentThreadId mem h = .ret (stSuccess, x) ∧ getCurrentThreadId mem h' = .ret (stSuccess, x)) ∧
    (∀ x y, mem h.toNat = some x → mem' h.toNat = some y → x ≠ y →
      getCurrentThreadId mem h ≠ getCurrentThreadId mem' h) := by
  have z : ∀ {h : BitVec 64}, h ≠ 0#64 → h.toNat ≠ 0 := fun hn h0 => hn (BitVec.eq_of_toNat_eq h0)
  refine ⟨fun e => ?_, fun x e e' => ⟨?_, ?_⟩, fun x y e e' hxy => ?_⟩
  · simp [getCurrentThreadId, z hn, e]
  · simp [getCurrentThreadId, z hn, e]
  · simp [getCurrentThreadId, z hn', e']
  · simp [getCurrentThreadId, z hn, e, e', hxy]

/-- Two threads with blocks at 4096 and 8192 that begin with a pointer to themselves. -/
example : [4096#64, 8192#64].map (getCurrentThreadId fun a => if a % 4096 = 0 then some (.ofNat 64 a) else none) =
    [.ret (stSuccess, 4096#64), .ret (stSuccess, 8192#64)] := by decide
/-- Two blocks that begin with the same word, and handles that are small numbers. -/
example : [4096#64, 8192#64].map (getCurrentThreadId fun _ => some 7#64) =
    [.ret (stSuccess, 7#64), .ret (stSuccess, 7#64)] := by decide
example : getCurrentThreadId (fun a => if a < 4096 then none else some 7#64) 1#64 = .ub .oob := by decide

/-! ## C103 -/

/-- C103: destructors run only at the end of a thread. If the system visits each key in use once, the calls
are exactly one for each key in use that has a destructor and under which the thread has stored a value
other than null, and the destructor gets this value. -/
theorem C103_destructors {h : List (Nat × DtStep)} {cs : List (List DtorCall)} {s : DtState}
    (hr : dtRun .start h = .ret (cs, s)) :
    ∀ p t c r, h = p ++ (t, c) :: r → ∃ calls, cs[p.length]? = some calls ∧
      ((∀ order, c ≠ .exit order) → calls = []) ∧
      ∀ order, c = .exit order → CompleteOrder p order →
        (calls.map (·.key)).Nodup ∧
        ∀ k f v, ⟨k, f, v⟩ ∈ calls ↔
          keyInUse k p false = true ∧ dtorOf k p none = some f ∧ lastStored t k p 0 = v ∧ v ≠ 0 := by
  intro p t c r hp
  subst hp
  rw [dtRun_append] at hr
  cases h1 : dtRun .start p with
  | ub w => rw [h1] at hr; simp at hr
  | ret q =>
    obtain ⟨c1, s1⟩ := q
    rw [h1, Out.ret_bind'] at hr
    obtain ⟨hl, ha⟩ := dtRun_agrees p h1
    simp only [dtRun] at hr
    cases h2 : dtStep s1 t c with
    | ub w => rw [h2] at hr; simp at hr
    | ret q2 =>
      obtain ⟨c2, s2⟩ := q2
      rw [h2, Out.ret_bind'] at hr
      cases h3 : dtRun s2 r with
      | ub w => rw [h3] at hr; simp at hr
      | ret q3 =>
        rw [h3] at hr
        simp only [Out.ret_bind', Out.ret.injEq, Prod.mk.injEq] at hr
        refine ⟨c2, ?_, ?_, ?_⟩
        · rw [← hr.1, List.getElem?_append_right (by omega), hl]
          simp
        · intro hne
          cases c with
          | exit order => exact absurd rfl (hne order)
          | allocWith reply d =>
            simp only [dtStep, tlsStep, Out.ret_bind', Out.ret.injEq, Prod.mk.injEq] at h2
            exact h2.1.symm
          | call c =>
            simp only [dtStep] at h2
            cases h4 : tlsStep s1.tls t c with
            | ub w => rw [h4] at h2; simp at h2
            | ret z =>
              rw [h4, Out.ret_bind'] at h2
              simp only [Out.ret.injEq, Prod.mk.injEq] at h2
              exact h2.1.symm
        · intro order hc ho
          subst hc
          simp only [dtStep, Out.ret.injEq, Prod.mk.injEq] at h2
          rw [← h2.1]
          refine ⟨ho.1.sublist (exitCalls_keys ..), fun k f v => ?_⟩
          rw [exitCalls_mem]
          have e1 := (ha t k).1
          have e2 := (ha t k).2.1
          have e3 := (ha t k).2.2
          simp only [DtState.start, TlsState.start] at e1 e2 e3
          simp only [e1, e2, e3]
          constructor
          · rintro ⟨_, h5⟩; exact h5
          · intro h5; exact ⟨ho.2 k h5.1, h5⟩

/-- C103: releasing an index calls no destructor, and afterwards the values stored under it are never
passed to a destructor (until the index is allocated again). -/
theorem C103_free_calls_nothing {s s' : DtState} {t k : Nat} {cs : List DtorCall}
    (h : dtStep s t (.call (.free k)) = .ret (cs, s')) :
    cs = [] ∧ ∀ u order c, c ∈ exitCalls s' u order → c.key ≠ k := by
  have ha := (dtStep_agrees h t k).2.1
  refine ⟨?_, fun u order c hc e => ?_⟩
  · simp only [dtStep, tlsStep, Out.ret_bind', Out.ret.injEq, Prod.mk.injEq] at h
    exact h.1.symm
  · rw [exitCalls_mem] at hc
    have h2 := hc.2.1
    rw [e, ha] at h2
    simp [keyInUse] at h2

/-- Threads 1 and 2 store values under key 5, which has destructor 9, and thread 1 under key 6, which has
none. Thread 1 ends: one call. Key 5 is released, thread 2 ends: no call. -/
def exDt : List (Nat × DtStep) :=
  [(1, .allocWith (.ok 5) 9), (1, .call (.alloc (.ok 6))), (1, .call (.set 5 70 none)),
   (2, .call (.set 5 80 none)), (1, .call (.set 6 90 none)), (1, .exit [6, 5]), (2, .call (.free 5)),
   (2, .exit [6])]

example : (match dtRun .start exDt with | .ret r => r.1 | .ub _ => []) =
    [[], [], [], [], [], [⟨5, 9, 70⟩], [], []] := by decide
example : lastStored 1 5 (exDt.take 5) 0 = 70 ∧ keyInUse 5 (exDt.take 5) false = true ∧
    dtorOf 5 (exDt.take 5) none = some 9 ∧ lastStored 1 5 exDt 0 = 0 := by decide
example : CompleteOrder (exDt.take 5) [6, 5] := by
  refine ⟨by decide, fun k hk => ?_⟩
  simp [exDt, keyInUse] at hk
  simp
  omega

end Zy
