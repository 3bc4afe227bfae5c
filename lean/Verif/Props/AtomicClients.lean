import Verif.Lemmas.AtomicClients

/-!
# Properties of client programs of the atomic operations
-/

namespace Zy

variable {w : Nat} {δ : Type}

/-! ## C155: reference counts -/

/-- **C155**. Owners that share an object with a reference count, each starting with references of its own and doing
nothing without a reference, under every schedule: the object is destroyed at most once, it is not used afterwards,
and when it was destroyed no owner begins anything any more. `hn` says that the count does not overflow. -/
theorem C155_no_use_after (owners : List (Nat × List RefCmd)) (hp : ∀ o ∈ owners, properRefs o.1 o.2) {v : BitVec w}
    (hv : v.toNat = (owners.map (·.1)).sum) (h0 : v ≠ 0)
    (hn : (owners.map fun o => o.1 + o.2.count .clone).sum < 2 ^ w) (sched : List Nat) :
    let s := actRun refAct (actStart v ⟨0, false⟩ (owners.map fun o => ⟨o.1, o.2, false⟩)) sched
    s.data.usedAfter = false ∧ s.data.destroyed ≤ 1 ∧
      (s.data.destroyed = 1 → ∀ t ∈ s.thr, t.reg = none → t.st.cmds = [] ∧ t.st.destroying = false) := by
  intro s
  have I : RefInv _ _ s := actRun_inv (fun _ _ _ h hi => h.step hn hi) sched (RefInv.start hp hv h0)
  have honce := I.once
  have hle : (if s.value = 0 then 1 else 0) ≤ 1 := by split <;> omega
  refine ⟨I.used, by omega, fun hd t ht hr => ?_⟩
  have hv0 : s.value = 0 := by
    by_cases h : s.value = 0
    · exact h
    · rw [if_neg h] at honce; omega
  rw [if_pos hv0] at honce
  have hval := I.val
  rw [hv0] at hval
  have h1 := sum_eq_zero (by simpa using hval) t ht
  have h2 := sum_eq_zero (f := refPending) (l := s.thr) (by omega) t ht
  have h3 := I.proper t ht
  obtain ⟨⟨h, cs, d⟩, reg⟩ := t
  simp only at hr
  subst hr
  rw [refOwned_none] at h1
  rw [refPending_none] at h2
  simp only at h1 h2 h3
  subst h1
  constructor
  · cases cs with
    | nil => rfl
    | cons c cs => cases c <;> exact absurd h3.1 (Nat.lt_irrefl 0)
  · cases d with
    | false => rfl
    | true => simp at h2

/-- **C155**: when all owners are through, the object was destroyed exactly once if all references were given back,
and is alive otherwise. -/
theorem C155_destroyed_once (owners : List (Nat × List RefCmd)) (hp : ∀ o ∈ owners, properRefs o.1 o.2) {v : BitVec w}
    (hv : v.toNat = (owners.map (·.1)).sum) (h0 : v ≠ 0)
    (hn : (owners.map fun o => o.1 + o.2.count .clone).sum < 2 ^ w) (sched : List Nat) :
    let s := actRun refAct (actStart v ⟨0, false⟩ (owners.map fun o => ⟨o.1, o.2, false⟩)) sched
    (∀ t ∈ s.thr, t.st.cmds = [] ∧ t.st.destroying = false) →
      s.data.destroyed = if ∀ o ∈ owners, refsLeft o.1 o.2 = 0 then 1 else 0 := by
  intro s hd
  have I : RefInv _ _ s := actRun_inv (fun _ _ _ h hi => h.step hn hi) sched (RefInv.start hp hv h0)
  have hown : ∀ t ∈ s.thr, refOwned t = refsLeft t.st.held t.st.cmds := by
    intro t ht
    obtain ⟨e1, e2⟩ := hd t ht
    obtain ⟨⟨h, cs, d⟩, reg⟩ := t
    simp only at e1 e2
    subst e1 e2
    cases reg <;> simp [refOwned, refsLeft]
  have hpend : (s.thr.map refPending).sum = 0 := by
    refine sum_map_zero fun t ht => ?_
    obtain ⟨e1, e2⟩ := hd t ht
    obtain ⟨⟨h, cs, d⟩, reg⟩ := t
    simp only at e1 e2
    subst e1 e2
    cases reg <;> rfl
  have honce := I.once
  have hval := I.val
  rw [List.map_congr_left hown] at hval
  have hleft := I.left
  have hzero : s.value = 0 ↔ ∀ o ∈ owners, refsLeft o.1 o.2 = 0 := by
    constructor
    · intro h
      rw [h] at hval
      exact sum_eq_zero (by
        have : (0 : BitVec w).toNat = 0 := by simp
        omega)
    · intro h
      have e : (owners.map fun o => refsLeft o.1 o.2).sum = 0 := sum_map_zero h
      apply BitVec.eq_of_toNat_eq
      have : (0 : BitVec w).toNat = 0 := by simp
      omega
  by_cases h : ∀ o ∈ owners, refsLeft o.1 o.2 = 0
  · rw [if_pos h]
    rw [if_pos (hzero.2 h)] at honce
    omega
  · rw [if_neg h]
    rw [if_neg (fun e => h (hzero.1 e))] at honce
    omega

/-- Two owners; the first one lends a reference to itself. -/
def exOwners : List (Nat × List RefCmd) := [(1, [.use, .clone, .drop, .use, .drop]), (2, [.drop, .use, .drop])]

theorem exOwners_proper : ∀ o ∈ exOwners, properRefs o.1 o.2 := by
  simp [exOwners, properRefs]

/-- A schedule that completes them; the last decrement is that of the second owner. -/
def exRefSched : List Nat := [0, 1, 0, 1, 0, 1, 0, 0, 0, 0, 0, 1, 1, 1]

example : (actRun refAct (actStart 3#8 ⟨0, false⟩ (exOwners.map fun o => ⟨o.1, o.2, false⟩)) exRefSched).data =
    ⟨1, false⟩ := by decide
example : let s := actRun refAct (actStart 3#8 ⟨0, false⟩ (exOwners.map fun o => ⟨o.1, o.2, false⟩)) exRefSched
    s.data.usedAfter = false ∧ s.data.destroyed ≤ 1 ∧
      (s.data.destroyed = 1 → ∀ t ∈ s.thr, t.reg = none → t.st.cmds = [] ∧ t.st.destroying = false) :=
  C155_no_use_after exOwners exOwners_proper rfl (by decide) (by decide) exRefSched
example : (actRun refAct (actStart 3#8 ⟨0, false⟩ (exOwners.map fun o => ⟨o.1, o.2, false⟩))
    exRefSched).data.destroyed = 1 := by
  have := C155_destroyed_once (v := 3#8) exOwners exOwners_proper rfl (by decide) (by decide) exRefSched (by decide)
  simpa [exOwners, refsLeft] using this

/-! ## C156: a spin lock -/

/-- **C156**. Threads that lock by replacing 0 with 1 and unlock by replacing 1 with 0, or by a decrement: under every
schedule, at most one thread is inside. -/
theorem C156_mutual_exclusion {unlock : AOp w} (hu : unlock = .cas 1 0 ∨ unlock = .dec) (hw : 0 < w) (d : δ)
    (progs : List (List (δ → δ))) (sched : List Nat) {i j : Nat} {t u : CThr w (LockSt δ)} (hij : i ≠ j)
    (hi : (actRun (lockAct unlock) (actStart 0 d (progs.map .want)) sched).thr[i]? = some t)
    (hj : (actRun (lockAct unlock) (actStart 0 d (progs.map .want)) sched).thr[j]? = some u) :
    ¬ (t.st.inside = true ∧ u.st.inside = true) := by
  intro ⟨h1, h2⟩
  have I := (LockInv.start (w := w) d progs).run hu hw sched
  have key : ∀ t : CThr w (LockSt δ), t.st.inside = true → lockHold t = 1 := by
    intro t h
    obtain ⟨st, reg⟩ := t
    cases st with
    | want gs => simp [LockSt.inside] at h
    | leave gs => simp [LockSt.inside] at h
    | load g gs => rfl
    | store g gs x => rfl
  have := two_le_sum (lockHold (w := w) (δ := δ)) hij hi hj
  rw [key t h1, key u h2] at this
  rcases I.val with ⟨_, h⟩ | ⟨_, h⟩ <;> omega

/-- **C156**: the functions that the threads apply to the shared data under the lock, each by a load and a later
store, take effect one after the other, those of each thread in its order; none is lost, none is applied twice. -/
theorem C156_serial {unlock : AOp w} (hu : unlock = .cas 1 0 ∨ unlock = .dec) (hw : 0 < w) (d : δ)
    (progs : List (List (δ → δ))) (sched : List Nat) :
    let s := actRun (lockAct unlock) (actStart 0 d (progs.map .want)) sched
    ∃ log : List (Nat × (δ → δ)), s.data = log.foldl (fun d p => p.2 d) d ∧
      ∀ (i : Nat) (p : List (δ → δ)), progs[i]? = some p → entriesOf log i <+: p ∧
        (∀ t, s.thr[i]? = some t → t.st.finished = true → entriesOf log i = p) := by
  intro s
  have I : LockInv d progs s := (LockInv.start (w := w) d progs).run hu hw sched
  obtain ⟨log, h1, h2⟩ := I.log
  refine ⟨log, h1, fun i p hp => ?_⟩
  have hi : i < s.thr.length := by
    rw [I.len]
    rcases Nat.lt_or_ge i progs.length with h | h
    · exact h
    · rw [List.getElem?_eq_none h] at hp; cases hp
  have h3 := h2 i _ (List.getElem?_eq_getElem hi)
  rw [hp, Option.some.injEq] at h3
  refine ⟨by rw [h3]; exact List.prefix_append .., fun t ht hf => ?_⟩
  have h4 := h2 i t ht
  rw [hp, Option.some.injEq] at h4
  obtain ⟨st, reg⟩ := t
  cases st with
  | want gs =>
    cases gs with
    | nil => rw [h4]; simp [lockLeft]
    | cons g gs => simp [LockSt.finished] at hf
  | load g gs => simp [LockSt.finished] at hf
  | store g gs x => simp [LockSt.finished] at hf
  | leave gs => simp [LockSt.finished] at hf

/-- **C156**: no deadlock. Whatever happened so far, the threads can still complete their programs. -/
theorem C156_no_deadlock {unlock : AOp w} (hu : unlock = .cas 1 0 ∨ unlock = .dec) (hw : 0 < w) (d : δ)
    (progs : List (List (δ → δ))) (sched : List Nat) :
    ∃ more : List Nat, ∀ t ∈ (actRun (lockAct unlock) (actStart 0 d (progs.map .want)) (sched ++ more)).thr,
      t.st.finished = true := by
  obtain ⟨more, _, h⟩ := lock_progress hu hw _ ((LockInv.start (w := w) d progs).run hu hw sched) (Nat.le_refl _)
  exact ⟨more, by rw [actRun_append]; exact h⟩

/-- Two threads that add to a counter; the second one spins twice. -/
example : (actRun (lockAct (.cas 1 0)) (actStart 0#32 5 [.want [(· + 10)], .want [(· * 2)]])
    [0, 1, 0, 1, 0, 1, 0, 1, 0, 0, 1, 1, 1, 1, 1, 1]).data = 30 := by decide
example : ∀ (i j : Nat) (t u : CThr 32 (LockSt Nat)), i ≠ j →
    (actRun (lockAct .dec) (actStart 0 5 ([[(· + 10)], [(· * 2)]].map .want)) [0, 1, 0, 1, 0]).thr[i]? = some t →
    (actRun (lockAct .dec) (actStart 0 5 ([[(· + 10)], [(· * 2)]].map .want)) [0, 1, 0, 1, 0]).thr[j]? = some u →
    ¬ (t.st.inside = true ∧ u.st.inside = true) :=
  fun _ _ _ _ hij hi hj => C156_mutual_exclusion (Or.inr rfl) (by decide) 5 _ _ hij hi hj

/-! ## C157: updates by compare-exchange -/

/-- **C157**. Threads that apply functions to the atomic variable by repeating compare-exchange until it returns the
expected value: under every schedule the functions take effect one after the other, those of each thread in its order;
none is lost, none is applied twice. Any initial guess will do. -/
theorem C157_serial (v guess : BitVec w) (progs : List (List (BitVec w → BitVec w))) (sched : List Nat) :
    let s := actRun updAct (actStart v () (progs.map fun p => ⟨p, guess⟩)) sched
    ∃ log : List (Nat × (BitVec w → BitVec w)), s.value = log.foldl (fun v p => p.2 v) v ∧
      ∀ (i : Nat) (p : List (BitVec w → BitVec w)), progs[i]? = some p → entriesOf log i <+: p ∧
        (∀ t, s.thr[i]? = some t → t.st.fs = [] → entriesOf log i = p) := by
  intro s
  have I := (UpdInv.start v progs guess).run sched
  obtain ⟨log, h1, _, h2⟩ := I.log
  refine ⟨log, h1, fun i p hp => ?_⟩
  have hi : i < s.thr.length := by
    rw [I.len]
    rcases Nat.lt_or_ge i progs.length with h | h
    · exact h
    · rw [List.getElem?_eq_none h] at hp; cases hp
  have h3 := (h2 i _ (List.getElem?_eq_getElem hi)).1
  rw [hp, Option.some.injEq] at h3
  refine ⟨by rw [h3]; exact List.prefix_append .., fun t ht hf => ?_⟩
  have h4 := (h2 i t ht).1
  rw [hp, Option.some.injEq] at h4
  obtain ⟨⟨fs, old⟩, reg⟩ := t
  simp only at hf
  subst hf
  rw [h4]
  simp [updLeft]

/-- **C157**: no thread waits for another one. A thread that was scheduled twice for every function of all threads,
and twice more, is through, whatever the other threads do meanwhile. -/
theorem C157_progress (v guess : BitVec w) (progs : List (List (BitVec w → BitVec w))) (sched : List Nat) (i : Nat)
    (hc : 2 * (progs.map List.length).sum + 2 ≤ sched.count i) (t : CThr w (UpdSt w))
    (ht : (actRun updAct (actStart v () (progs.map fun p => ⟨p, guess⟩)) sched).thr[i]? = some t) :
    t.st.fs = [] := by
  have I := (UpdInv.start v progs guess).run sched
  obtain ⟨log, _, h2, h3⟩ := I.log
  obtain ⟨_, fails, hf, hcnt⟩ := h3 i t ht
  cases hfs : t.st.fs with
  | nil => rfl
  | cons f fs =>
    exfalso
    have hcnt := hcnt (by rw [hfs]; simp)
    have hle := le_sum_of_getElem? (fun t => (updLeft (w := w) t).length) ht
    simp only [Nat.zero_add] at hcnt
    obtain ⟨⟨fs', old⟩, reg⟩ := t
    simp only at hfs
    subst hfs
    cases reg with
    | none =>
      have e : updPending (⟨⟨f :: fs, old⟩, none⟩ : CThr w (UpdSt w)) = 0 := rfl
      have e2 : (updLeft (⟨⟨f :: fs, old⟩, none⟩ : CThr w (UpdSt w))).length = fs.length + 1 := rfl
      simp only [e2] at hle
      omega
    | some x =>
      have e : updPending (⟨⟨f :: fs, old⟩, some x⟩ : CThr w (UpdSt w)) = 1 := rfl
      omega

/-- Two threads that double and add three; the first one has to try again twice. -/
example : (actRun updAct (actStart 7#16 () [⟨[(· * 2)], 0⟩, ⟨[(· + 3)], 7⟩]) [0, 1, 0, 1, 0, 0, 0, 0]).value = 20#16 := by
  decide
example : ∀ t, (actRun updAct (actStart 7#16 () ([[(· * 2)], [(· + 3)]].map fun p => ⟨p, 7⟩))
    [0, 1, 0, 1, 0, 1, 0, 1, 0, 0]).thr[0]? = some t → t.st.fs = [] :=
  fun t ht => C157_progress 7#16 7 _ _ 0 (by decide) t ht

end Zy
