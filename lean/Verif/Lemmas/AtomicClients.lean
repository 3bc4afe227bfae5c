import Verif.Spec.AtomicClients

/-!
# Lemmas about client programs of the atomic operations
-/

namespace Zy

variable {w : Nat} {δ σ β : Type}

/-! ## General -/

theorem set_getElem?_cases {l : List β} {i j : Nat} {a b u : β} (h : l[i]? = some a) (hu : (l.set i b)[j]? = some u) :
    (j = i ∧ u = b) ∨ (j ≠ i ∧ l[j]? = some u) := by
  have hil : i < l.length := by
    rcases Nat.lt_or_ge i l.length with h' | h'
    · exact h'
    · rw [List.getElem?_eq_none h'] at h; cases h
  by_cases hj : j = i
  · subst hj
    rw [List.getElem?_set_self hil] at hu
    exact Or.inl ⟨rfl, (Option.some.inj hu).symm⟩
  · rw [List.getElem?_set_ne (fun h => hj h.symm)] at hu
    exact Or.inr ⟨hj, hu⟩

theorem mem_set_cases {l : List β} {i : Nat} {b u : β} (hu : u ∈ l.set i b) : u = b ∨ u ∈ l := by
  rcases List.mem_or_eq_of_mem_set hu with h | h
  · exact Or.inr h
  · exact Or.inl h

theorem sum_set (f : β → Nat) : ∀ {l : List β} {i : Nat} {a : β} (b : β), l[i]? = some a →
    ((l.set i b).map f).sum + f a = (l.map f).sum + f b
  | [], i, a, b, h => by simp at h
  | x :: l, 0, a, b, h => by
    simp only [List.getElem?_cons_zero, Option.some.injEq] at h
    subst h
    simp only [List.set_cons_zero, List.map_cons, List.sum_cons]
    omega
  | x :: l, i + 1, a, b, h => by
    rw [List.getElem?_cons_succ] at h
    have := sum_set f b h
    simp only [List.set_cons_succ, List.map_cons, List.sum_cons]
    omega

theorem le_sum_of_getElem? (f : β → Nat) : ∀ {l : List β} {i : Nat} {a : β}, l[i]? = some a → f a ≤ (l.map f).sum
  | [], i, a, h => by simp at h
  | x :: l, 0, a, h => by
    simp only [List.getElem?_cons_zero, Option.some.injEq] at h
    subst h
    simp
  | x :: l, i + 1, a, h => by
    rw [List.getElem?_cons_succ] at h
    have := le_sum_of_getElem? f h
    simp only [List.map_cons, List.sum_cons]
    omega

theorem two_le_sum (f : β → Nat) : ∀ {l : List β} {i j : Nat} {a b : β}, i ≠ j → l[i]? = some a → l[j]? = some b →
    f a + f b ≤ (l.map f).sum
  | [], i, j, a, b, _, h, _ => by simp at h
  | x :: l, 0, 0, a, b, hne, _, _ => absurd rfl hne
  | x :: l, 0, j + 1, a, b, _, h, h' => by
    simp only [List.getElem?_cons_zero, Option.some.injEq] at h
    subst h
    rw [List.getElem?_cons_succ] at h'
    have := le_sum_of_getElem? f h'
    simp only [List.map_cons, List.sum_cons]
    omega
  | x :: l, i + 1, 0, a, b, _, h, h' => by
    simp only [List.getElem?_cons_zero, Option.some.injEq] at h'
    subst h'
    rw [List.getElem?_cons_succ] at h
    have := le_sum_of_getElem? f h
    simp only [List.map_cons, List.sum_cons]
    omega
  | x :: l, i + 1, j + 1, a, b, hne, h, h' => by
    rw [List.getElem?_cons_succ] at h h'
    have := two_le_sum f (fun e => hne (by rw [e])) h h'
    simp only [List.map_cons, List.sum_cons]
    omega

theorem sum_pos_getElem? (f : β → Nat) : ∀ {l : List β}, 0 < (l.map f).sum → ∃ (i : Nat) (a : β), l[i]? = some a ∧ 0 < f a
  | [], h => by simp at h
  | x :: l, h => by
    simp only [List.map_cons, List.sum_cons] at h
    by_cases hx : 0 < f x
    · exact ⟨0, x, rfl, hx⟩
    · obtain ⟨i, a, h1, h2⟩ := sum_pos_getElem? f (l := l) (by omega)
      exact ⟨i + 1, a, h1, h2⟩

theorem actStep_some {act : σ → Act w δ σ} {s : CSys w δ σ} {i : Nat} {t : CThr w σ} (h : s.thr[i]? = some t) :
    actStep act s i = ⟨(actThread act s.value s.data t).1, (actThread act s.value s.data t).2.1,
      s.thr.set i (actThread act s.value s.data t).2.2⟩ := by simp [actStep, h]

theorem actStep_none {act : σ → Act w δ σ} {s : CSys w δ σ} {i : Nat} (h : s.thr[i]? = none) :
    actStep act s i = s := by simp [actStep, h]

theorem actRun_append (act : σ → Act w δ σ) (s : CSys w δ σ) (l l' : List Nat) :
    actRun act s (l ++ l') = actRun act (actRun act s l) l' := by simp [actRun]

/-- Invariants. -/
theorem actRun_inv {act : σ → Act w δ σ} {I : CSys w δ σ → Prop}
    (hs : ∀ (s : CSys w δ σ) (i : Nat) (t : CThr w σ), I s → s.thr[i]? = some t → I (actStep act s i)) (sched : List Nat) :
    ∀ {s : CSys w δ σ}, I s → I (actRun act s sched) := by
  induction sched with
  | nil => intro s h; exact h
  | cons i is ih =>
    intro s h
    show I (actRun act (actStep act s i) is)
    apply ih
    cases hi : s.thr[i]? with
    | none => rw [actStep_none hi]; exact h
    | some t => exact hs s i t h hi

theorem entriesOf_snoc (log : List (Nat × β)) (i j : Nat) (x : β) :
    entriesOf (log ++ [(i, x)]) j = if i = j then entriesOf log j ++ [x] else entriesOf log j := by
  unfold entriesOf
  by_cases h : i = j <;> simp [h]

theorem start_getElem? {v : BitVec w} {d : δ} {sts : List σ} {i : Nat} {t : CThr w σ}
    (h : (actStart v d sts).thr[i]? = some t) : sts[i]? = some t.st ∧ t.reg = none := by
  simp only [actStart, List.getElem?_map, Option.map_eq_some_iff] at h
  obtain ⟨x, hx, rfl⟩ := h
  exact ⟨hx, rfl⟩

theorem one_ne_zero' (hw : 0 < w) : (1 : BitVec w) ≠ 0 := by
  intro h
  have := congrArg BitVec.toNat h
  have h2 : 1 < 2 ^ w := Nat.one_lt_two_pow (by omega)
  have h3 : (1 : BitVec w).toNat = 1 % 2 ^ w := by simp
  rw [h3, Nat.mod_eq_of_lt h2] at this
  simp at this

/-! ## A spin lock -/

/-- The thread has the lock: 1 or 0. -/
def lockHold : CThr w (LockSt δ) → Nat
  | ⟨.want (_ :: _), some x⟩ => if x = 0 then 1 else 0
  | ⟨.want _, _⟩ => 0
  | ⟨.leave _, some _⟩ => 0
  | _ => 1

theorem hold_want_none (gs : List (δ → δ)) : lockHold (⟨.want gs, none⟩ : CThr w (LockSt δ)) = 0 := by
  cases gs <;> rfl
theorem hold_want_some (g : δ → δ) (gs : List (δ → δ)) (x : BitVec w) :
    lockHold ⟨.want (g :: gs), some x⟩ = if x = 0 then 1 else 0 := rfl
theorem hold_load (g : δ → δ) (gs : List (δ → δ)) (r : Option (BitVec w)) : lockHold ⟨.load g gs, r⟩ = 1 := rfl
theorem hold_store (g : δ → δ) (gs : List (δ → δ)) (x : δ) (r : Option (BitVec w)) :
    lockHold ⟨.store g gs x, r⟩ = 1 := rfl
theorem hold_leave_none (gs : List (δ → δ)) : lockHold (⟨.leave gs, none⟩ : CThr w (LockSt δ)) = 1 := rfl
theorem hold_leave_some (gs : List (δ → δ)) (x : BitVec w) : lockHold ⟨.leave gs, some x⟩ = 0 := rfl

/-- The functions that a thread has not applied yet. -/
def lockLeft : LockSt δ → List (δ → δ)
  | .want gs => gs
  | .load g gs => g :: gs
  | .store g gs _ => g :: gs
  | .leave gs => gs

structure LockInv (d0 : δ) (progs : List (List (δ → δ))) (s : CSys w δ (LockSt δ)) : Prop where
  len : s.thr.length = progs.length
  val : (s.value = 0 ∧ (s.thr.map lockHold).sum = 0) ∨ (s.value = 1 ∧ (s.thr.map lockHold).sum = 1)
  log : ∃ log : List (Nat × (δ → δ)), s.data = log.foldl (fun d p => p.2 d) d0 ∧
    ∀ (i : Nat) (t : CThr w (LockSt δ)), s.thr[i]? = some t → progs[i]? = some (entriesOf log i ++ lockLeft t.st)
  dat : ∀ (i : Nat) (t : CThr w (LockSt δ)), s.thr[i]? = some t → ∀ g gs x, t.st = .store g gs x → x = s.data

theorem LockInv.start (d0 : δ) (progs : List (List (δ → δ))) :
    LockInv d0 progs (actStart (0 : BitVec w) d0 (progs.map .want)) := by
  refine ⟨by simp [actStart], Or.inl ⟨rfl, ?_⟩, ⟨[], rfl, ?_⟩, ?_⟩
  · show ((actStart (0 : BitVec w) d0 (progs.map LockSt.want)).thr.map lockHold).sum = 0
    unfold actStart
    have : ∀ ps : List (List (δ → δ)),
        (((ps.map LockSt.want).map fun x => (⟨x, none⟩ : CThr w (LockSt δ))).map lockHold).sum = 0 := by
      intro ps
      induction ps with
      | nil => rfl
      | cons p ps ih =>
        rw [List.map_cons, List.map_cons, List.map_cons, List.sum_cons, ih, hold_want_none]
    exact this progs
  · intro i t h
    obtain ⟨h, _⟩ := start_getElem? h
    rw [List.getElem?_map, Option.map_eq_some_iff] at h
    obtain ⟨p, hp, e⟩ := h
    rw [← e, hp]
    rfl
  · intro i t h g gs x e
    obtain ⟨h, _⟩ := start_getElem? h
    rw [List.getElem?_map, Option.map_eq_some_iff] at h
    obtain ⟨p, hp, e'⟩ := h
    rw [e] at e'
    cases e'

theorem unlock_frees {unlock : AOp w} (hu : unlock = .cas 1 0 ∨ unlock = .dec) : (rmw unlock 1).1 = 0 := by
  rcases hu with rfl | rfl
  · simp [rmw]
  · simp [rmw]

theorem lock_fails {unlock : AOp w} {v x : BitVec w} {d : δ} {g : δ → δ} {gs : List (δ → δ)} (hx : x ≠ 0) :
    actThread (lockAct unlock) v d ⟨.want (g :: gs), some x⟩ = (v, d, ⟨.want (g :: gs), none⟩) := by
  show (v, d, (⟨if x = 0 then .load g gs else .want (g :: gs), none⟩ : CThr w (LockSt δ))) = _
  rw [if_neg hx]

theorem lock_succeeds {unlock : AOp w} {v : BitVec w} {d : δ} {g : δ → δ} {gs : List (δ → δ)} :
    actThread (lockAct unlock) v d ⟨.want (g :: gs), some 0⟩ = (v, d, ⟨.load g gs, none⟩) := by
  show (v, d, (⟨if (0 : BitVec w) = 0 then .load g gs else .want (g :: gs), none⟩ : CThr w (LockSt δ))) = _
  rw [if_pos rfl]

/-- A step that changes neither the data nor what is left. -/
theorem LockInv.still {d0 : δ} {progs : List (List (δ → δ))} {s : CSys w δ (LockSt δ)} (I : LockInv d0 progs s)
    {i : Nat} {t t' : CThr w (LockSt δ)} {v' : BitVec w} (hi : s.thr[i]? = some t)
    (hl : lockLeft t'.st = lockLeft t.st) (hst : ∀ g gs x, t'.st = .store g gs x → x = s.data)
    (hv : (v' = 0 ∧ ((s.thr.set i t').map lockHold).sum = 0) ∨ (v' = 1 ∧ ((s.thr.set i t').map lockHold).sum = 1)) :
    LockInv d0 progs ⟨v', s.data, s.thr.set i t'⟩ := by
  obtain ⟨log, h1, h2⟩ := I.log
  refine ⟨by simpa using I.len, hv, ⟨log, h1, ?_⟩, ?_⟩
  · intro j u hu
    rcases set_getElem?_cases hi hu with ⟨rfl, rfl⟩ | ⟨_, hu⟩
    · rw [hl]; exact h2 _ _ hi
    · exact h2 j u hu
  · intro j u hu g gs x e
    rcases set_getElem?_cases hi hu with ⟨rfl, rfl⟩ | ⟨_, hu⟩
    · exact hst g gs x e
    · exact I.dat j u hu g gs x e

theorem LockInv.step {unlock : AOp w} (hu : unlock = .cas 1 0 ∨ unlock = .dec) (hw : 0 < w) {d0 : δ}
    {progs : List (List (δ → δ))} {s : CSys w δ (LockSt δ)} (I : LockInv d0 progs s) {i : Nat}
    {t : CThr w (LockSt δ)} (hi : s.thr[i]? = some t) : LockInv d0 progs (actStep (lockAct unlock) s i) := by
  have h10 := one_ne_zero' hw
  rw [actStep_some hi]
  have hsum := fun b => sum_set (lockHold (w := w) (δ := δ)) b hi
  have hle := le_sum_of_getElem? (lockHold (w := w) (δ := δ)) hi
  have hval := I.val
  obtain ⟨st, reg⟩ := t
  cases st with
  | want gs =>
    cases gs with
    | nil =>
      refine I.still hi rfl (fun _ _ _ e => by cases e) ?_
      have := hsum ⟨.want [], reg⟩
      rcases hval with ⟨h1, h2⟩ | ⟨h1, h2⟩
      · exact Or.inl ⟨h1, by show ((s.thr.set i ⟨.want [], reg⟩).map lockHold).sum = 0; omega⟩
      · exact Or.inr ⟨h1, by show ((s.thr.set i ⟨.want [], reg⟩).map lockHold).sum = 1; omega⟩
    | cons g gs =>
      cases reg with
      | none =>
        rcases hval with ⟨h1, h2⟩ | ⟨h1, h2⟩
        · have e : actThread (lockAct unlock) s.value s.data ⟨.want (g :: gs), none⟩ =
              (1, s.data, ⟨.want (g :: gs), some 0⟩) := by
            simp [actThread, lockAct, rmw, h1]
          rw [e]
          refine I.still hi rfl (fun _ _ _ e => by cases e) (Or.inr ⟨rfl, ?_⟩)
          have := hsum ⟨.want (g :: gs), some 0⟩
          simp only [hold_want_none, hold_want_some, hold_load, hold_store, hold_leave_none, hold_leave_some, if_pos] at this
          show ((s.thr.set i ⟨.want (g :: gs), some 0⟩).map lockHold).sum = 1
          omega
        · have e : actThread (lockAct unlock) s.value s.data ⟨.want (g :: gs), none⟩ =
              (1, s.data, ⟨.want (g :: gs), some 1⟩) := by
            simp [actThread, lockAct, rmw, h1]
          rw [e]
          refine I.still hi rfl (fun _ _ _ e => by cases e) (Or.inr ⟨rfl, ?_⟩)
          have := hsum ⟨.want (g :: gs), some 1⟩
          simp only [hold_want_none, hold_want_some, hold_load, hold_store, hold_leave_none, hold_leave_some, if_neg h10] at this
          show ((s.thr.set i ⟨.want (g :: gs), some 1⟩).map lockHold).sum = 1
          omega
      | some x =>
        by_cases hx : x = 0
        · subst hx
          rw [lock_succeeds]
          refine I.still hi rfl (fun _ _ _ e => by cases e) ?_
          have := hsum ⟨.load g gs, none⟩
          simp only [hold_want_none, hold_want_some, hold_load, hold_store, hold_leave_none, hold_leave_some, if_pos] at this
          rw [Nat.add_right_cancel this]
          exact hval
        · rw [lock_fails hx]
          refine I.still hi rfl (fun _ _ _ e => by cases e) ?_
          have := hsum ⟨.want (g :: gs), none⟩
          simp only [hold_want_none, hold_want_some, hold_load, hold_store, hold_leave_none, hold_leave_some, if_neg hx] at this
          rw [Nat.add_right_cancel this]
          exact hval
  | load g gs =>
    refine I.still hi rfl (fun _ _ _ e => by cases e; rfl) ?_
    have := hsum ⟨.store g gs s.data, none⟩
    simp only [hold_want_none, hold_want_some, hold_load, hold_store, hold_leave_none, hold_leave_some] at this
    rw [show ((actThread (lockAct unlock) s.value s.data ⟨.load g gs, reg⟩).2.2) =
      ⟨.store g gs s.data, none⟩ from rfl, Nat.add_right_cancel this]
    exact hval
  | store g gs x =>
    have hx := I.dat _ _ hi g gs x rfl
    subst hx
    obtain ⟨log, h1, h2⟩ := I.log
    have h := hsum ⟨.leave gs, none⟩
    simp only [hold_want_none, hold_want_some, hold_load, hold_store, hold_leave_none, hold_leave_some] at h hle
    have hone : (s.thr.map lockHold).sum = 1 := by omega
    refine ⟨by simpa using I.len, ?_, ⟨log ++ [(i, g)], ?_, ?_⟩, ?_⟩
    · show (s.value = 0 ∧ ((s.thr.set i ⟨.leave gs, none⟩).map lockHold).sum = 0) ∨
        (s.value = 1 ∧ ((s.thr.set i ⟨.leave gs, none⟩).map lockHold).sum = 1)
      rw [Nat.add_right_cancel h]
      exact hval
    · show g s.data = _
      rw [List.foldl_append, ← h1]
      rfl
    · intro j u hu
      rw [entriesOf_snoc]
      rcases set_getElem?_cases hi hu with ⟨rfl, rfl⟩ | ⟨hj, hu⟩
      · rw [if_pos rfl, h2 _ _ hi]
        show some (entriesOf log j ++ g :: gs) = some (entriesOf log j ++ [g] ++ gs)
        simp
      · rw [if_neg (fun h => hj h.symm)]
        exact h2 j u hu
    · intro j u hu g' gs' x' e
      rcases set_getElem?_cases hi hu with ⟨rfl, rfl⟩ | ⟨hj, hu⟩
      · cases e
      · have := two_le_sum (lockHold (w := w) (δ := δ)) (fun h => hj h.symm) hi hu
        obtain ⟨st', reg'⟩ := u
        simp only at e
        subst e
        simp only [hold_want_none, hold_want_some, hold_load, hold_store, hold_leave_none, hold_leave_some] at this
        omega
  | leave gs =>
    cases reg with
    | none =>
      simp only [hold_leave_none] at hle hsum
      have hv : s.value = 1 ∧ (s.thr.map lockHold).sum = 1 := by
        rcases hval with ⟨_, h2⟩ | h
        · omega
        · exact h
      have e : actThread (lockAct unlock) s.value s.data ⟨.leave gs, none⟩ =
          (0, s.data, ⟨.leave gs, some (rmw unlock 1).2⟩) := by
        simp only [actThread, lockAct, hv.1, unlock_frees hu]
      rw [e]
      refine I.still hi rfl (fun _ _ _ e => by cases e) (Or.inl ⟨rfl, ?_⟩)
      have := hsum ⟨.leave gs, some (rmw unlock 1).2⟩
      rw [hold_leave_some] at this
      have h2 := hv.2
      show ((s.thr.set i ⟨.leave gs, some (rmw unlock 1).2⟩).map lockHold).sum = 0
      omega
    | some x =>
      refine I.still hi rfl (fun _ _ _ e => by cases e) ?_
      have := hsum ⟨.want gs, none⟩
      have e0 : lockHold (⟨.want gs, none⟩ : CThr w (LockSt δ)) = 0 := by cases gs <;> rfl
      rw [e0] at this
      simp only [hold_want_none, hold_want_some, hold_load, hold_store, hold_leave_none, hold_leave_some] at this
      rw [show ((actThread (lockAct unlock) s.value s.data ⟨.leave gs, some x⟩).2.2) = ⟨.want gs, none⟩ from rfl,
        Nat.add_right_cancel this]
      exact hval

theorem LockInv.run {unlock : AOp w} (hu : unlock = .cas 1 0 ∨ unlock = .dec) (hw : 0 < w) {d0 : δ}
    {progs : List (List (δ → δ))} {s : CSys w δ (LockSt δ)} (I : LockInv d0 progs s) (sched : List Nat) :
    LockInv d0 progs (actRun (lockAct unlock) s sched) :=
  actRun_inv (fun _ _ _ h hi => h.step hu hw hi) sched I

/-- An upper bound for the steps of a thread that has or gets the lock. -/
def lockWeight : CThr w (LockSt δ) → Nat
  | ⟨.want [], _⟩ => 0
  | ⟨.want (_ :: gs), none⟩ => 7 * gs.length + 6
  | ⟨.want (_ :: gs), some x⟩ => if x = 0 then 7 * gs.length + 5 else 7 * gs.length + 7
  | ⟨.load _ gs, _⟩ => 7 * gs.length + 4
  | ⟨.store _ gs _, _⟩ => 7 * gs.length + 3
  | ⟨.leave gs, none⟩ => 7 * gs.length + 2
  | ⟨.leave gs, some _⟩ => 7 * gs.length + 1

theorem lock_lighter {unlock : AOp w} {v : BitVec w} {d : δ} {t : CThr w (LockSt δ)}
    (h : 0 < lockHold t ∨ (v = 0 ∧ lockHold t = 0 ∧ t.st.finished = false)) :
    lockWeight (actThread (lockAct unlock) v d t).2.2 < lockWeight t := by
  obtain ⟨st, reg⟩ := t
  cases st with
  | want gs =>
    cases gs with
    | nil => rcases h with h | ⟨_, _, h⟩ <;> cases h
    | cons g gs =>
      cases reg with
      | none =>
        rcases h with h | ⟨hv, _, _⟩
        · cases h
        · subst hv
          simp [actThread, lockAct, rmw, lockWeight]
      | some x =>
        by_cases hx : x = 0
        · subst hx
          rw [lock_succeeds]
          simp [lockWeight]
        · rw [lock_fails hx]
          simp only [lockWeight, if_neg hx]
          omega
  | load g gs => simp [actThread, lockAct, lockWeight]
  | store g gs x => simp [actThread, lockAct, lockWeight]
  | leave gs =>
    cases reg with
    | none => simp [actThread, lockAct, lockWeight]
    | some x =>
      cases gs with
      | nil => simp [actThread, lockAct, lockWeight]
      | cons g gs => simp only [actThread, lockAct, lockWeight, List.length_cons]; omega

theorem lock_progress {unlock : AOp w} (hu : unlock = .cas 1 0 ∨ unlock = .dec) (hw : 0 < w) {d0 : δ}
    {progs : List (List (δ → δ))} (n : Nat) : ∀ {s : CSys w δ (LockSt δ)}, LockInv d0 progs s →
    (s.thr.map lockWeight).sum ≤ n →
    ∃ more : List Nat, more.length ≤ n ∧ ∀ t ∈ (actRun (lockAct unlock) s more).thr, t.st.finished = true := by
  induction n with
  | zero =>
    intro s I h
    refine ⟨[], Nat.le_refl _, fun t ht => ?_⟩
    obtain ⟨i, hi⟩ := List.getElem?_of_mem ht
    have := le_sum_of_getElem? (lockWeight (w := w) (δ := δ)) hi
    have h0 : lockWeight t = 0 := by
      have h' : (s.thr.map lockWeight).sum ≤ 0 := h
      have : lockWeight t ≤ (s.thr.map lockWeight).sum := this
      omega
    obtain ⟨st, reg⟩ := t
    cases st with
    | want gs =>
      cases gs with
      | nil => rfl
      | cons g gs =>
        cases reg with
        | none => simp [lockWeight] at h0
        | some x =>
          by_cases hx : x = 0
          · simp only [lockWeight, if_pos hx] at h0; omega
          · simp only [lockWeight, if_neg hx] at h0; omega
    | load g gs => simp [lockWeight] at h0
    | store g gs x => simp [lockWeight] at h0
    | leave gs => cases reg <;> simp [lockWeight] at h0
  | succ n ih =>
    intro s I h
    by_cases hd : ∀ t ∈ s.thr, t.st.finished = true
    · exact ⟨[], Nat.zero_le _, hd⟩
    · have key : ∃ (i : Nat) (t : CThr w (LockSt δ)), s.thr[i]? = some t ∧
          (0 < lockHold t ∨ (s.value = 0 ∧ lockHold t = 0 ∧ t.st.finished = false)) := by
        rcases I.val with ⟨h1, h2⟩ | ⟨_, h2⟩
        · simp only [Classical.not_forall, Bool.not_eq_true] at hd
          obtain ⟨t, ht, hf⟩ := hd
          obtain ⟨i, hi⟩ := List.getElem?_of_mem ht
          have := le_sum_of_getElem? (lockHold (w := w) (δ := δ)) hi
          exact ⟨i, t, hi, Or.inr ⟨h1, by omega, hf⟩⟩
        · obtain ⟨i, t, hi, ht⟩ := sum_pos_getElem? (lockHold (w := w) (δ := δ)) (l := s.thr) (by omega)
          exact ⟨i, t, hi, Or.inl ht⟩
      obtain ⟨i, t, hi, hk⟩ := key
      have hlt := lock_lighter (unlock := unlock) (d := s.data) hk
      have hs := sum_set (lockWeight (w := w) (δ := δ)) (actThread (lockAct unlock) s.value s.data t).2.2 hi
      obtain ⟨more, h1, h2⟩ := ih (I.step hu hw hi) (by rw [actStep_some hi]; simp only; omega)
      exact ⟨i :: more, by simp only [List.length_cons]; omega, h2⟩

/-! ## Updates by compare-exchange -/

/-- The functions of a thread that have not taken effect. -/
def updLeft (t : CThr w (UpdSt w)) : List (BitVec w → BitVec w) :=
  match t.st.fs, t.reg with
  | [], _ => []
  | f :: fs, none => f :: fs
  | f :: fs, some x => if x = t.st.old then fs else f :: fs

/-- The value that a thread expects, after the call in progress. -/
def updKnown (t : CThr w (UpdSt w)) : BitVec w :=
  match t.st.fs, t.reg with
  | [], _ => t.st.old
  | _ :: _, none => t.st.old
  | f :: _, some x => if x = t.st.old then f t.st.old else x

/-- The thread expects another value than the current one: 1 or 0. -/
def updStale (v : BitVec w) (t : CThr w (UpdSt w)) : Nat := if updKnown t = v then 0 else 1

/-- A call is in progress: 1 or 0. -/
def updPending (t : CThr w (UpdSt w)) : Nat := if t.reg.isSome then 1 else 0

structure UpdInv (v0 : BitVec w) (progs : List (List (BitVec w → BitVec w))) (cnt : Nat → Nat)
    (s : CSys w Unit (UpdSt w)) : Prop where
  len : s.thr.length = progs.length
  log : ∃ log : List (Nat × (BitVec w → BitVec w)), s.value = log.foldl (fun v p => p.2 v) v0 ∧
    log.length + (s.thr.map fun t => (updLeft t).length).sum = (progs.map List.length).sum ∧
    ∀ (i : Nat) (t : CThr w (UpdSt w)), s.thr[i]? = some t →
      progs[i]? = some (entriesOf log i ++ updLeft t) ∧ ∃ fails : Nat,
        fails + updStale s.value t + (entriesOf log i).length ≤ 1 + log.length ∧
        (t.st.fs ≠ [] → cnt i + updPending t = 2 * ((entriesOf log i).length + fails))

theorem UpdInv.start (v0 : BitVec w) (progs : List (List (BitVec w → BitVec w))) (guess : BitVec w) :
    UpdInv v0 progs (fun _ => 0) (actStart v0 () (progs.map fun p => ⟨p, guess⟩)) := by
  refine ⟨by simp [actStart], [], rfl, ?_, ?_⟩
  · have : ∀ ps : List (List (BitVec w → BitVec w)),
        (((ps.map fun p => (⟨p, guess⟩ : UpdSt w)).map fun x => (⟨x, none⟩ : CThr w (UpdSt w))).map
          fun t => (updLeft t).length).sum = (ps.map List.length).sum := by
      intro ps
      induction ps with
      | nil => rfl
      | cons p ps ih =>
        rw [List.map_cons, List.map_cons, List.map_cons, List.sum_cons, ih, List.map_cons, List.sum_cons]
        congr 1
        cases p <;> rfl
    show 0 + _ = _
    rw [Nat.zero_add]
    exact this progs
  · intro i t h
    obtain ⟨h, hr⟩ := start_getElem? h
    rw [List.getElem?_map, Option.map_eq_some_iff] at h
    obtain ⟨p, hp, e⟩ := h
    obtain ⟨st, reg⟩ := t
    simp only at e hr
    subst e hr
    refine ⟨?_, 0, ?_, ?_⟩
    · rw [hp]
      cases p <;> rfl
    · show 0 + updStale _ _ + 0 ≤ 1
      unfold updStale
      split <;> omega
    · intro _; rfl

theorem entriesOf_length_snoc (log : List (Nat × β)) (i j : Nat) (x : β) :
    (entriesOf (log ++ [(i, x)]) j).length = (entriesOf log j).length + if i = j then 1 else 0 := by
  rw [entriesOf_snoc]
  split <;> simp

theorem updStale_le (v : BitVec w) (t : CThr w (UpdSt w)) : updStale v t ≤ 1 := by
  unfold updStale; split <;> omega

theorem upd_intrinsic {v old : BitVec w} {f : BitVec w → BitVec w} {fs : List (BitVec w → BitVec w)} :
    actThread updAct v () ⟨⟨f :: fs, old⟩, none⟩ =
      (if v = old then f old else v, (), ⟨⟨f :: fs, old⟩, some v⟩) := rfl

theorem upd_returns {v old x : BitVec w} {f : BitVec w → BitVec w} {fs : List (BitVec w → BitVec w)} :
    actThread updAct v () ⟨⟨f :: fs, old⟩, some x⟩ =
      (v, (), ⟨if x = old then ⟨fs, f old⟩ else ⟨f :: fs, x⟩, none⟩) := rfl

theorem UpdInv.step {v0 : BitVec w} {progs : List (List (BitVec w → BitVec w))} {cnt : Nat → Nat}
    {s : CSys w Unit (UpdSt w)} (I : UpdInv v0 progs cnt s) (i : Nat) :
    UpdInv v0 progs (fun j => cnt j + if i = j then 1 else 0) (actStep updAct s i) := by
  cases hi : s.thr[i]? with
  | none =>
    rw [actStep_none hi]
    obtain ⟨log, h1, h2, h3⟩ := I.log
    refine ⟨I.len, log, h1, h2, fun j t hj => ?_⟩
    have hne : i ≠ j := by intro e; subst e; rw [hi] at hj; cases hj
    simpa [hne] using h3 j t hj
  | some t =>
    rw [actStep_some hi]
    obtain ⟨log, h1, h2, h3⟩ := I.log
    obtain ⟨hp, fails, hf, hc⟩ := h3 i t hi
    have hsum := fun b => sum_set (fun t => (updLeft (w := w) t).length) b hi
    obtain ⟨⟨fs, old⟩, reg⟩ := t
    cases fs with
    | nil =>
      refine ⟨by simpa using I.len, log, h1, ?_, ?_⟩
      · have := hsum ⟨⟨[], old⟩, reg⟩
        show log.length + ((s.thr.set i ⟨⟨[], old⟩, reg⟩).map _).sum = _
        rw [Nat.add_right_cancel this]
        exact h2
      · intro j u hu
        rcases set_getElem?_cases hi hu with ⟨rfl, rfl⟩ | ⟨hj, hu⟩
        · exact ⟨hp, fails, hf, fun h => absurd rfl h⟩
        · have hne : ¬ i = j := fun h => hj h.symm
          obtain ⟨hp', fails', hf', hc'⟩ := h3 j u hu
          refine ⟨hp', fails', hf', fun h => ?_⟩
          show cnt j + (if i = j then 1 else 0) + _ = _
          rw [if_neg hne]
          exact hc' h
    | cons f fs =>
      have hc := hc (by simp)
      cases reg with
      | none =>
        rw [show s.data = () from rfl, upd_intrinsic]
        by_cases hv : s.value = old
        · -- success
          rw [if_pos hv]
          refine ⟨by simpa using I.len, log ++ [(i, f)], ?_, ?_, ?_⟩
          · rw [List.foldl_append, ← h1, hv]; rfl
          · have := hsum ⟨⟨f :: fs, old⟩, some s.value⟩
            simp only [updLeft, if_pos hv, List.length_cons] at this
            rw [List.length_append]
            show log.length + 1 + ((s.thr.set i ⟨⟨f :: fs, old⟩, some s.value⟩).map _).sum = _
            simp only [updLeft] at h2 ⊢
            omega
          · intro j u hu
            rcases set_getElem?_cases hi hu with ⟨rfl, rfl⟩ | ⟨hj, hu⟩
            · refine ⟨?_, fails, ?_, ?_⟩
              · rw [hp, entriesOf_snoc, if_pos rfl]
                simp [updLeft, hv]
              · have e0 : updStale (f old) (⟨⟨f :: fs, old⟩, some s.value⟩ : CThr w (UpdSt w)) = 0 := by
                  simp [updStale, updKnown, hv]
                show fails + updStale (f old) _ + _ ≤ _
                rw [e0, entriesOf_length_snoc, if_pos rfl, List.length_append, List.length_singleton]
                omega
              · intro _
                show cnt j + (if j = j then 1 else 0) + 1 = _
                rw [entriesOf_length_snoc, if_pos rfl]
                have : updPending (⟨⟨f :: fs, old⟩, none⟩ : CThr w (UpdSt w)) = 0 := rfl
                omega
            · obtain ⟨hp', fails', hf', hc'⟩ := h3 j u hu
              have hne : ¬ i = j := fun h => hj h.symm
              refine ⟨?_, fails', ?_, ?_⟩
              · rw [hp', entriesOf_snoc, if_neg hne]
              · have := updStale_le (f old) u
                show fails' + updStale (f old) u + _ ≤ _
                rw [entriesOf_length_snoc, if_neg hne, List.length_append, List.length_singleton]
                omega
              · intro h
                show cnt j + (if i = j then 1 else 0) + _ = _
                rw [entriesOf_length_snoc, if_neg hne]
                exact hc' h
        · -- failure
          rw [if_neg hv]
          refine ⟨by simpa using I.len, log, h1, ?_, ?_⟩
          · have := hsum ⟨⟨f :: fs, old⟩, some s.value⟩
            simp only [updLeft, if_neg hv, List.length_cons] at this
            show log.length + ((s.thr.set i ⟨⟨f :: fs, old⟩, some s.value⟩).map _).sum = _
            simp only [updLeft] at h2 ⊢
            omega
          · intro j u hu
            rcases set_getElem?_cases hi hu with ⟨rfl, rfl⟩ | ⟨hj, hu⟩
            · refine ⟨?_, fails + 1, ?_, ?_⟩
              · rw [hp]
                simp [updLeft, hv]
              · have e0 : updStale s.value (⟨⟨f :: fs, old⟩, some s.value⟩ : CThr w (UpdSt w)) = 0 := by
                  simp [updStale, updKnown, hv]
                have e1 : updStale s.value (⟨⟨f :: fs, old⟩, none⟩ : CThr w (UpdSt w)) = 1 := by
                  have : ¬ old = s.value := fun h => hv h.symm
                  simp [updStale, updKnown, this]
                show fails + 1 + updStale s.value _ + _ ≤ _
                rw [e0]
                omega
              · intro _
                show cnt j + (if j = j then 1 else 0) + 1 = _
                rw [if_pos rfl]
                have : updPending (⟨⟨f :: fs, old⟩, none⟩ : CThr w (UpdSt w)) = 0 := rfl
                omega
            · have hne : ¬ i = j := fun h => hj h.symm
              simpa [hne] using h3 j u hu
      | some x =>
        rw [show s.data = () from rfl, upd_returns]
        have hpend : updPending (⟨⟨f :: fs, old⟩, some x⟩ : CThr w (UpdSt w)) = 1 := rfl
        -- what is left and what is known do not change
        have key : ∀ t' : CThr w (UpdSt w), t' = ⟨if x = old then ⟨fs, f old⟩ else ⟨f :: fs, x⟩, none⟩ →
            updLeft t' = updLeft ⟨⟨f :: fs, old⟩, some x⟩ ∧ updKnown t' = updKnown ⟨⟨f :: fs, old⟩, some x⟩ ∧
            updPending t' = 0 := by
          intro t' e
          by_cases hx : x = old
          · rw [if_pos hx] at e
            subst e
            refine ⟨?_, ?_, rfl⟩
            · simp only [updLeft, if_pos hx]
              cases fs <;> rfl
            · simp only [updKnown, if_pos hx]
              cases fs <;> rfl
          · rw [if_neg hx] at e
            subst e
            exact ⟨by simp only [updLeft, if_neg hx], by simp only [updKnown, if_neg hx], rfl⟩
        generalize ht' : (⟨if x = old then ⟨fs, f old⟩ else ⟨f :: fs, x⟩, none⟩ : CThr w (UpdSt w)) = t'
        obtain ⟨k1, k2, k3⟩ := key t' ht'.symm
        refine ⟨by simpa using I.len, log, h1, ?_, ?_⟩
        · have := hsum t'
          simp only [k1] at this
          show log.length + ((s.thr.set i t').map _).sum = _
          rw [Nat.add_right_cancel this]
          exact h2
        · intro j u hu
          rcases set_getElem?_cases hi hu with ⟨rfl, rfl⟩ | ⟨hj, hu⟩
          · refine ⟨by rw [k1]; exact hp, fails, ?_, ?_⟩
            · show fails + updStale s.value u + _ ≤ _
              have e : updStale s.value u = updStale s.value ⟨⟨f :: fs, old⟩, some x⟩ := by
                unfold updStale; rw [k2]
              rw [e]
              exact hf
            · intro _
              show cnt j + (if j = j then 1 else 0) + _ = _
              rw [if_pos rfl, k3]
              omega
          · have hne : ¬ i = j := fun h => hj h.symm
            simpa [hne] using h3 j u hu

theorem UpdInv.run (sched : List Nat) : ∀ {v0 : BitVec w} {progs : List (List (BitVec w → BitVec w))}
    {cnt : Nat → Nat} {s : CSys w Unit (UpdSt w)}, UpdInv v0 progs cnt s →
    UpdInv v0 progs (fun j => cnt j + sched.count j) (actRun updAct s sched) := by
  induction sched with
  | nil => intro v0 progs cnt s I; exact I
  | cons i is ih =>
    intro v0 progs cnt s I
    have := ih (I.step i)
    have e : (fun j => cnt j + (if i = j then 1 else 0) + is.count j) = fun j => cnt j + (i :: is).count j := by
      funext j
      rw [List.count_cons]
      by_cases h : i = j <;> simp [h] <;> omega
    rw [e] at this
    exact this

/-! ## Reference counts -/

/-- The references of an owner, after the call in progress. -/
def refOwned : CThr w RefSt → Nat
  | ⟨⟨h, .clone :: _, false⟩, some _⟩ => h + 1
  | ⟨⟨h, .drop :: _, false⟩, some _⟩ => h - 1
  | ⟨⟨h, _, _⟩, _⟩ => h

/-- The references of an owner, and those that it will take. -/
def refDemand : CThr w RefSt → Nat
  | ⟨⟨h, .drop :: cs, false⟩, some _⟩ => h - 1 + cs.count .clone
  | ⟨⟨h, cs, _⟩, _⟩ => h + cs.count .clone

/-- The owner is going to destroy the object: 1 or 0. -/
def refPending : CThr w RefSt → Nat
  | ⟨⟨_, _, true⟩, _⟩ => 1
  | ⟨⟨_, .drop :: _, false⟩, some x⟩ => if x = 0 then 1 else 0
  | _ => 0

structure RefInv (n total : Nat) (s : CSys w RefObj RefSt) : Prop where
  val : (s.thr.map refOwned).sum = s.value.toNat
  demand : (s.thr.map refDemand).sum ≤ n
  left : (s.thr.map fun t => refsLeft t.st.held t.st.cmds).sum = total
  proper : ∀ t ∈ s.thr, properRefs t.st.held t.st.cmds
  once : (s.thr.map refPending).sum + s.data.destroyed = if s.value = 0 then 1 else 0
  used : s.data.usedAfter = false

theorem toNat_pos_iff (v : BitVec w) : v ≠ 0 ↔ 0 < v.toNat := by
  constructor
  · intro h
    rcases Nat.eq_zero_or_pos v.toNat with h0 | h0
    · exact absurd (BitVec.eq_of_toNat_eq (by simpa using h0)) h
    · exact h0
  · intro h e
    subst e
    simp at h

theorem refDemand_eq (t : CThr w RefSt) : refOwned t ≤ refDemand t := by
  obtain ⟨⟨h, cs, d⟩, reg⟩ := t
  cases d <;> cases reg <;> cases cs with
  | nil => simp [refOwned, refDemand]
  | cons c cs => cases c <;> simp [refOwned, refDemand]

theorem refOwned_none (st : RefSt) : refOwned (⟨st, none⟩ : CThr w RefSt) = st.held := by
  obtain ⟨h, cs, d⟩ := st
  cases d <;> cases cs with
  | nil => rfl
  | cons c cs => cases c <;> rfl

theorem refDemand_none (st : RefSt) : refDemand (⟨st, none⟩ : CThr w RefSt) = st.held + st.cmds.count .clone := by
  obtain ⟨h, cs, d⟩ := st
  cases d <;> cases cs with
  | nil => rfl
  | cons c cs => cases c <;> rfl

theorem refPending_none (st : RefSt) :
    refPending (⟨st, none⟩ : CThr w RefSt) = if st.destroying then 1 else 0 := by
  obtain ⟨h, cs, d⟩ := st
  cases d <;> cases cs with
  | nil => rfl
  | cons c cs => cases c <;> rfl

theorem sum_map_le {f g : β → Nat} {l : List β} (h : ∀ x ∈ l, f x ≤ g x) : (l.map f).sum ≤ (l.map g).sum := by
  induction l with
  | nil => exact Nat.le_refl _
  | cons x l ih =>
    have h1 := h x (by simp)
    have h2 := ih fun y hy => h y (by simp [hy])
    simp only [List.map_cons, List.sum_cons]
    omega

theorem sum_map_zero {f : β → Nat} {l : List β} (h : ∀ x ∈ l, f x = 0) : (l.map f).sum = 0 := by
  induction l with
  | nil => rfl
  | cons x l ih =>
    rw [List.map_cons, List.sum_cons, h x (by simp), ih fun y hy => h y (by simp [hy])]

theorem sum_eq_zero {f : β → Nat} {l : List β} (h : (l.map f).sum = 0) : ∀ x ∈ l, f x = 0 := by
  intro x hx
  obtain ⟨i, hi⟩ := List.getElem?_of_mem hx
  have := le_sum_of_getElem? f hi
  omega

theorem RefInv.change {n total : Nat} {s : CSys w RefObj RefSt} (I : RefInv n total s) {i : Nat} {t t' : CThr w RefSt}
    (hi : s.thr[i]? = some t) {v' : BitVec w} {o' : RefObj}
    (h1 : refOwned t' + s.value.toNat = refOwned t + v'.toNat) (h2 : refDemand t' ≤ refDemand t)
    (h3 : refsLeft t'.st.held t'.st.cmds = refsLeft t.st.held t.st.cmds)
    (h4 : properRefs t'.st.held t'.st.cmds)
    (h5 : refPending t' + o'.destroyed + (if s.value = 0 then 1 else 0) =
      refPending t + s.data.destroyed + if v' = 0 then 1 else 0)
    (h6 : o'.usedAfter = false) : RefInv n total ⟨v', o', s.thr.set i t'⟩ := by
  have a1 := sum_set (refOwned (w := w)) t' hi
  have a2 := sum_set (refDemand (w := w)) t' hi
  have a3 := sum_set (refPending (w := w)) t' hi
  have a4 := sum_set (fun t : CThr w RefSt => refsLeft t.st.held t.st.cmds) t' hi
  have b1 := I.val
  have b2 := I.demand
  have b3 := I.once
  have b4 := I.left
  refine ⟨?_, ?_, ?_, ?_, ?_, h6⟩
  · show ((s.thr.set i t').map refOwned).sum = v'.toNat
    omega
  · show ((s.thr.set i t').map refDemand).sum ≤ n
    omega
  · show ((s.thr.set i t').map fun t => refsLeft t.st.held t.st.cmds).sum = total
    simp only [h3] at a4
    rw [Nat.add_right_cancel a4]
    exact b4
  · intro u hu
    rcases mem_set_cases hu with rfl | hu
    · exact h4
    · exact I.proper u hu
  · show ((s.thr.set i t').map refPending).sum + o'.destroyed = if v' = 0 then 1 else 0
    omega

theorem RefInv.value_pos {n total : Nat} {s : CSys w RefObj RefSt} (I : RefInv n total s) {i : Nat}
    {t : CThr w RefSt} (hi : s.thr[i]? = some t) (h : 0 < refOwned t) :
    s.value ≠ 0 ∧ s.data.destroyed = 0 := by
  have hle := le_sum_of_getElem? (refOwned (w := w)) hi
  have hval := I.val
  have hv : s.value ≠ 0 := (toNat_pos_iff _).2 (by omega)
  have honce := I.once
  rw [if_neg hv] at honce
  exact ⟨hv, by omega⟩

theorem toNat_one (h : 1 < 2 ^ w) : (1 : BitVec w).toNat = 1 := by
  show (BitVec.ofNat w 1).toNat = 1
  rw [BitVec.toNat_ofNat, Nat.mod_eq_of_lt h]

theorem RefInv.step {n total : Nat} (hn : n < 2 ^ w) {s : CSys w RefObj RefSt} (I : RefInv n total s) {i : Nat}
    {t : CThr w RefSt} (hi : s.thr[i]? = some t) : RefInv n total (actStep refAct s i) := by
  rw [actStep_some hi]
  have hpl := le_sum_of_getElem? (refPending (w := w)) hi
  have hprop := I.proper t (List.mem_of_getElem? hi)
  have honce := I.once
  obtain ⟨⟨h, cs, d⟩, reg⟩ := t
  cases d with
  | true =>
    have e : actThread refAct s.value s.data ⟨⟨h, cs, true⟩, reg⟩ =
        (s.value, ⟨s.data.destroyed + 1, s.data.usedAfter⟩, ⟨⟨h, cs, false⟩, none⟩) := rfl
    have hp1 : refPending (⟨⟨h, cs, true⟩, reg⟩ : CThr w RefSt) = 1 := by cases reg <;> rfl
    have e1 : refOwned (⟨⟨h, cs, true⟩, reg⟩ : CThr w RefSt) = h := by
      cases reg <;> cases cs with
      | nil => rfl
      | cons c cs => cases c <;> rfl
    have e2 : refDemand (⟨⟨h, cs, true⟩, reg⟩ : CThr w RefSt) = h + cs.count .clone := by
      cases reg <;> cases cs with
      | nil => rfl
      | cons c cs => cases c <;> rfl
    rw [e]
    refine I.change hi ?_ ?_ rfl hprop ?_ I.used
    · rw [refOwned_none, e1]
    · rw [refDemand_none, e2]; exact Nat.le_refl _
    · rw [refPending_none, hp1]
      simp only [Bool.false_eq_true, if_false]
      omega
  | false =>
    cases cs with
    | nil => exact I.change hi rfl (Nat.le_refl _) rfl hprop rfl I.used
    | cons c cs =>
      have hpos : 0 < h := by cases c <;> exact hprop.1
      cases c with
      | use =>
        have ho : refOwned (⟨⟨h, .use :: cs, false⟩, reg⟩ : CThr w RefSt) = h := by cases reg <;> rfl
        obtain ⟨_, hd0⟩ := I.value_pos hi (by rw [ho]; exact hpos)
        have e : actThread refAct s.value s.data ⟨⟨h, .use :: cs, false⟩, reg⟩ =
            (s.value, ⟨s.data.destroyed, s.data.usedAfter || decide (s.data.destroyed ≠ 0)⟩,
              ⟨⟨h, cs, false⟩, none⟩) := rfl
        rw [e]
        refine I.change hi ?_ ?_ rfl hprop.2 ?_ ?_
        · rw [refOwned_none, ho]
        · rw [refDemand_none]
          cases reg <;> exact Nat.le_refl _
        · rw [refPending_none]
          cases reg <;> rfl
        · rw [I.used, hd0]; rfl
      | clone =>
        cases reg with
        | none =>
          have e : actThread refAct s.value s.data ⟨⟨h, .clone :: cs, false⟩, none⟩ =
              (s.value + 1, s.data, ⟨⟨h, .clone :: cs, false⟩, some s.value⟩) := rfl
          have o1 : refOwned (⟨⟨h, .clone :: cs, false⟩, some s.value⟩ : CThr w RefSt) = h + 1 := rfl
          have o2 : refOwned (⟨⟨h, .clone :: cs, false⟩, none⟩ : CThr w RefSt) = h := rfl
          obtain ⟨hv, _⟩ := I.value_pos hi (by rw [o2]; exact hpos)
          -- the demand leaves room for another reference
          have hroom : s.value.toNat + 1 ≤ n := by
            have b1 : ((s.thr.set i ⟨⟨h, .clone :: cs, false⟩, some s.value⟩).map refOwned).sum ≤
                ((s.thr.set i ⟨⟨h, .clone :: cs, false⟩, some s.value⟩).map refDemand).sum :=
              sum_map_le fun x _ => refDemand_eq x
            have a1 := sum_set (refOwned (w := w)) ⟨⟨h, .clone :: cs, false⟩, some s.value⟩ hi
            have a2 := sum_set (refDemand (w := w)) ⟨⟨h, .clone :: cs, false⟩, some s.value⟩ hi
            have d1 : refDemand (⟨⟨h, .clone :: cs, false⟩, some s.value⟩ : CThr w RefSt) =
              refDemand (⟨⟨h, .clone :: cs, false⟩, none⟩ : CThr w RefSt) := rfl
            have b2 := I.demand
            have b3 := I.val
            omega
          have hnew : (s.value + 1).toNat = s.value.toNat + 1 := by
            rw [BitVec.toNat_add, toNat_one (by omega), Nat.mod_eq_of_lt (by omega)]
          have hv' : s.value + 1 ≠ 0 := (toNat_pos_iff _).2 (by omega)
          rw [e]
          refine I.change hi ?_ (Nat.le_refl _) rfl hprop ?_ I.used
          · rw [o1, o2, hnew]; omega
          · rw [if_neg hv, if_neg hv']; rfl
        | some x =>
          have e : actThread refAct s.value s.data ⟨⟨h, .clone :: cs, false⟩, some x⟩ =
              (s.value, s.data, ⟨⟨h + 1, cs, false⟩, none⟩) := rfl
          rw [e]
          refine I.change hi ?_ ?_ ?_ hprop.2 ?_ I.used
          · rw [refOwned_none]; rfl
          · rw [refDemand_none]
            simp only [refDemand, List.count_cons_self]
            omega
          · simp only [refsLeft, List.count_cons_self]
            rw [List.count_cons_of_ne (by decide)]
            omega
          · rw [refPending_none]; rfl
      | drop =>
        cases reg with
        | none =>
          have e : actThread refAct s.value s.data ⟨⟨h, .drop :: cs, false⟩, none⟩ =
              (s.value - 1, s.data, ⟨⟨h, .drop :: cs, false⟩, some (s.value - 1)⟩) := rfl
          have o1 : refOwned (⟨⟨h, .drop :: cs, false⟩, some (s.value - 1)⟩ : CThr w RefSt) = h - 1 := rfl
          have o2 : refOwned (⟨⟨h, .drop :: cs, false⟩, none⟩ : CThr w RefSt) = h := rfl
          obtain ⟨hv, _⟩ := I.value_pos hi (by rw [o2]; exact hpos)
          have hvpos := (toNat_pos_iff _).1 hv
          have hnew : (s.value - 1).toNat = s.value.toNat - 1 := by
            have hb := s.value.isLt
            rw [BitVec.toNat_sub, toNat_one (by omega)]
            rw [show 2 ^ w - 1 + s.value.toNat = (s.value.toNat - 1) + 2 ^ w by omega, Nat.add_mod_right,
              Nat.mod_eq_of_lt (by omega)]
          rw [e]
          refine I.change hi ?_ ?_ rfl hprop ?_ I.used
          · rw [o1, o2, hnew]; omega
          · rw [refDemand_none]
            simp only [refDemand]
            rw [List.count_cons_of_ne (by decide)]
            omega
          · rw [if_neg hv]
            simp only [refPending]
            omega
        | some x =>
          have e : actThread refAct s.value s.data ⟨⟨h, .drop :: cs, false⟩, some x⟩ =
              (s.value, s.data, ⟨⟨h - 1, cs, x == 0⟩, none⟩) := rfl
          rw [e]
          refine I.change hi ?_ ?_ ?_ hprop.2 ?_ I.used
          · rw [refOwned_none]; rfl
          · rw [refDemand_none]; exact Nat.le_refl _
          · simp only [refsLeft, List.count_cons_self]
            rw [List.count_cons_of_ne (by decide)]
            omega
          · rw [refPending_none]
            simp only [refPending, beq_iff_eq]

theorem RefInv.start {owners : List (Nat × List RefCmd)} (hp : ∀ o ∈ owners, properRefs o.1 o.2) {v : BitVec w}
    (hv : v.toNat = (owners.map (·.1)).sum) (h0 : v ≠ 0) :
    RefInv ((owners.map fun o => o.1 + o.2.count .clone).sum) ((owners.map fun o => refsLeft o.1 o.2).sum)
      (actStart v ⟨0, false⟩ (owners.map fun o => ⟨o.1, o.2, false⟩)) := by
  have key : ∀ (f : CThr w RefSt → Nat) (g : Nat × List RefCmd → Nat),
      (∀ o, f ⟨⟨o.1, o.2, false⟩, none⟩ = g o) → ∀ os : List (Nat × List RefCmd),
      (((os.map fun o => (⟨o.1, o.2, false⟩ : RefSt)).map fun x => (⟨x, none⟩ : CThr w RefSt)).map f).sum =
        (os.map g).sum := by
    intro f g hfg os
    induction os with
    | nil => rfl
    | cons o os ih =>
      rw [List.map_cons, List.map_cons, List.map_cons, List.sum_cons, ih, hfg, List.map_cons, List.sum_cons]
  refine ⟨?_, ?_, ?_, ?_, ?_, rfl⟩
  · exact (key refOwned (·.1) (fun o => refOwned_none _) owners).trans hv.symm
  · exact Nat.le_of_eq (key refDemand (fun o => o.1 + o.2.count .clone) (fun o => refDemand_none _) owners)
  · exact key (fun t => refsLeft t.st.held t.st.cmds) (fun o => refsLeft o.1 o.2) (fun o => rfl) owners
  · intro t ht
    simp only [actStart, List.map_map, List.mem_map] at ht
    obtain ⟨o, ho, rfl⟩ := ht
    exact hp o ho
  · show _ + 0 = if v = 0 then 1 else 0
    rw [if_neg h0]
    have := key refPending (fun _ => 0) (fun o => refPending_none _) owners
    rw [Nat.add_zero]
    refine this.trans (sum_map_zero fun _ _ => rfl)

end Zy
