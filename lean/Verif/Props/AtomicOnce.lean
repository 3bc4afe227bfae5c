import Verif.Lemmas.AtomicOnce

/-!
# Property theorems: initialisation that happens once (C192)

The program is in `Spec/AtomicOnce`: threads that agree with `ZyanAtomicCompareExchange` on which of them initialises some
data.
-/

namespace Zy

variable {w : Nat} {δ : Type}

/-- **C192**: whatever the schedule, the data is initialised at most once, only one thread at a time is at it, and nobody
reads it before: the data is as it was or initialised once, and what a thread has read is the data initialised once. -/
theorem C192_once (hw : 2 ≤ w) (f : δ → δ) (a : δ) (T : Nat) (sched : List Nat) :
    let s := actRun (onceAct f) (onceStart a T : CSys w δ (OnceSt δ)) sched
    (s.data = a ∨ s.data = f a) ∧
    (∀ (i j : Nat) t u, s.thr[i]? = some t → s.thr[j]? = some u → t.st = .run → u.st = .run → i = j) ∧
    (∀ t ∈ s.thr, t.st = .run → s.data = a) ∧
    (∀ t ∈ s.thr, t.st = .use → s.data = f a) ∧
    (∀ t ∈ s.thr, ∀ x, t.st = .got x → x = f a ∧ s.data = f a) := by
  intro s
  rcases Nat.eq_zero_or_pos T with rfl | hT
  · have : s = onceStart a 0 := by
      have h : ∀ (sched : List Nat), actRun (onceAct f) (onceStart a 0 : CSys w δ (OnceSt δ)) sched = onceStart a 0 := by
        intro sched
        induction sched with
        | nil => rfl
        | cons j sched ih => exact ih
      exact h sched
    rw [this]
    exact ⟨Or.inl rfl, nofun, nofun, nofun, nofun⟩
  · obtain ⟨k, i, hk, hlen, _, h⟩ := once_run hw sched (once_start (w := w) hT f a)
    have key : ∀ {n : OnceSt δ} {r : Option (BitVec w)} {d : δ}, s.data = d → s.thr[i]? = some ⟨n, r⟩ →
        (∀ (j : Nat) u, j ≠ i → s.thr[j]? = some u → Waiting u) → (n = .run → d = a) → n ≠ .use → (∀ x, n ≠ .got x) →
        (∀ (i j : Nat) t u, s.thr[i]? = some t → s.thr[j]? = some u → t.st = .run → u.st = .run → i = j) ∧
        (∀ t ∈ s.thr, t.st = .run → s.data = a) ∧ (∀ t ∈ s.thr, t.st = .use → s.data = f a) ∧
        (∀ t ∈ s.thr, ∀ x, t.st = .got x → x = f a ∧ s.data = f a) := by
      intro n r d hd hi hoth h1 h2 h3
      have hall : ∀ (j : Nat) t, s.thr[j]? = some t → (j = i ∧ t.st = n) ∨ t.st = .ask := by
        intro j t ht
        by_cases hj : j = i
        · subst hj
          rw [hi] at ht
          cases ht
          exact Or.inl ⟨rfl, rfl⟩
        · rcases hoth j t hj ht with rfl | rfl
          · exact Or.inr rfl
          · exact Or.inr rfl
      have hmem : ∀ t ∈ s.thr, t.st = n ∨ t.st = .ask := by
        intro t ht
        obtain ⟨j, hj, rfl⟩ := List.getElem_of_mem ht
        exact (hall j _ (List.getElem?_eq_getElem hj)).imp_left And.right
      refine ⟨fun j m t u ht hu e1 e2 => ?_, fun t ht e => ?_, fun t ht e => ?_, fun t ht x e => ?_⟩
      · rcases hall j t ht with ⟨rfl, _⟩ | h
        · rcases hall m u hu with ⟨rfl, _⟩ | h
          · rfl
          · rw [h] at e2; cases e2
        · rw [h] at e1; cases e1
      · rcases hmem t ht with h | h
        · rw [hd]; exact h1 (h.symm.trans e)
        · rw [h] at e; cases e
      · rcases hmem t ht with h | h
        · exact absurd (h.symm.trans e) h2
        · rw [h] at e; cases e
      · rcases hmem t ht with h | h
        · exact absurd (h.symm.trans e) (h3 x)
        · rw [h] at e; cases e
    match k, h with
    | 0, ⟨_, hd, hall⟩ =>
      refine ⟨Or.inr hd, fun j m t u ht hu e1 _ => ?_, fun t ht e => ?_, fun _ _ _ => hd, fun t ht x e => ⟨?_, hd⟩⟩
      · rcases hall t (List.mem_of_getElem? ht) with rfl | rfl | rfl | rfl | rfl | rfl <;> cases e1
      · rcases hall t ht with rfl | rfl | rfl | rfl | rfl | rfl <;> cases e
      · rcases hall t ht with rfl | rfl | rfl | rfl | rfl | rfl <;> cases e
        rfl
    | 1, ⟨_, hd, hi, hoth⟩ => exact ⟨Or.inr hd, key hd hi hoth nofun nofun nofun⟩
    | 2, ⟨_, hd, hi, hoth⟩ => exact ⟨Or.inl hd, key hd hi hoth (fun _ => rfl) nofun nofun⟩
    | 3, ⟨_, hd, hi, hoth⟩ => exact ⟨Or.inl hd, key hd hi hoth nofun nofun nofun⟩
    | 4, ⟨_, hd, hall⟩ =>
      refine ⟨Or.inl hd, fun j m t u ht hu e1 _ => ?_, fun t ht e => ?_, fun t ht e => ?_, fun t ht x e => ?_⟩
      · rw [hall t (List.mem_of_getElem? ht)] at e1; cases e1
      · rw [hall t ht] at e; cases e
      · rw [hall t ht] at e; cases e
      · rw [hall t ht] at e; cases e

/-- **C192**: nobody waits forever. After eight rounds in which every thread has a step, in any order and with any other
steps in between, all threads have the initialised data. -/
theorem C192_ends (hw : 2 ≤ w) (f : δ → δ) (a : δ) (T : Nat) {rounds : List (List Nat)}
    (hr : ∀ r ∈ rounds, ∀ i, i < T → i ∈ r) (h8 : 8 ≤ rounds.length) :
    ∀ t ∈ (actRun (onceAct f) (onceStart a T : CSys w δ (OnceSt δ)) rounds.flatten).thr, t.st = .got (f a) := by
  rcases Nat.eq_zero_or_pos T with rfl | hT
  · have h : ∀ (sched : List Nat), actRun (onceAct f) (onceStart a 0 : CSys w δ (OnceSt δ)) sched = onceStart a 0 := by
      intro sched
      induction sched with
      | nil => rfl
      | cons j sched ih => exact ih
    rw [h]
    exact nofun
  · intro t ht
    obtain ⟨k, i, hk, h⟩ := once_rounds hw (rounds.take 4) (once_start (w := w) hT f a)
      fun r hm => hr r (List.mem_of_mem_take hm)
    have hk0 : k = 0 := by
      rw [List.length_take] at hk
      omega
    subst hk0
    have hsplit : actRun (onceAct f) (onceStart a T : CSys w δ (OnceSt δ)) rounds.flatten =
        actRun (onceAct f) (actRun (onceAct f) (onceStart a T) (rounds.take 4).flatten) (rounds.drop 4).flatten := by
      rw [← actRun_append, ← List.flatten_append, List.take_append_drop]
    rw [hsplit] at ht
    obtain ⟨_, _, _, hend⟩ := once_run hw (rounds.drop 4).flatten h
    obtain ⟨j, hj, rfl⟩ := List.getElem_of_mem ht
    have hjT : j < T := by rw [← hend.1]; exact hj
    have hj₀ : j < (actRun (onceAct f) (onceStart a T : CSys w δ (OnceSt δ)) (rounds.take 4).flatten).thr.length := by
      rw [h.1]; exact hjT
    obtain ⟨t', g1, g2, g3⟩ := served_run hw (rounds.drop 4).flatten h (List.getElem?_eq_getElem hj₀)
    rw [List.getElem?_eq_getElem hj] at g1
    have hcount := count_rounds hjT (rounds.drop 4) fun r hm => hr r (List.mem_of_mem_drop hm)
    have h4 := servedLeft_le ((actRun (onceAct f) (onceStart a T : CSys w δ (OnceSt δ)) (rounds.take 4).flatten).thr[j])
    rw [List.length_drop] at hcount
    have hz : servedLeft w t' = 0 := by omega
    rw [Option.some.inj g1]
    rcases g2 with rfl | rfl | rfl | rfl | rfl | rfl
    · cases hz
    · have hz : (if (1 : BitVec w) = 2 then 2 else 4) = 0 := hz
      split at hz <;> cases hz
    · have hz : (if (2 : BitVec w) = 2 then 2 else 4) = 0 := hz
      split at hz <;> cases hz
    · cases hz
    · cases hz
    · rfl

/-- **C192**, the rounds are needed: when the thread that began the initialisation has no further step, the others wait
forever, however many steps they have. -/
theorem C192_stuck (hw : 2 ≤ w) (f : δ → δ) (a : δ) {T i : Nat} (hi : i < T) (sched : List Nat) (hs : i ∉ sched) :
    let s := actRun (onceAct f) (onceStart a T : CSys w δ (OnceSt δ)) (i :: sched)
    s.data = a ∧ ∀ t ∈ s.thr, t.st = .ask := by
  intro s
  have hi₀ : (onceStart a T : CSys w δ (OnceSt δ)).thr[i]? = some ⟨.ask, none⟩ := by
    simp [onceStart, actStart, hi]
  have h1 : OnceAt T f a (actStep (onceAct f) (onceStart a T : CSys w δ (OnceSt δ)) i) 3 i := by
    obtain ⟨hl, _, hv, hd, hall⟩ := once_start (w := w) (Nat.zero_lt_of_lt hi) f a
    rw [actStep_some hi₀, ask_begin, hv, if_pos rfl]
    refine ⟨by rw [List.length_set, hl], hi, rfl, hd, List.getElem?_set_self (by omega), fun m u hm hu => ?_⟩
    rcases set_getElem?_cases hi₀ hu with ⟨e, _⟩ | ⟨_, hu⟩
    · exact absurd e hm
    · exact Or.inl (hall u (List.mem_of_getElem? hu))
  obtain ⟨_, _, _, hd, hti, hoth⟩ := once_stuck hw sched h1 hs
  refine ⟨hd, fun t ht => ?_⟩
  obtain ⟨j, hj, rfl⟩ := List.getElem_of_mem ht
  have hj' := List.getElem?_eq_getElem hj
  by_cases hji : j = i
  · subst hji
    have := hj'.symm.trans hti
    rw [Option.some.inj this]
  · rcases hoth j _ hji hj' with e | e
    · rw [e]
    · rw [e]

/-- Three threads, eight rounds in different orders: the initialisation `· + 1` takes place once, everybody reads its
result. -/
example :
    let s := actRun (onceAct (· + 1)) (onceStart 41 3 : CSys 32 Nat (OnceSt Nat))
      [[0, 1, 2], [2, 1, 0], [1, 0, 2], [0, 0, 1, 2], [2, 0, 1], [0, 2, 1], [1, 2, 0], [0, 1, 2]].flatten
    s.data = 42 ∧ ∀ t ∈ s.thr, t.st = .got 42 :=
  ⟨by decide +kernel, C192_ends (by decide) (· + 1) 41 3 (by decide) (by decide)⟩

/-- Thread 1 of two asks twenty times while thread 0 stands still. -/
example : (actRun (onceAct (· + 1)) (onceStart 41 2 : CSys 32 Nat (OnceSt Nat)) (0 :: List.replicate 40 1)).data = 41 :=
  (C192_stuck (by decide) (· + 1) 41 (T := 2) (i := 0) (by decide) (List.replicate 40 1) (by decide)).1

end Zy
