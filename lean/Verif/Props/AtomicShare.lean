import Verif.Lemmas.AtomicShare

/-!
# Property theorems: work distributed with an atomic counter (C190)

The program is in `Spec/AtomicShare`: threads that take the next index of an array with `ZyanAtomicIncrement`, and process
the element there without a lock.
-/

namespace Zy

variable {w : Nat} {β : Type}

/-- **C190**: whatever the schedule, no two threads are at the same element, no thread is outside of the array, and an
element is as it was or processed once. A thread that is about to write an element holds the first value of it. -/
theorem C190_apart {n : Nat} (f : β → β) (a : Nat → β) {T : Nat} (hT : n + T < 2 ^ w) (sched : List Nat) :
    let s := actRun (shareAct n f) (shareStart a T : CSys w (Nat → β) (ShareSt β)) sched
    (∀ (i j : Nat) t u, i ≠ j → s.thr[i]? = some t → s.thr[j]? = some u → ∀ k, t.st.at = some k → u.st.at ≠ some k) ∧
    (∀ t ∈ s.thr, ∀ k, t.st.at = some k → k < n ∧ s.data k = a k) ∧
    (∀ t ∈ s.thr, ∀ k x, t.st = .store k x → x = a k) ∧
    (∀ k, s.data k = a k ∨ k < n ∧ s.data k = f (a k)) := by
  intro s
  have I : ShareInv n f a T s := shareInv_run hT sched
  have hat : ∀ (t : CThr w (ShareSt β)) k, t.st.at = some k → holds n t = some k := by
    rintro ⟨st, reg⟩ k h
    cases st with
    | fetch => cases h
    | load i => exact h
    | store i x => exact h
    | done => cases h
  refine ⟨fun i j t u hij ht hu k hk hk' => I.uniq i j t u hij ht hu k (hat t k hk) (hat u k hk'),
    fun t ht k hk => ?_, I.read, fun k => ?_⟩
  · obtain ⟨h1, _, h3⟩ := I.held t ht k (hat t k hk)
    exact ⟨h1, h3⟩
  · by_cases hk : s.value.toNat ≤ k ∨ n ≤ k
    · exact Or.inl (I.rest k hk)
    · by_cases hh : ∃ t ∈ s.thr, holds n t = some k
      · obtain ⟨t, ht, hh⟩ := hh
        exact Or.inl (I.held t ht k hh).2.2
      · exact Or.inr ⟨by omega, I.free k (by omega) (by omega) fun t ht h => hh ⟨t, ht, h⟩⟩

/-- **C190**: when all threads are through, and there was at least one, every element of the array was processed exactly
once, and nothing else was changed. -/
theorem C190_each_once {n : Nat} (f : β → β) (a : Nat → β) {T : Nat} (hT : n + T < 2 ^ w) (h0 : 0 < T)
    (sched : List Nat) :
    let s := actRun (shareAct n f) (shareStart a T : CSys w (Nat → β) (ShareSt β)) sched
    (∀ t ∈ s.thr, t.st.isDone) → ∀ k, s.data k = if k < n then f (a k) else a k := by
  intro s hdone k
  have I : ShareInv n f a T s := shareInv_run hT sched
  have hthr : ∀ t ∈ s.thr, t.st = .done := by
    intro t ht
    have := hdone t ht
    revert this
    cases t.st <;> simp [ShareSt.isDone]
  have hn : n ≤ s.value.toNat := share_all hT sched h0 hthr
  by_cases hk : k < n
  · rw [if_pos hk]
    refine I.free k hk (by omega) fun t ht => ?_
    obtain ⟨st, reg⟩ := t
    have : st = .done := hthr _ ht
    subst this
    exact nofun
  · rw [if_neg hk]
    exact I.rest k (Or.inr (by omega))

/-- **C190**: the threads come to an end under every schedule that gives each of them enough steps; `4 n + 2 T` are
enough. -/
theorem C190_ends {n : Nat} (f : β → β) (a : Nat → β) {T : Nat} (hT : n + T < 2 ^ w) (sched : List Nat)
    (hfair : ∀ i, i < T → 4 * n + 2 * T ≤ sched.count i) :
    ∀ t ∈ (actRun (shareAct n f) (shareStart a T : CSys w (Nat → β) (ShareSt β)) sched).thr, t.st.isDone := by
  intro t ht
  cases hd : t.st.isDone with
  | true => rfl
  | false =>
    exfalso
    have I := shareInv_run (f := f) (a := a) hT sched
    obtain ⟨i, hi, rfl⟩ := List.getElem_of_mem ht
    have hu := List.getElem?_eq_getElem hi
    have hsp := share_spent hT sched (s := shareStart a T) .start hu hd
    rw [I.len] at hi
    have := hfair i hi
    have hst : allLeft n (shareStart a T : CSys w (Nat → β) (ShareSt β)) = 4 * n + 2 * T := by
      have hz : (0 : BitVec w).toNat = 0 := by simp
      show ((((List.replicate T (.fetch : ShareSt β)).map fun st => (⟨st, none⟩ : CThr w (ShareSt β)))).map (stepsLeft n)).sum
        + 4 * (n - (0 : BitVec w).toNat) = _
      rw [List.map_replicate, List.map_replicate, List.sum_replicate_nat, hz]
      show T * 2 + _ = _
      omega
    have hpos := left_pos (n := n) hu hd
    omega

/-- **C190**, the bound: when the counter can wrap around, an element may be processed twice. Here the counter has two
bits, the array three elements; the first thread goes through it and takes the index 3, then the second thread gets the
index 0 again. -/
theorem C190_wrap :
    let s := actRun (shareAct 3 (· + 1)) (shareStart (fun _ => 0) 2 : CSys 2 (Nat → Nat) (ShareSt Nat))
      (List.replicate 14 0 ++ List.replicate 14 1)
    (∀ t ∈ s.thr, t.st.isDone) ∧ s.data 0 = 2 := by
  decide +kernel

/-- Two threads, two elements, one schedule: the hypotheses hold, and each thread does one of the elements. -/
example :
    let s := actRun (shareAct 2 (· * 10)) (shareStart (fun k => k + 1) 2 : CSys 32 (Nat → Nat) (ShareSt Nat))
      [0, 1, 1, 0, 1, 0, 0, 1, 0, 1, 0, 1]
    2 + 2 < 2 ^ 32 ∧ (∀ t ∈ s.thr, t.st.isDone) ∧ (s.data 0, s.data 1, s.data 2) = (10, 20, 3) := by
  decide +kernel

end Zy
