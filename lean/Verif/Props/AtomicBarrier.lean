import Verif.Lemmas.AtomicBarrier
import Verif.Lemmas.AtomicOnce

/-!
# Property theorems: a barrier (C197)

The program is in `Spec/AtomicBarrier`: threads that count their arrival with `ZyanAtomicIncrement` and wait for the others
with `ZyanAtomicCompareExchange`.
-/

namespace Zy

variable {w : Nat} {β : Type}

/-- **C197**: whatever the schedule, as soon as one thread is past the barrier all elements are prepared, each exactly once,
and what a thread has read is the array prepared completely. -/
theorem C197_complete {T : Nat} (hT : T < 2 ^ w) (f : β → β) (a : Nat → β) (sched : List Nat) :
    let s := actRun (barAct T f) (barStart a T : CSys w (Nat → β) (BarSt β)) sched
    (∀ t ∈ s.thr, t.st = .read → ∀ k, s.data k = if k < T then f (a k) else a k) ∧
    (∀ t ∈ s.thr, ∀ x, t.st = .got x → ∀ k, x k = if k < T then f (a k) else a k) := by
  intro s
  have I : BarInv T f a s := barInv_run hT sched (barInv_start T f a)
  refine ⟨fun t ht h k => ?_, fun t ht x hx k => ?_⟩
  · rw [(bar_full hT I (I.passed t ht (Or.inl h))).2]
    rfl
  · rw [I.got t ht x hx]
    rfl

/-- **C197**: nobody waits forever: after six rounds in which every thread has a step, all threads are past the barrier. -/
theorem C197_ends {T : Nat} (hT : T < 2 ^ w) (f : β → β) (a : Nat → β) (rounds : List (List Nat))
    (hfair : ∀ r ∈ rounds, ∀ i, i < T → i ∈ r) (h6 : 6 ≤ rounds.length) :
    ∀ i, i < T → ∃ t, (actRun (barAct T f) (barStart a T : CSys w (Nat → β) (BarSt β)) rounds.flatten).thr[i]? = some t ∧
      t.st = .got fun k => if k < T then f (a k) else a k := by
  intro i hi
  have hsplit : rounds.flatten = (rounds.take 2).flatten ++ (rounds.drop 2).flatten := by
    rw [← List.flatten_append, List.take_append_drop]
  have I₀ : BarInv T f a (barStart a T : CSys w (Nat → β) (BarSt β)) := barInv_start T f a
  have I₁ := barInv_run hT (rounds.take 2).flatten I₀
  have hall : ∀ t ∈ (actRun (barAct T f) (barStart a T : CSys w (Nat → β) (BarSt β)) (rounds.take 2).flatten).thr,
      barLead t = 0 := by
    intro t ht
    obtain ⟨j, hj, rfl⟩ := List.getElem_of_mem ht
    have hjT : j < T := by rw [← I₁.len]; exact hj
    have hj₀ : j < (barStart a T : CSys w (Nat → β) (BarSt β)).thr.length := by rw [I₀.len]; exact hjT
    obtain ⟨t', g1, g2, _⟩ := lead_run T f (rounds.take 2).flatten (List.getElem?_eq_getElem hj₀)
    have hc := count_rounds hjT (rounds.take 2) fun r hr => hfair r (List.mem_of_mem_take hr)
    rw [List.length_take] at hc
    have h2 : barLead (barStart a T : CSys w (Nat → β) (BarSt β)).thr[j] ≤ 2 := by
      unfold barLead
      split <;> omega
    rw [List.getElem?_eq_getElem hj] at g1
    rw [Option.some.inj g1]
    omega
  have hi₁ : i < (actRun (barAct T f) (barStart a T : CSys w (Nat → β) (BarSt β)) (rounds.take 2).flatten).thr.length := by
    rw [I₁.len]; exact hi
  obtain ⟨t, g1, g2⟩ := left_run hT (rounds.drop 2).flatten I₁ hall (List.getElem?_eq_getElem hi₁)
  rw [← actRun_append, ← hsplit] at g1
  have hc := count_rounds hi (rounds.drop 2) fun r hr => hfair r (List.mem_of_mem_drop hr)
  rw [List.length_drop] at hc
  have h4 := barLeft_le T (actRun (barAct T f) (barStart a T : CSys w (Nat → β) (BarSt β)) (rounds.take 2).flatten).thr[i]
  have hz : barLeft T t = 0 := by omega
  refine ⟨t, g1, ?_⟩
  have I := barInv_run hT rounds.flatten I₀
  have hgot := I.got t (List.mem_of_getElem? g1)
  obtain ⟨st, reg⟩ := t
  cases st with
  | work j => cases hz
  | arrive => cases hz
  | wait =>
    cases reg with
    | none => cases hz
    | some x =>
      have : (if x = BitVec.ofNat w T then 2 else 4) = 0 := hz
      split at this <;> cases this
  | read => cases hz
  | got x =>
    have := hgot x rfl
    subst this
    rfl

/-- **C197**: the barrier is closed until the last has arrived: while one thread has had no step, no thread is past it. -/
theorem C197_closed {T : Nat} (hT : T < 2 ^ w) (f : β → β) (a : Nat → β) (sched : List Nat) {i : Nat} (hi : i < T)
    (hs : i ∉ sched) :
    ∀ t ∈ (actRun (barAct T f) (barStart a T : CSys w (Nat → β) (BarSt β)) sched).thr, t.st ≠ .read ∧ ∀ x, t.st ≠ .got x := by
  have I₀ : BarInv T f a (barStart a T : CSys w (Nat → β) (BarSt β)) := barInv_start T f a
  have I := barInv_run hT sched I₀
  have hi₀ : (barStart a T : CSys w (Nat → β) (BarSt β)).thr[i]? = some ⟨.work i, none⟩ := by
    simp [barStart, actStart, hi]
  obtain ⟨t', g1, _, g3⟩ := lead_run T f sched hi₀
  have hno : ∀ t ∈ (actRun (barAct T f) (barStart a T : CSys w (Nat → β) (BarSt β)) sched).thr, ¬ BarPassed T t := by
    intro t ht h
    have := (bar_full hT I (I.passed t ht h)).1 t' (List.mem_of_getElem? g1)
    rw [g3 hs] at this
    cases this
  exact fun t ht => ⟨fun h => hno t ht (Or.inl h), fun x hx => hno t ht (Or.inr (Or.inl ⟨x, hx⟩))⟩

/-- **C197**: the bound on the number of threads is needed: with one thread more than the variable has values, the first
thread to arrive walks through and reads elements that nobody has prepared. -/
theorem C197_too_many (f : β → β) (a : Nat → β) :
    ∃ sched x, ((actRun (barAct (2 ^ w + 1) f) (barStart a (2 ^ w + 1) : CSys w (Nat → β) (BarSt β)) sched).thr[0]?).map
      CThr.st = some (.got x) ∧ x 1 = a 1 := by
  have hT : BitVec.ofNat w (2 ^ w + 1) = 1 := by
    apply BitVec.eq_of_toNat_eq
    show (BitVec.ofNat w (2 ^ w + 1)).toNat = (BitVec.ofNat w 1).toNat
    rw [BitVec.toNat_ofNat, BitVec.toNat_ofNat, Nat.add_mod_left]
  have hstart : ∃ l, (barStart a (2 ^ w + 1) : CSys w (Nat → β) (BarSt β)) = ⟨0, a, ⟨.work 0, none⟩ :: l⟩ :=
    ⟨_, by unfold barStart actStart; rw [List.range_succ_eq_map]; rfl⟩
  obtain ⟨l, hl⟩ := hstart
  refine ⟨[0, 0, 0, 0, 0, 0], fun k => if k = 0 then f (a k) else a k, ?_, rfl⟩
  rw [hl]
  have s1 : actStep (barAct (2 ^ w + 1) f) (⟨0, a, ⟨.work 0, none⟩ :: l⟩ : CSys w (Nat → β) (BarSt β)) 0 =
    ⟨0, fun k => if k = 0 then f (a k) else a k, ⟨.arrive, none⟩ :: l⟩ := rfl
  have s23 : ∀ d : Nat → β, actStep (barAct (2 ^ w + 1) f) (actStep (barAct (2 ^ w + 1) f)
      (⟨0, d, ⟨.arrive, none⟩ :: l⟩ : CSys w (Nat → β) (BarSt β)) 0) 0 = ⟨0 + 1, d, ⟨.wait, none⟩ :: l⟩ := fun _ => rfl
  have s45 : ∀ (v : BitVec w) (d : Nat → β), v = BitVec.ofNat w (2 ^ w + 1) →
      actStep (barAct (2 ^ w + 1) f) (actStep (barAct (2 ^ w + 1) f)
        (⟨v, d, ⟨.wait, none⟩ :: l⟩ : CSys w (Nat → β) (BarSt β)) 0) 0 = ⟨v, d, ⟨.read, none⟩ :: l⟩ := by
    intro v d hv
    show (⟨if v = BitVec.ofNat w (2 ^ w + 1) then BitVec.ofNat w (2 ^ w + 1) else v, d,
      ⟨if v = BitVec.ofNat w (2 ^ w + 1) then .read else .wait, none⟩ :: l⟩ : CSys w (Nat → β) (BarSt β)) = _
    rw [if_pos hv, if_pos hv, hv]
  have s6 : ∀ (v : BitVec w) (d : Nat → β), actStep (barAct (2 ^ w + 1) f)
      (⟨v, d, ⟨.read, none⟩ :: l⟩ : CSys w (Nat → β) (BarSt β)) 0 = ⟨v, d, ⟨.got d, none⟩ :: l⟩ := fun _ _ => rfl
  have hv : (0 + 1 : BitVec w) = BitVec.ofNat w (2 ^ w + 1) := by rw [hT]; simp
  show ((actStep (barAct (2 ^ w + 1) f) (actStep _ (actStep _ (actStep _ (actStep _ (actStep _
    (⟨0, a, ⟨.work 0, none⟩ :: l⟩ : CSys w (Nat → β) (BarSt β)) 0) 0) 0) 0) 0) 0).thr[0]?).map CThr.st = _
  rw [s1, s23, s45 _ _ hv, s6]
  rfl

/-! ## Concrete examples meeting the hypotheses -/

/-- Two threads on a 32-bit variable: the first arrives and looks in vain, the second arrives, and both read both
elements. -/
example : ((actRun (barAct 2 (· + 10)) (barStart (fun k => k) 2 : CSys 32 (Nat → Nat) (BarSt Nat))
      [0, 0, 0, 0, 0, 1, 1, 0, 0, 0, 1, 1, 1, 1]).thr.map fun t => match t.st with
        | .got x => [x 0, x 1, x 2]
        | _ => []) = [[10, 11, 2], [10, 11, 2]] := by decide +kernel

/-- The same when the second thread has no step: the first is still waiting. -/
example : ((actRun (barAct 2 (· + 10)) (barStart (fun k => k) 2 : CSys 32 (Nat → Nat) (BarSt Nat))
      [0, 0, 0, 0, 0, 0, 0, 0, 0, 0]).thr.map fun t => match t.st with
        | .wait => true
        | _ => false) = [true, false] := by decide +kernel

example : (3 : Nat) < 2 ^ 32 ∧ (∀ r ∈ List.replicate 6 [2, 0, 1], ∀ i, i < 3 → i ∈ r) ∧ 1 ∉ [0, 2, 2, 0] := by decide +kernel

end Zy
