import Verif.Spec.AtomicBarrier
import Verif.Lemmas.AtomicClients

/-!
# Lemmas: a barrier
-/

namespace Zy

variable {w : Nat} {β : Type}

/-- How many steps a thread needs to arrive. -/
def barLead : CThr w (BarSt β) → Nat
  | ⟨.work _, _⟩ => 2
  | ⟨.arrive, none⟩ => 1
  | _ => 0

/-- 1 if the thread has arrived. -/
def barPast (t : CThr w (BarSt β)) : Nat := if barLead t = 0 then 1 else 0

/-- The thread has seen that all have arrived. -/
def BarPassed (T : Nat) (t : CThr w (BarSt β)) : Prop :=
  t.st = .read ∨ (∃ x, t.st = .got x) ∨ (t.st = .wait ∧ t.reg = some (BitVec.ofNat w T))

/-- The array after all threads have prepared their elements. -/
def barDone (T : Nat) (f : β → β) (a : Nat → β) : Nat → β := fun k => if k < T then f (a k) else a k

/-- The invariant. -/
structure BarInv (T : Nat) (f : β → β) (a : Nat → β) (s : CSys w (Nat → β) (BarSt β)) : Prop where
  len : s.thr.length = T
  cnt : s.value.toNat = (s.thr.map barPast).sum
  mine : ∀ (i : Nat) t, s.thr[i]? = some t → ∀ j, t.st = .work j → j = i ∧ s.data i = a i
  made : ∀ (i : Nat) t, s.thr[i]? = some t → (∀ j, t.st ≠ .work j) → s.data i = f (a i)
  rest : ∀ k, T ≤ k → s.data k = a k
  passed : ∀ t ∈ s.thr, BarPassed T t → s.value = BitVec.ofNat w T
  got : ∀ t ∈ s.thr, ∀ x, t.st = .got x → x = barDone T f a

theorem barPast_le (t : CThr w (BarSt β)) : barPast t ≤ 1 := by
  unfold barPast
  split <;> omega

theorem barSum_le : ∀ l : List (CThr w (BarSt β)), (l.map barPast).sum ≤ l.length
  | [] => by simp
  | t :: l => by
    have := barSum_le l
    have := barPast_le t
    simp only [List.map_cons, List.sum_cons, List.length_cons]
    omega

theorem barSum_all : ∀ {l : List (CThr w (BarSt β))}, (l.map barPast).sum = l.length → ∀ t ∈ l, barLead t = 0
  | [], _, t, ht => by cases ht
  | u :: l, h, t, ht => by
    have h1 := barSum_le l
    have h2 := barPast_le u
    simp only [List.map_cons, List.sum_cons, List.length_cons] at h
    rcases List.mem_cons.1 ht with rfl | ht
    · have h3 : barPast t = 1 := by omega
      unfold barPast at h3
      split at h3
      · assumption
      · omega
    · exact barSum_all (by omega) t ht

/-- When the counter has the value `T`, everything is prepared. -/
theorem bar_full {T : Nat} (hT : T < 2 ^ w) {f : β → β} {a : Nat → β} {s : CSys w (Nat → β) (BarSt β)}
    (I : BarInv T f a s) (hv : s.value = BitVec.ofNat w T) : (∀ t ∈ s.thr, barLead t = 0) ∧ s.data = barDone T f a := by
  have hn : s.value.toNat = T := by rw [hv, BitVec.toNat_ofNat, Nat.mod_eq_of_lt hT]
  have hall : ∀ t ∈ s.thr, barLead t = 0 := barSum_all (by rw [← I.cnt, I.len, hn])
  refine ⟨hall, funext fun k => ?_⟩
  unfold barDone
  by_cases hk : k < T
  · rw [if_pos hk]
    have hkl : k < s.thr.length := by rw [I.len]; exact hk
    refine I.made k _ (List.getElem?_eq_getElem hkl) fun j hj => ?_
    have := hall _ (List.getElem_mem hkl)
    generalize s.thr[k] = t at this hj
    obtain ⟨st, reg⟩ := t
    have hj : st = .work j := hj
    subst hj
    cases this
  · rw [if_neg hk]
    exact I.rest k (by omega)

/-- A step that changes only the thread `i`, which had arrived before. -/
theorem bar_quiet {T : Nat} {f : β → β} {a : Nat → β} {s : CSys w (Nat → β) (BarSt β)} (I : BarInv T f a s) {i : Nat}
    {t t' : CThr w (BarSt β)} (ht : s.thr[i]? = some t) (h0 : barLead t = 0) (h0' : barLead t' = 0)
    (hp : BarPassed T t' → s.value = BitVec.ofNat w T) (hg : ∀ x, t'.st = .got x → x = barDone T f a) :
    BarInv T f a ⟨s.value, s.data, s.thr.set i t'⟩ := by
  have nowork : ∀ {u : CThr w (BarSt β)}, barLead u = 0 → ∀ j, u.st ≠ .work j := by
    rintro ⟨st, reg⟩ h j hj
    have hj : st = .work j := hj
    subst hj
    cases h
  refine ⟨?_, ?_, ?_, ?_, I.rest, ?_, ?_⟩
  · rw [List.length_set]; exact I.len
  · have := sum_set barPast t' ht
    have e1 : barPast t = 1 := by unfold barPast; rw [if_pos h0]
    have e2 : barPast t' = 1 := by unfold barPast; rw [if_pos h0']
    have e3 := I.cnt
    show s.value.toNat = ((s.thr.set i t').map barPast).sum
    omega
  · intro k u hu j hj
    rcases set_getElem?_cases ht hu with ⟨rfl, rfl⟩ | ⟨_, gu⟩
    · exact absurd hj (nowork h0' j)
    · exact I.mine k u gu j hj
  · intro k u hu hj
    rcases set_getElem?_cases ht hu with ⟨rfl, rfl⟩ | ⟨_, gu⟩
    · exact I.made k t ht (nowork h0)
    · exact I.made k u gu hj
  · intro u hu h
    rcases mem_set_cases hu with rfl | gu
    · exact hp h
    · exact I.passed u gu h
  · intro u hu x hx
    rcases mem_set_cases hu with rfl | gu
    · exact hg x hx
    · exact I.got u gu x hx

theorem barInv_step {T : Nat} (hT : T < 2 ^ w) {f : β → β} {a : Nat → β} {s : CSys w (Nat → β) (BarSt β)}
    (I : BarInv T f a s) (i : Nat) : BarInv T f a (actStep (barAct T f) s i) := by
  cases ht : s.thr[i]? with
  | none => rw [actStep_none ht]; exact I
  | some t =>
    have hmem := List.mem_of_getElem? ht
    have hil : i < T := by rw [← I.len]; exact (List.getElem?_eq_some_iff.1 ht).1
    rw [actStep_some ht]
    obtain ⟨st, reg⟩ := t
    cases st with
    | work j =>
      obtain ⟨rfl, hd⟩ := I.mine i _ ht j rfl
      refine ⟨?_, ?_, ?_, ?_, ?_, ?_, ?_⟩
      · rw [List.length_set]; exact I.len
      · have := sum_set barPast (⟨.arrive, none⟩ : CThr w (BarSt β)) ht
        have e1 : barPast (⟨.work j, reg⟩ : CThr w (BarSt β)) = 0 := rfl
        have e2 : barPast (⟨.arrive, none⟩ : CThr w (BarSt β)) = 0 := rfl
        have e3 := I.cnt
        show s.value.toNat = ((s.thr.set j (⟨.arrive, none⟩ : CThr w (BarSt β))).map barPast).sum
        omega
      · intro k u hu m hm
        rcases set_getElem?_cases ht hu with ⟨rfl, rfl⟩ | ⟨hk, gu⟩
        · cases hm
        · refine ⟨(I.mine k u gu m hm).1, ?_⟩
          show (if k = j then _ else s.data k) = a k
          rw [if_neg hk]
          exact (I.mine k u gu m hm).2
      · intro k u hu hm
        rcases set_getElem?_cases ht hu with ⟨rfl, rfl⟩ | ⟨hk, gu⟩
        · show (if k = k then f (s.data k) else _) = f (a k)
          rw [if_pos rfl, hd]
        · show (if k = j then _ else s.data k) = f (a k)
          rw [if_neg hk]
          exact I.made k u gu hm
      · intro k hk
        show (if k = j then _ else s.data k) = a k
        rw [if_neg (by omega)]
        exact I.rest k hk
      · intro u hu h
        rcases mem_set_cases hu with rfl | gu
        · rcases h with h | ⟨x, h⟩ | ⟨h, _⟩ <;> cases h
        · exact I.passed u gu h
      · intro u hu x hx
        rcases mem_set_cases hu with rfl | gu
        · cases hx
        · exact I.got u gu x hx
    | arrive =>
      cases reg with
      | none =>
        have hs := sum_set barPast (⟨.arrive, some (rmw .inc s.value).2⟩ : CThr w (BarSt β)) ht
        have e1 : barPast (⟨.arrive, none⟩ : CThr w (BarSt β)) = 0 := rfl
        have e2 : barPast (⟨.arrive, some (rmw .inc s.value).2⟩ : CThr w (BarSt β)) = 1 := rfl
        have hle := barSum_le (s.thr.set i (⟨.arrive, some (rmw .inc s.value).2⟩ : CThr w (BarSt β)))
        rw [List.length_set, I.len] at hle
        have e3 := I.cnt
        have hv : (s.value + 1).toNat = s.value.toNat + 1 := by
          have h1 : (1 : BitVec w).toNat = 1 := by
            show (BitVec.ofNat w 1).toNat = 1
            rw [BitVec.toNat_ofNat, Nat.mod_eq_of_lt (by omega)]
          rw [BitVec.toNat_add, h1, Nat.mod_eq_of_lt (by omega)]
        have hno : ∀ u ∈ s.thr, ¬ BarPassed T u := by
          intro u hu h
          have := I.passed u hu h
          have hn : s.value.toNat = T := by rw [this, BitVec.toNat_ofNat, Nat.mod_eq_of_lt hT]
          omega
        refine ⟨?_, ?_, ?_, ?_, I.rest, ?_, ?_⟩
        · rw [List.length_set]; exact I.len
        · show (s.value + 1).toNat = ((s.thr.set i (⟨.arrive, some (rmw .inc s.value).2⟩ : CThr w (BarSt β))).map barPast).sum
          omega
        · intro k u hu m hm
          rcases set_getElem?_cases ht hu with ⟨rfl, rfl⟩ | ⟨hk, gu⟩
          · cases hm
          · exact I.mine k u gu m hm
        · intro k u hu hm
          rcases set_getElem?_cases ht hu with ⟨rfl, rfl⟩ | ⟨hk, gu⟩
          · exact I.made k _ ht nofun
          · exact I.made k u gu hm
        · intro u hu h
          rcases mem_set_cases hu with rfl | gu
          · rcases h with h | ⟨x, h⟩ | ⟨h, _⟩ <;> cases h
          · exact absurd h (hno u gu)
        · intro u hu x hx
          rcases mem_set_cases hu with rfl | gu
          · cases hx
          · exact I.got u gu x hx
      | some r =>
        refine bar_quiet I ht rfl (t' := ⟨.wait, none⟩) rfl ?_ nofun
        rintro (h | ⟨x, h⟩ | ⟨_, h⟩) <;> cases h
    | wait =>
      cases reg with
      | none =>
        have e : actThread (barAct T f) s.value s.data (⟨.wait, none⟩ : CThr w (BarSt β)) =
            (s.value, s.data, ⟨.wait, some s.value⟩) := by
          show ((if s.value = BitVec.ofNat w T then BitVec.ofNat w T else s.value), s.data,
            (⟨.wait, some s.value⟩ : CThr w (BarSt β))) = _
          split
          · rename_i h; rw [← h]
          · rfl
        rw [e]
        refine bar_quiet I ht rfl (t' := ⟨.wait, some s.value⟩) rfl ?_ nofun
        rintro (h | ⟨x, h⟩ | ⟨_, h⟩)
        · cases h
        · cases h
        · exact Option.some.inj h
      | some x =>
        have e : actThread (barAct T f) s.value s.data (⟨.wait, some x⟩ : CThr w (BarSt β)) =
            (s.value, s.data, ⟨if x = BitVec.ofNat w T then .read else .wait, none⟩) := rfl
        rw [e]
        by_cases hx : x = BitVec.ofNat w T
        · rw [if_pos hx]
          exact bar_quiet I ht rfl (t' := ⟨.read, none⟩) rfl
            (fun _ => I.passed _ hmem (Or.inr (Or.inr ⟨rfl, by rw [hx]⟩))) nofun
        · rw [if_neg hx]
          refine bar_quiet I ht rfl (t' := ⟨.wait, none⟩) rfl ?_ nofun
          rintro (h | ⟨x, h⟩ | ⟨_, h⟩) <;> cases h
    | read =>
      have hv := I.passed _ hmem (Or.inl rfl)
      refine bar_quiet I ht rfl (t' := ⟨.got s.data, none⟩) rfl (fun _ => hv) ?_
      intro x hx
      cases hx
      exact (bar_full hT I hv).2
    | got x =>
      exact bar_quiet I ht rfl (t' := ⟨.got x, reg⟩) rfl (fun h => I.passed _ hmem h) fun y hy => I.got _ hmem y hy

theorem barInv_start (T : Nat) (f : β → β) (a : Nat → β) : BarInv T f a (barStart a T : CSys w (Nat → β) (BarSt β)) := by
  have hget : ∀ (i : Nat) t, (barStart a T : CSys w (Nat → β) (BarSt β)).thr[i]? = some t → t = ⟨.work i, none⟩ := by
    intro i t ht
    simp only [barStart, actStart, List.map_map, List.getElem?_map] at ht
    cases hr : (List.range T)[i]? with
    | none => rw [hr] at ht; cases ht
    | some j =>
      rw [hr] at ht
      obtain ⟨h1, h2⟩ := List.getElem?_eq_some_iff.1 hr
      rw [List.getElem_range] at h2
      subst h2
      exact (Option.some.inj ht).symm
  have hmem : ∀ t ∈ (barStart a T : CSys w (Nat → β) (BarSt β)).thr, ∃ i, t = ⟨.work i, none⟩ := by
    intro t ht
    obtain ⟨i, hi, rfl⟩ := List.getElem_of_mem ht
    exact ⟨i, hget i _ (List.getElem?_eq_getElem hi)⟩
  refine ⟨by simp [barStart, actStart], ?_, ?_, ?_, fun _ _ => rfl, ?_, ?_⟩
  · have hz : ∀ l : List Nat, ((l.map fun i => (⟨.work i, none⟩ : CThr w (BarSt β))).map barPast).sum = 0 := by
      intro l
      induction l with
      | nil => rfl
      | cons x l ih =>
        rw [List.map_cons, List.map_cons, List.sum_cons, ih]
        rfl
    show (0 : BitVec w).toNat = ((((List.range T).map BarSt.work).map fun x => (⟨x, none⟩ : CThr w (BarSt β))).map barPast).sum
    rw [List.map_map (l := List.range T)]
    rw [show ((fun x => (⟨x, none⟩ : CThr w (BarSt β))) ∘ BarSt.work) = fun i => ⟨.work i, none⟩ from rfl, hz]
    simp
  · intro i t ht j hj
    rw [hget i t ht] at hj
    cases hj
    exact ⟨rfl, rfl⟩
  · intro i t ht hj
    exact absurd (by rw [hget i t ht]) (hj i)
  · intro t ht h
    obtain ⟨i, rfl⟩ := hmem t ht
    rcases h with h | ⟨x, h⟩ | ⟨h, _⟩ <;> cases h
  · intro t ht x hx
    obtain ⟨i, rfl⟩ := hmem t ht
    cases hx

theorem barInv_run {T : Nat} (hT : T < 2 ^ w) {f : β → β} {a : Nat → β} : ∀ (sched : List Nat)
    {s : CSys w (Nat → β) (BarSt β)}, BarInv T f a s → BarInv T f a (actRun (barAct T f) s sched)
  | [], _, I => I
  | i :: sched, _, I => barInv_run hT sched (barInv_step hT I i)

/-! ## The way through the barrier -/

theorem barLead_step (T : Nat) (f : β → β) (v : BitVec w) (d : Nat → β) (t : CThr w (BarSt β)) :
    barLead (actThread (barAct T f) v d t).2.2 ≤ barLead t - 1 := by
  obtain ⟨st, reg⟩ := t
  cases st with
  | work j => exact Nat.le_refl 1
  | arrive => cases reg <;> exact Nat.le_refl 0
  | wait =>
    cases reg with
    | none => exact Nat.le_refl 0
    | some x =>
      show barLead (⟨if x = BitVec.ofNat w T then .read else .wait, none⟩ : CThr w (BarSt β)) ≤ 0
      split <;> exact Nat.le_refl 0
  | read => exact Nat.le_refl 0
  | got x => exact Nat.le_refl 0

/-- How many steps a thread needs when all have arrived. -/
def barLeft (T : Nat) : CThr w (BarSt β) → Nat
  | ⟨.wait, none⟩ => 3
  | ⟨.wait, some x⟩ => if x = BitVec.ofNat w T then 2 else 4
  | ⟨.read, _⟩ => 1
  | ⟨.got _, _⟩ => 0
  | _ => 4

theorem barLeft_le (T : Nat) (t : CThr w (BarSt β)) : barLeft T t ≤ 4 := by
  unfold barLeft
  split <;> try split
  all_goals omega

theorem barLeft_step (T : Nat) (f : β → β) (d : Nat → β) (t : CThr w (BarSt β)) (h : barLead t = 0) :
    barLeft T (actThread (barAct T f) (BitVec.ofNat w T) d t).2.2 ≤ barLeft T t - 1 := by
  obtain ⟨st, reg⟩ := t
  cases st with
  | work j => cases h
  | arrive =>
    cases reg with
    | none => cases h
    | some r => exact Nat.le_refl 3
  | wait =>
    cases reg with
    | none =>
      show (if BitVec.ofNat w T = BitVec.ofNat w T then 2 else 4) ≤ 2
      rw [if_pos rfl]
      omega
    | some x =>
      show barLeft T (⟨if x = BitVec.ofNat w T then .read else .wait, none⟩ : CThr w (BarSt β)) ≤
        (if x = BitVec.ofNat w T then 2 else 4) - 1
      split <;> exact Nat.le_refl _
  | read => exact Nat.le_refl 0
  | got x => exact Nat.le_refl 0

theorem lead_run (T : Nat) (f : β → β) {i : Nat} : ∀ (sched : List Nat) {s : CSys w (Nat → β) (BarSt β)}
    {t : CThr w (BarSt β)}, s.thr[i]? = some t → ∃ t', (actRun (barAct T f) s sched).thr[i]? = some t' ∧
      barLead t' ≤ barLead t - sched.count i ∧ (i ∉ sched → t' = t)
  | [], s, t, ht => ⟨t, ht, by simp, fun _ => rfl⟩
  | j :: sched, s, t, ht => by
    by_cases hji : j = i
    · subst hji
      have ht₁ : (actStep (barAct T f) s j).thr[j]? = some (actThread (barAct T f) s.value s.data t).2.2 := by
        rw [actStep_some ht]
        exact List.getElem?_set_self (List.getElem?_eq_some_iff.1 ht).1
      obtain ⟨t', g1, g2, _⟩ := lead_run T f sched ht₁
      have := barLead_step T f s.value s.data t
      refine ⟨t', g1, ?_, fun h => absurd List.mem_cons_self h⟩
      rw [List.count_cons_self]
      omega
    · have ht₁ : (actStep (barAct T f) s j).thr[i]? = some t := by
        cases hj : s.thr[j]? with
        | none => rw [actStep_none hj]; exact ht
        | some u => rw [actStep_some hj]; exact (List.getElem?_set_ne hji).trans ht
      obtain ⟨t', g1, g2, g3⟩ := lead_run T f sched ht₁
      refine ⟨t', g1, ?_, fun h => g3 fun h' => h (List.mem_cons_of_mem _ h')⟩
      rw [List.count_cons_of_ne hji]
      exact g2

theorem left_run {T : Nat} (hT : T < 2 ^ w) {f : β → β} {a : Nat → β} {i : Nat} : ∀ (sched : List Nat)
    {s : CSys w (Nat → β) (BarSt β)}, BarInv T f a s → (∀ t ∈ s.thr, barLead t = 0) →
    ∀ {t : CThr w (BarSt β)}, s.thr[i]? = some t → ∃ t', (actRun (barAct T f) s sched).thr[i]? = some t' ∧
      barLeft T t' ≤ barLeft T t - sched.count i
  | [], s, _, _, t, ht => ⟨t, ht, by simp⟩
  | j :: sched, s, I, h0, t, ht => by
    have hv : s.value = BitVec.ofNat w T := by
      apply BitVec.eq_of_toNat_eq
      rw [BitVec.toNat_ofNat, Nat.mod_eq_of_lt hT, I.cnt]
      have : ∀ l : List (CThr w (BarSt β)), (∀ t ∈ l, barLead t = 0) → (l.map barPast).sum = l.length := by
        intro l hl
        induction l with
        | nil => rfl
        | cons u l ih =>
          rw [List.map_cons, List.sum_cons, ih fun t ht => hl t (List.mem_cons_of_mem _ ht), List.length_cons]
          have : barPast u = 1 := by unfold barPast; rw [if_pos (hl u List.mem_cons_self)]
          omega
      rw [this _ h0, I.len]
    have I' := barInv_step hT I j
    have h0' : ∀ t ∈ (actStep (barAct T f) s j).thr, barLead t = 0 := by
      intro u hu
      cases hj : s.thr[j]? with
      | none => rw [actStep_none hj] at hu; exact h0 u hu
      | some v =>
        rw [actStep_some hj] at hu
        rcases mem_set_cases hu with rfl | gu
        · have := barLead_step T f s.value s.data v
          have := h0 v (List.mem_of_getElem? hj)
          omega
        · exact h0 u gu
    by_cases hji : j = i
    · subst hji
      have ht₁ : (actStep (barAct T f) s j).thr[j]? = some (actThread (barAct T f) s.value s.data t).2.2 := by
        rw [actStep_some ht]
        exact List.getElem?_set_self (List.getElem?_eq_some_iff.1 ht).1
      obtain ⟨t', g1, g2⟩ := left_run hT sched I' h0' ht₁
      have := barLeft_step T f s.data t (h0 t (List.mem_of_getElem? ht))
      rw [← hv] at this
      refine ⟨t', g1, ?_⟩
      rw [List.count_cons_self]
      omega
    · have ht₁ : (actStep (barAct T f) s j).thr[i]? = some t := by
        cases hj : s.thr[j]? with
        | none => rw [actStep_none hj]; exact ht
        | some u => rw [actStep_some hj]; exact (List.getElem?_set_ne hji).trans ht
      obtain ⟨t', g1, g2⟩ := left_run hT sched I' h0' ht₁
      refine ⟨t', g1, ?_⟩
      rw [List.count_cons_of_ne hji]
      exact g2

end Zy
