import Verif.Spec.AtomicOnce
import Verif.Lemmas.AtomicClients

/-!
# Lemmas: initialisation that happens once
-/

namespace Zy

variable {w : Nat} {δ : Type}

/-- What a thread can be while another one initialises. -/
def Waiting (t : CThr w (OnceSt δ)) : Prop := t = ⟨.ask, none⟩ ∨ t = ⟨.ask, some 1⟩

/-- What a thread can be when the data is initialised. -/
def Served (x : δ) (t : CThr w (OnceSt δ)) : Prop :=
  t = ⟨.ask, none⟩ ∨ t = ⟨.ask, some 1⟩ ∨ t = ⟨.ask, some 2⟩ ∨ t = ⟨.publish, some 1⟩ ∨ t = ⟨.use, none⟩ ∨
    t = ⟨.got x, none⟩

/-- `OnceAt T f a s k i`: `k` steps of thread `i` are left until the data is initialised. -/
def OnceAt (T : Nat) (f : δ → δ) (a : δ) (s : CSys w δ (OnceSt δ)) (k i : Nat) : Prop :=
  s.thr.length = T ∧ i < T ∧ match k with
  | 0 => s.value = 2 ∧ s.data = f a ∧ ∀ t ∈ s.thr, Served (f a) t
  | 1 => s.value = 1 ∧ s.data = f a ∧ s.thr[i]? = some ⟨.publish, none⟩ ∧
    ∀ (j : Nat) u, j ≠ i → s.thr[j]? = some u → Waiting u
  | 2 => s.value = 1 ∧ s.data = a ∧ s.thr[i]? = some ⟨.run, none⟩ ∧
    ∀ (j : Nat) u, j ≠ i → s.thr[j]? = some u → Waiting u
  | 3 => s.value = 1 ∧ s.data = a ∧ s.thr[i]? = some ⟨.ask, some 0⟩ ∧
    ∀ (j : Nat) u, j ≠ i → s.thr[j]? = some u → Waiting u
  | 4 => s.value = 0 ∧ s.data = a ∧ ∀ t ∈ s.thr, t = ⟨.ask, none⟩
  | _ => False

theorem small_ne (hw : 2 ≤ w) : (1 : BitVec w) ≠ 0 ∧ (2 : BitVec w) ≠ 0 ∧ (2 : BitVec w) ≠ 1 := by
  have h4 : 2 ^ 2 ≤ 2 ^ w := Nat.pow_le_pow_right (by omega) hw
  have e : ∀ n, n < 4 → (BitVec.ofNat w n).toNat = n := fun n hn => by
    rw [BitVec.toNat_ofNat, Nat.mod_eq_of_lt (by omega)]
  refine ⟨fun h => ?_, fun h => ?_, fun h => ?_⟩
  · have := congrArg BitVec.toNat h
    rw [show (1 : BitVec w) = BitVec.ofNat w 1 from rfl, show (0 : BitVec w) = BitVec.ofNat w 0 from rfl, e 1 (by omega),
      e 0 (by omega)] at this
    omega
  · have := congrArg BitVec.toNat h
    rw [show (2 : BitVec w) = BitVec.ofNat w 2 from rfl, show (0 : BitVec w) = BitVec.ofNat w 0 from rfl, e 2 (by omega),
      e 0 (by omega)] at this
    omega
  · have := congrArg BitVec.toNat h
    rw [show (2 : BitVec w) = BitVec.ofNat w 2 from rfl, show (1 : BitVec w) = BitVec.ofNat w 1 from rfl, e 2 (by omega),
      e 1 (by omega)] at this
    omega

/-! ## Single steps -/

theorem ask_begin (f : δ → δ) (v : BitVec w) (d : δ) : actThread (onceAct f) v d ⟨.ask, none⟩ =
    (if v = 0 then 1 else v, d, ⟨.ask, some v⟩) := rfl

theorem ask_end (f : δ → δ) (v : BitVec w) (d : δ) (x : BitVec w) : actThread (onceAct f) v d ⟨.ask, some x⟩ =
    (v, d, ⟨if x = 0 then .run else if x = 2 then .use else .ask, none⟩) := rfl

/-- A thread that waits goes on waiting, and changes nothing. -/
theorem wait_step (hw : 2 ≤ w) (f : δ → δ) (d : δ) {t : CThr w (OnceSt δ)} (h : Waiting t) :
    ∃ t', actThread (onceAct f) 1 d t = (1, d, t') ∧ Waiting t' := by
  obtain ⟨h1, h2, h3⟩ := small_ne hw
  rcases h with rfl | rfl
  · exact ⟨⟨.ask, some 1⟩, by rw [ask_begin, if_neg h1], Or.inr rfl⟩
  · exact ⟨⟨.ask, none⟩, by rw [ask_end, if_neg h1, if_neg fun h => h3 h.symm], Or.inl rfl⟩

/-- How many steps a thread needs when the data is initialised. -/
def servedLeft (w : Nat) : CThr w (OnceSt δ) → Nat
  | ⟨.ask, none⟩ => 3
  | ⟨.ask, some x⟩ => if x = 2 then 2 else 4
  | ⟨.publish, _⟩ => 2
  | ⟨.use, _⟩ => 1
  | ⟨.got _, _⟩ => 0
  | ⟨.run, _⟩ => 0

theorem served_step (hw : 2 ≤ w) (f : δ → δ) (x : δ) {t : CThr w (OnceSt δ)} (h : Served x t) :
    ∃ t', actThread (onceAct f) 2 x t = (2, x, t') ∧ Served x t' ∧ servedLeft w t' ≤ servedLeft w t - 1 := by
  obtain ⟨h1, h2, h3⟩ := small_ne hw
  rcases h with rfl | rfl | rfl | rfl | rfl | rfl
  · refine ⟨⟨.ask, some 2⟩, by rw [ask_begin, if_neg h2], Or.inr (Or.inr (Or.inl rfl)), ?_⟩
    show (if (2 : BitVec w) = 2 then 2 else 4) ≤ 2
    rw [if_pos rfl]
    omega
  · refine ⟨⟨.ask, none⟩, by rw [ask_end, if_neg h1, if_neg fun h => h3 h.symm], Or.inl rfl, ?_⟩
    show 3 ≤ (if (1 : BitVec w) = 2 then 2 else 4) - 1
    rw [if_neg fun h => h3 h.symm]
    omega
  · refine ⟨⟨.use, none⟩, by rw [ask_end, if_neg h2, if_pos rfl], Or.inr (Or.inr (Or.inr (Or.inr (Or.inl rfl)))), ?_⟩
    show 1 ≤ (if (2 : BitVec w) = 2 then 2 else 4) - 1
    rw [if_pos rfl]
    omega
  · exact ⟨⟨.use, none⟩, rfl, Or.inr (Or.inr (Or.inr (Or.inr (Or.inl rfl)))), Nat.le_refl 1⟩
  · exact ⟨⟨.got x, none⟩, rfl, Or.inr (Or.inr (Or.inr (Or.inr (Or.inr rfl)))), Nat.le_refl 0⟩
  · exact ⟨⟨.got x, none⟩, rfl, Or.inr (Or.inr (Or.inr (Or.inr (Or.inr rfl)))), Nat.le_refl 0⟩

theorem others_step {T : Nat} {P : CThr w (OnceSt δ) → Prop} {l : List (CThr w (OnceSt δ))} {i j : Nat}
    {t t' : CThr w (OnceSt δ)} (_ : l.length = T) (ht : l[j]? = some t)
    (h : ∀ (j : Nat) u, j ≠ i → l[j]? = some u → P u) (ht' : P t') :
    ∀ (k : Nat) u, k ≠ i → (l.set j t')[k]? = some u → P u := by
  intro k u hk hu
  rcases set_getElem?_cases ht hu with ⟨rfl, rfl⟩ | ⟨_, hu⟩
  · exact ht'
  · exact h k u hk hu

/-- One step of any thread. -/
theorem once_step (hw : 2 ≤ w) {T : Nat} {f : δ → δ} {a : δ} {s : CSys w δ (OnceSt δ)} {k i : Nat}
    (h : OnceAt T f a s k i) (j : Nat) :
    (∃ k' i', k' < k ∧ OnceAt T f a (actStep (onceAct f) s j) k' i') ∨
      ((j ≠ i ∨ k = 0) ∧ OnceAt T f a (actStep (onceAct f) s j) k i) := by
  obtain ⟨hl, hi, h⟩ := h
  have hlen : ∀ t', (s.thr.set j t').length = T := fun t' => by rw [List.length_set, hl]
  obtain ⟨h1, h2, h3⟩ := small_ne hw
  cases ht : s.thr[j]? with
  | none =>
    have hj := List.getElem?_eq_none_iff.1 ht
    rw [actStep_none ht]
    exact Or.inr ⟨Or.inl (by omega), hl, hi, h⟩
  | some t =>
    have hjl : j < T := by rw [← hl]; exact (List.getElem?_eq_some_iff.1 ht).1
    have hself : ∀ t', (s.thr.set j t')[j]? = some t' := fun t' => List.getElem?_set_self (by omega)
    rw [actStep_some ht]
    match k, h with
    | 0, ⟨hv, hd, hall⟩ =>
      obtain ⟨t', e, hs, _⟩ := served_step hw f (f a) (hall t (List.mem_of_getElem? ht))
      rw [hv, hd, e]
      refine Or.inr ⟨Or.inr rfl, hlen _, hi, rfl, rfl, fun u hu => ?_⟩
      rcases mem_set_cases hu with rfl | hu
      · exact hs
      · exact hall u hu
    | 1, ⟨hv, hd, hti, hoth⟩ =>
      by_cases hji : j = i
      · subst hji
        rw [hti] at ht
        cases ht
        rw [hv, hd]
        have e : actThread (onceAct f) 1 (f a) (⟨.publish, none⟩ : CThr w (OnceSt δ)) = (2, f a, ⟨.publish, some 1⟩) := by
          show ((if (1 : BitVec w) = 1 then (2 : BitVec w) else 1), f a, (⟨.publish, some 1⟩ : CThr w (OnceSt δ))) = _
          rw [if_pos rfl]
        rw [e]
        refine Or.inl ⟨0, j, by omega, hlen _, hi, rfl, rfl, fun u hu => ?_⟩
        obtain ⟨m, hm, rfl⟩ := List.getElem_of_mem hu
        have hm' := List.getElem?_eq_getElem hm
        rcases set_getElem?_cases hti hm' with ⟨_, hu⟩ | ⟨hmj, hu⟩
        · rw [hu]; exact Or.inr (Or.inr (Or.inr (Or.inl rfl)))
        · rcases hoth m _ hmj hu with h | h
          · exact Or.inl h
          · exact Or.inr (Or.inl h)
      · obtain ⟨t', e, hwait⟩ := wait_step hw f s.data (hoth j t hji ht)
        rw [hv, e]
        exact Or.inr ⟨Or.inl hji, hlen _, hi, rfl, hd, (List.getElem?_set_ne hji).trans hti,
          others_step hl ht hoth hwait⟩
    | 2, ⟨hv, hd, hti, hoth⟩ =>
      by_cases hji : j = i
      · subst hji
        rw [hti] at ht
        cases ht
        refine Or.inl ⟨1, j, by omega, hlen _, hi, hv, ?_, hself _, ?_⟩
        · show f s.data = f a
          rw [hd]
        · intro m u hm hu
          rcases set_getElem?_cases hti hu with ⟨e, _⟩ | ⟨_, hu⟩
          · exact absurd e hm
          · exact hoth m u hm hu
      · obtain ⟨t', e, hwait⟩ := wait_step hw f s.data (hoth j t hji ht)
        rw [hv, e]
        exact Or.inr ⟨Or.inl hji, hlen _, hi, rfl, hd, (List.getElem?_set_ne hji).trans hti,
          others_step hl ht hoth hwait⟩
    | 3, ⟨hv, hd, hti, hoth⟩ =>
      by_cases hji : j = i
      · subst hji
        rw [hti] at ht
        cases ht
        rw [ask_end, if_pos rfl]
        refine Or.inl ⟨2, j, by omega, hlen _, hi, hv, hd, hself _, ?_⟩
        intro m u hm hu
        rcases set_getElem?_cases hti hu with ⟨e, _⟩ | ⟨_, hu⟩
        · exact absurd e hm
        · exact hoth m u hm hu
      · obtain ⟨t', e, hwait⟩ := wait_step hw f s.data (hoth j t hji ht)
        rw [hv, e]
        exact Or.inr ⟨Or.inl hji, hlen _, hi, rfl, hd, (List.getElem?_set_ne hji).trans hti,
          others_step hl ht hoth hwait⟩
    | 4, ⟨hv, hd, hall⟩ =>
      have := hall t (List.mem_of_getElem? ht)
      subst this
      rw [ask_begin, hv, if_pos rfl]
      refine Or.inl ⟨3, j, by omega, hlen _, hjl, rfl, hd, hself _, ?_⟩
      intro m u hm hu
      rcases set_getElem?_cases ht hu with ⟨e, _⟩ | ⟨_, hu⟩
      · exact absurd e hm
      · exact Or.inl (hall u (List.mem_of_getElem? hu))

theorem once_run (hw : 2 ≤ w) {T : Nat} {f : δ → δ} {a : δ} : ∀ (sched : List Nat) {s : CSys w δ (OnceSt δ)} {k i : Nat},
    OnceAt T f a s k i → ∃ k' i', k' ≤ k ∧ OnceAt T f a (actRun (onceAct f) s sched) k' i'
  | [], _, k, i, h => ⟨k, i, Nat.le_refl _, h⟩
  | j :: sched, s, k, i, h => by
    rcases once_step hw h j with ⟨k₁, i₁, hk, h'⟩ | ⟨_, h'⟩
    · obtain ⟨k₂, i₂, hk₂, h₂⟩ := once_run hw sched h'
      exact ⟨k₂, i₂, by omega, h₂⟩
    · exact once_run hw sched h'

/-- When the thread that has to move does, the initialisation comes nearer. -/
theorem once_moves (hw : 2 ≤ w) {T : Nat} {f : δ → δ} {a : δ} : ∀ (sched : List Nat) {s : CSys w δ (OnceSt δ)} {k i : Nat},
    OnceAt T f a s k i → i ∈ sched → ∃ k' i', k' ≤ k - 1 ∧ OnceAt T f a (actRun (onceAct f) s sched) k' i'
  | [], _, _, _, _, hm => by cases hm
  | j :: sched, s, k, i, h, hm => by
    rcases once_step hw h j with ⟨k₁, i₁, hk, h'⟩ | ⟨hji, h'⟩
    · obtain ⟨k₂, i₂, hk₂, h₂⟩ := once_run hw sched h'
      exact ⟨k₂, i₂, by omega, h₂⟩
    · rcases hji with hji | rfl
      · refine once_moves hw sched h' ?_
        rcases List.mem_cons.1 hm with rfl | hm
        · exact absurd rfl hji
        · exact hm
      · obtain ⟨k₂, i₂, hk₂, h₂⟩ := once_run hw sched h'
        exact ⟨k₂, i₂, by omega, h₂⟩

theorem once_rounds (hw : 2 ≤ w) {T : Nat} {f : δ → δ} {a : δ} : ∀ (rounds : List (List Nat))
    {s : CSys w δ (OnceSt δ)} {k i : Nat}, OnceAt T f a s k i → (∀ r ∈ rounds, ∀ i, i < T → i ∈ r) →
    ∃ k' i', k' ≤ k - rounds.length ∧ OnceAt T f a (actRun (onceAct f) s rounds.flatten) k' i'
  | [], _, k, i, h, _ => ⟨k, i, by simp, h⟩
  | r :: rounds, s, k, i, h, hr => by
    obtain ⟨k₁, i₁, hk₁, h₁⟩ := once_moves hw r h (hr r List.mem_cons_self i h.2.1)
    obtain ⟨k₂, i₂, hk₂, h₂⟩ := once_rounds hw rounds h₁ fun r hm => hr r (List.mem_cons_of_mem _ hm)
    refine ⟨k₂, i₂, by simp only [List.length_cons]; omega, ?_⟩
    rw [List.flatten_cons, actRun_append]
    exact h₂

/-- When the data is initialised, each thread needs a few steps of its own. -/
theorem served_run (hw : 2 ≤ w) {T : Nat} {f : δ → δ} {a : δ} {n i : Nat} : ∀ (sched : List Nat)
    {s : CSys w δ (OnceSt δ)}, OnceAt T f a s 0 n → ∀ {t : CThr w (OnceSt δ)}, s.thr[i]? = some t →
    ∃ t', (actRun (onceAct f) s sched).thr[i]? = some t' ∧ Served (f a) t' ∧
      servedLeft w t' ≤ servedLeft w t - sched.count i
  | [], s, h, t, ht => ⟨t, ht, h.2.2.2.2 t (List.mem_of_getElem? ht), by simp⟩
  | j :: sched, s, h, t, ht => by
    have h' : OnceAt T f a (actStep (onceAct f) s j) 0 n := by
      rcases once_step hw h j with ⟨_, _, hk, _⟩ | ⟨_, h'⟩
      · omega
      · exact h'
    have hs := h.2.2.2.2 t (List.mem_of_getElem? ht)
    by_cases hji : j = i
    · subst hji
      obtain ⟨t₁, e, _, hm⟩ := served_step hw f (f a) hs
      have ht₁ : (actStep (onceAct f) s j).thr[j]? = some t₁ := by
        rw [actStep_some ht, h.2.2.1, h.2.2.2.1, e]
        exact List.getElem?_set_self (List.getElem?_eq_some_iff.1 ht).1
      obtain ⟨t', g1, g2, g3⟩ := served_run hw sched h' ht₁
      refine ⟨t', g1, g2, ?_⟩
      rw [List.count_cons_self]
      omega
    · have ht₁ : (actStep (onceAct f) s j).thr[i]? = some t := by
        cases hj : s.thr[j]? with
        | none => rw [actStep_none hj]; exact ht
        | some u => rw [actStep_some hj]; exact (List.getElem?_set_ne hji).trans ht
      obtain ⟨t', g1, g2, g3⟩ := served_run hw sched h' ht₁
      refine ⟨t', g1, g2, ?_⟩
      rw [List.count_cons_of_ne hji]
      exact g3

theorem count_rounds {T i : Nat} (hi : i < T) : ∀ (rounds : List (List Nat)), (∀ r ∈ rounds, ∀ i, i < T → i ∈ r) →
    rounds.length ≤ rounds.flatten.count i
  | [], _ => by simp
  | r :: rounds, h => by
    have h1 := count_rounds hi rounds fun r hm => h r (List.mem_cons_of_mem _ hm)
    have h2 : 0 < r.count i := List.count_pos_iff.2 (h r List.mem_cons_self i hi)
    rw [List.flatten_cons, List.count_append, List.length_cons]
    omega

theorem servedLeft_le (t : CThr w (OnceSt δ)) : servedLeft w t ≤ 4 := by
  unfold servedLeft
  split <;> try split
  all_goals omega

theorem once_start {T : Nat} (hT : 0 < T) (f : δ → δ) (a : δ) :
    OnceAt T f a (onceStart a T : CSys w δ (OnceSt δ)) 4 0 := by
  refine ⟨by simp [onceStart, actStart], hT, rfl, rfl, fun t ht => ?_⟩
  simp only [onceStart, actStart, List.map_replicate] at ht
  exact (List.mem_replicate.1 ht).2

/-- As long as the thread that began does not move, nothing happens. -/
theorem once_stuck (hw : 2 ≤ w) {T : Nat} {f : δ → δ} {a : δ} {i : Nat} : ∀ (sched : List Nat) {s : CSys w δ (OnceSt δ)},
    OnceAt T f a s 3 i → i ∉ sched → OnceAt T f a (actRun (onceAct f) s sched) 3 i
  | [], _, h, _ => h
  | j :: sched, s, h, hm => by
    have hji : j ≠ i := fun e => hm (e ▸ List.mem_cons_self)
    refine once_stuck hw sched (s := actStep (onceAct f) s j) ?_ fun h => hm (List.mem_cons_of_mem _ h)
    obtain ⟨hl, hi, hv, hd, hti, hoth⟩ := h
    cases ht : s.thr[j]? with
    | none => rw [actStep_none ht]; exact ⟨hl, hi, hv, hd, hti, hoth⟩
    | some t =>
      rw [actStep_some ht]
      obtain ⟨t', e, hwait⟩ := wait_step hw f s.data (hoth j t hji ht)
      rw [hv, e]
      exact ⟨by rw [List.length_set, hl], hi, rfl, hd, (List.getElem?_set_ne hji).trans hti, others_step hl ht hoth hwait⟩

end Zy
