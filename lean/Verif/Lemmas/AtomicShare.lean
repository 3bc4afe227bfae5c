import Verif.Spec.AtomicShare
import Verif.Lemmas.AtomicClients

/-!
# Lemmas: work distributed with an atomic counter
-/

namespace Zy

variable {w : Nat} {β : Type}

/-- The index that a thread has taken and not yet processed. -/
def holds (n : Nat) (t : CThr w (ShareSt β)) : Option Nat :=
  match t.st, t.reg with
  | .fetch, some x => if x.toNat < n then some x.toNat else none
  | .fetch, none => none
  | .load i, _ => some i
  | .store i _, _ => some i
  | .done, _ => none

/-- The thread has taken an index behind the last element. -/
def outside (n : Nat) (t : CThr w (ShareSt β)) : Nat :=
  match t.st, t.reg with
  | .fetch, some x => if x.toNat < n then 0 else 1
  | .done, _ => 1
  | _, _ => 0

/-- The steps that a thread needs for what it has taken, and to find that there is no more. -/
def stepsLeft (n : Nat) (t : CThr w (ShareSt β)) : Nat :=
  match t.st, t.reg with
  | .fetch, some x => if x.toNat < n then 5 else 1
  | .fetch, none => 2
  | .load _, _ => 4
  | .store _ _, _ => 3
  | .done, _ => 0

structure ShareInv (n : Nat) (f : β → β) (a : Nat → β) (T : Nat) (s : CSys w (Nat → β) (ShareSt β)) : Prop where
  len : s.thr.length = T
  count : s.value.toNat ≤ n + (s.thr.map (outside n)).sum
  uniq : ∀ (i j : Nat) (t u : CThr w (ShareSt β)), i ≠ j → s.thr[i]? = some t → s.thr[j]? = some u →
    ∀ k, holds n t = some k → holds n u ≠ some k
  held : ∀ t ∈ s.thr, ∀ k, holds n t = some k → k < n ∧ k < s.value.toNat ∧ s.data k = a k
  read : ∀ t ∈ s.thr, ∀ k x, t.st = .store k x → x = a k
  free : ∀ k, k < n → k < s.value.toNat → (∀ t ∈ s.thr, holds n t ≠ some k) → s.data k = f (a k)
  rest : ∀ k, s.value.toNat ≤ k ∨ n ≤ k → s.data k = a k

theorem outside_le (n : Nat) (t : CThr w (ShareSt β)) : outside n t ≤ 1 := by
  unfold outside
  split
  · split <;> omega
  · omega
  · omega

theorem sum_le_length {γ : Type} {f : γ → Nat} (hf : ∀ x, f x ≤ 1) : ∀ l : List γ, (l.map f).sum ≤ l.length
  | [] => Nat.le_refl _
  | x :: l => by
    have := sum_le_length hf l
    have := hf x
    simp only [List.map_cons, List.sum_cons, List.length_cons]
    omega

/-- A step that keeps the counter, the elements and what the thread has. -/
theorem ShareInv.quiet {n : Nat} {f : β → β} {a : Nat → β} {T : Nat} {s : CSys w (Nat → β) (ShareSt β)}
    (I : ShareInv n f a T s) {i : Nat} {t t' : CThr w (ShareSt β)} (ht : s.thr[i]? = some t)
    (h1 : holds n t' = holds n t) (h2 : outside n t' = outside n t) (h3 : ∀ k x, t'.st = .store k x → x = a k) :
    ShareInv n f a T ⟨s.value, s.data, s.thr.set i t'⟩ := by
  have hmem := List.mem_of_getElem? ht
  have hil := (List.getElem?_eq_some_iff.1 ht).1
  refine ⟨by rw [← I.len]; exact List.length_set, ?_, ?_, ?_, ?_, ?_, I.rest⟩
  · have := sum_set (outside n) t' ht
    have := I.count
    show s.value.toNat ≤ n + ((s.thr.set i t').map (outside n)).sum
    omega
  · intro j k u v hjk hu hv
    rcases set_getElem?_cases ht hu with ⟨rfl, rfl⟩ | ⟨_, gu⟩
    · rcases set_getElem?_cases ht hv with ⟨rfl, _⟩ | ⟨_, gv⟩
      · exact absurd rfl hjk
      · rw [h1]; exact I.uniq _ _ _ _ hjk ht gv
    · rcases set_getElem?_cases ht hv with ⟨rfl, rfl⟩ | ⟨_, gv⟩
      · rw [h1]; exact I.uniq _ _ _ _ hjk gu ht
      · exact I.uniq _ _ _ _ hjk gu gv
  · intro u hu k hk
    rcases mem_set_cases hu with rfl | hu
    · rw [h1] at hk; exact I.held t hmem k hk
    · exact I.held u hu k hk
  · intro u hu
    rcases mem_set_cases hu with rfl | hu
    · exact h3
    · exact I.read u hu
  · intro k hk hv hfree
    refine I.free k hk hv fun u hu => ?_
    obtain ⟨j, hj, rfl⟩ := List.getElem_of_mem hu
    by_cases hji : j = i
    · subst hji
      have e : s.thr[j] = t := by rw [List.getElem?_eq_getElem hj] at ht; exact Option.some.inj ht
      rw [e, ← h1]
      exact hfree t' (List.mem_of_getElem? (List.getElem?_set_self hil))
    · refine hfree _ (List.mem_of_getElem? (i := j) ?_)
      rw [List.getElem?_set_ne fun h => hji h.symm]
      exact List.getElem?_eq_getElem hj

theorem inc_toNat {v : BitVec w} (h : v.toNat + 1 < 2 ^ w) : (v + 1).toNat = v.toNat + 1 := by
  rw [BitVec.toNat_add]
  have h1 : (1 : BitVec w).toNat = 1 := by
    have : 1 < 2 ^ w := by omega
    show (BitVec.ofNat w 1).toNat = 1
    rw [BitVec.toNat_ofNat, Nat.mod_eq_of_lt this]
  rw [h1, Nat.mod_eq_of_lt h]

/-- One step of a thread. -/
theorem ShareInv.step {n : Nat} {f : β → β} {a : Nat → β} {T : Nat} {s : CSys w (Nat → β) (ShareSt β)}
    (hT : n + T < 2 ^ w) (I : ShareInv n f a T s) {i : Nat} {t : CThr w (ShareSt β)} (ht : s.thr[i]? = some t) :
    ShareInv n f a T (actStep (shareAct n f) s i) := by
  have hmem := List.mem_of_getElem? ht
  have hil := (List.getElem?_eq_some_iff.1 ht).1
  rw [actStep_some ht]
  obtain ⟨st, reg⟩ := t
  cases st with
  | done => exact I.quiet ht rfl rfl nofun
  | load k =>
    refine I.quiet (t' := ⟨.store k (s.data k), none⟩) ht rfl rfl ?_
    intro l x e
    cases e
    exact (I.held _ hmem k rfl).2.2
  | store k x =>
    obtain ⟨hk1, hk2, hk3⟩ := I.held _ hmem k rfl
    have hx : x = a k := I.read _ hmem k x rfl
    have hother : ∀ j u, j ≠ i → s.thr[j]? = some u → holds n u ≠ some k := fun j u hj hu =>
      I.uniq i j _ _ (fun h => hj h.symm) ht hu k rfl
    show ShareInv n f a T ⟨s.value, fun l => if l = k then f x else s.data l, s.thr.set i ⟨.fetch, none⟩⟩
    refine ⟨by rw [← I.len]; exact List.length_set, ?_, ?_, ?_, ?_, ?_, ?_⟩
    · have := sum_set (outside n) (⟨.fetch, none⟩ : CThr w (ShareSt β)) ht
      have := I.count
      have e1 : outside n (⟨.fetch, none⟩ : CThr w (ShareSt β)) = 0 := rfl
      have e2 : outside n (⟨.store k x, reg⟩ : CThr w (ShareSt β)) = 0 := rfl
      show s.value.toNat ≤ n + ((s.thr.set i ⟨.fetch, none⟩).map (outside n)).sum
      omega
    · intro j l u v hjl hu hv m hm
      rcases set_getElem?_cases ht hu with ⟨rfl, rfl⟩ | ⟨_, hu⟩
      · cases hm
      · rcases set_getElem?_cases ht hv with ⟨rfl, rfl⟩ | ⟨_, hv⟩
        · exact nofun
        · exact I.uniq _ _ _ _ hjl hu hv m hm
    · intro u hu m hm
      obtain ⟨j, hj, e⟩ := List.getElem_of_mem hu
      have hu' : (s.thr.set i ⟨.fetch, none⟩)[j]? = some u := by rw [List.getElem?_eq_getElem hj, e]
      rcases set_getElem?_cases ht hu' with ⟨rfl, rfl⟩ | ⟨hji, gu⟩
      · cases hm
      · obtain ⟨g1, g2, g3⟩ := I.held u (List.mem_of_getElem? gu) m hm
        refine ⟨g1, g2, ?_⟩
        show (if m = k then f x else s.data m) = a m
        rw [if_neg, g3]
        rintro rfl
        exact hother j u hji gu hm
    · intro u hu
      rcases mem_set_cases hu with rfl | hu
      · exact nofun
      · exact I.read u hu
    · intro m hm hv hfree
      show (if m = k then f x else s.data m) = f (a m)
      by_cases hmk : m = k
      · rw [if_pos hmk, hx, hmk]
      · rw [if_neg hmk]
        refine I.free m hm hv fun u hu => ?_
        obtain ⟨j, hj, rfl⟩ := List.getElem_of_mem hu
        by_cases hji : j = i
        · subst hji
          have e : s.thr[j] = ⟨.store k x, reg⟩ := by rw [List.getElem?_eq_getElem hj] at ht; exact Option.some.inj ht
          rw [e]
          intro h
          exact hmk (Option.some.inj h).symm
        · refine hfree _ (List.mem_of_getElem? (i := j) ?_)
          rw [List.getElem?_set_ne fun h => hji h.symm]
          exact List.getElem?_eq_getElem hj
    · intro m hm
      show (if m = k then f x else s.data m) = a m
      rw [if_neg, I.rest m hm]
      have hm' : s.value.toNat ≤ m ∨ n ≤ m := hm
      omega
  | fetch =>
    cases reg with
    | some x =>
      have hret : (x + 1 - 1 : BitVec w) = x := BitVec.add_sub_cancel x 1
      show ShareInv n f a T ⟨s.value, s.data, s.thr.set i
        ⟨if (x + 1 - 1 : BitVec w).toNat < n then .load (x + 1 - 1 : BitVec w).toNat else .done, none⟩⟩
      rw [hret]
      by_cases hx : x.toNat < n
      · rw [if_pos hx]
        refine I.quiet ht ?_ ?_ nofun
        · show some x.toNat = if x.toNat < n then some x.toNat else none
          rw [if_pos hx]
        · show 0 = if x.toNat < n then 0 else 1
          rw [if_pos hx]
      · rw [if_neg hx]
        refine I.quiet ht ?_ ?_ nofun
        · show none = if x.toNat < n then some x.toNat else none
          rw [if_neg hx]
        · show 1 = if x.toNat < n then 0 else 1
          rw [if_neg hx]
    | none =>
      have e0 : outside n (⟨.fetch, none⟩ : CThr w (ShareSt β)) = 0 := rfl
      have hsum := sum_set (outside n) (⟨.fetch, some s.value⟩ : CThr w (ShareSt β)) ht
      have hle := sum_le_length (outside_le n) (s.thr.set i (⟨.fetch, some s.value⟩ : CThr w (ShareSt β)))
      rw [List.length_set, I.len] at hle
      have hcnt := I.count
      have e1 : outside n (⟨.fetch, some s.value⟩ : CThr w (ShareSt β)) = if s.value.toNat < n then 0 else 1 := rfl
      have hnew : s.value.toNat + 1 ≤ n + ((s.thr.set i (⟨.fetch, some s.value⟩ : CThr w (ShareSt β))).map (outside n)).sum := by
        by_cases hv : s.value.toNat < n
        · omega
        · rw [if_neg hv] at e1; omega
      have hinc : (s.value + 1).toNat = s.value.toNat + 1 := inc_toNat (by omega)
      have hh : ∀ k, holds n (⟨.fetch, some s.value⟩ : CThr w (ShareSt β)) = some k → k = s.value.toNat ∧ k < n := by
        intro k h
        have h : (if s.value.toNat < n then some s.value.toNat else none) = some k := h
        by_cases hv : s.value.toNat < n
        · rw [if_pos hv] at h; cases h; exact ⟨rfl, hv⟩
        · rw [if_neg hv] at h; cases h
      show ShareInv n f a T ⟨s.value + 1, s.data, s.thr.set i ⟨.fetch, some s.value⟩⟩
      refine ⟨by rw [← I.len]; exact List.length_set, ?_, ?_, ?_, ?_, ?_, ?_⟩
      · show (s.value + 1).toNat ≤ _
        rw [hinc]; exact hnew
      · intro j l u v hjl hu hv m hm
        rcases set_getElem?_cases ht hu with ⟨rfl, rfl⟩ | ⟨_, gu⟩
        · rcases set_getElem?_cases ht hv with ⟨rfl, _⟩ | ⟨_, gv⟩
          · exact absurd rfl hjl
          · intro hm'
            have := (I.held v (List.mem_of_getElem? gv) m hm').2.1
            have := (hh m hm).1
            omega
        · rcases set_getElem?_cases ht hv with ⟨rfl, rfl⟩ | ⟨_, gv⟩
          · intro hm'
            have := (I.held u (List.mem_of_getElem? gu) m hm).2.1
            have := (hh m hm').1
            omega
          · exact I.uniq _ _ _ _ hjl gu gv m hm
      · intro u hu m hm
        show m < n ∧ m < (s.value + 1).toNat ∧ s.data m = a m
        rw [hinc]
        rcases mem_set_cases hu with rfl | hu
        · obtain ⟨rfl, hn⟩ := hh m hm
          exact ⟨hn, by omega, I.rest _ (Or.inl (Nat.le_refl _))⟩
        · obtain ⟨g1, g2, g3⟩ := I.held u hu m hm
          exact ⟨g1, by omega, g3⟩
      · intro u hu
        rcases mem_set_cases hu with rfl | hu
        · exact nofun
        · exact I.read u hu
      · intro m hm hv hfree
        have hv : m < (s.value + 1).toNat := hv
        rw [hinc] at hv
        have hset := List.getElem?_set_self (a := (⟨.fetch, some s.value⟩ : CThr w (ShareSt β))) hil
        have hmv : m ≠ s.value.toNat := by
          rintro rfl
          refine hfree _ (List.mem_of_getElem? hset) ?_
          show (if s.value.toNat < n then some s.value.toNat else none) = _
          rw [if_pos hm]
        refine I.free m hm (by omega) fun u hu => ?_
        obtain ⟨j, hj, rfl⟩ := List.getElem_of_mem hu
        by_cases hji : j = i
        · subst hji
          have e : s.thr[j] = ⟨.fetch, none⟩ := by rw [List.getElem?_eq_getElem hj] at ht; exact Option.some.inj ht
          rw [e]
          exact nofun
        · refine hfree _ (List.mem_of_getElem? (i := j) ?_)
          rw [List.getElem?_set_ne fun h => hji h.symm]
          exact List.getElem?_eq_getElem hj
      · intro m hm
        have hm : (s.value + 1).toNat ≤ m ∨ n ≤ m := hm
        rw [hinc] at hm
        exact I.rest m (by omega)

theorem ShareInv.start {n : Nat} {f : β → β} {a : Nat → β} {T : Nat} :
    ShareInv n f a T (shareStart a T : CSys w (Nat → β) (ShareSt β)) := by
  have hthr : ∀ t ∈ (shareStart a T : CSys w (Nat → β) (ShareSt β)).thr, t = ⟨.fetch, none⟩ := by
    intro t ht
    simp only [shareStart, actStart, List.map_replicate] at ht
    exact (List.mem_replicate.1 ht).2
  have hz : (0 : BitVec w).toNat = 0 := by simp
  refine ⟨by simp [shareStart, actStart], by show (0 : BitVec w).toNat ≤ _; omega, ?_, ?_, ?_, ?_, fun _ _ => rfl⟩
  · intro i j t u _ ht _ k hk
    rw [hthr t (List.mem_of_getElem? ht)] at hk
    cases hk
  · intro t ht k hk
    rw [hthr t ht] at hk
    cases hk
  · intro t ht k x hk
    rw [hthr t ht] at hk
    cases hk
  · intro k _ hv
    have hv : k < (0 : BitVec w).toNat := hv
    omega

theorem shareInv_run {n : Nat} {f : β → β} {a : Nat → β} {T : Nat} (hT : n + T < 2 ^ w) (sched : List Nat) :
    ShareInv n f a T (actRun (shareAct n f) (shareStart a T : CSys w (Nat → β) (ShareSt β)) sched) :=
  actRun_inv (fun _ _ _ I ht => I.step hT ht) sched .start

/-! ## The end -/

/-- All steps that are left. -/
def allLeft (n : Nat) (s : CSys w (Nat → β) (ShareSt β)) : Nat :=
  (s.thr.map (stepsLeft n)).sum + 4 * (n - s.value.toNat)

/-- A step of a thread that is not through brings the end nearer. -/
theorem ShareInv.less {n : Nat} {f : β → β} {a : Nat → β} {T : Nat} {s : CSys w (Nat → β) (ShareSt β)}
    (hT : n + T < 2 ^ w) (I : ShareInv n f a T s) {i : Nat} {t : CThr w (ShareSt β)} (ht : s.thr[i]? = some t)
    (hd : t.st.isDone = false) : allLeft n (actStep (shareAct n f) s i) + 1 ≤ allLeft n s := by
  rw [actStep_some ht]
  obtain ⟨st, reg⟩ := t
  have hs : ∀ t', ((s.thr.set i t').map (stepsLeft n)).sum + stepsLeft n ⟨st, reg⟩ = (s.thr.map (stepsLeft n)).sum + stepsLeft n t' :=
    fun t' => sum_set (stepsLeft n) t' ht
  cases st with
  | done => cases hd
  | load k =>
    have := hs ⟨.store k (s.data k), none⟩
    have e1 : stepsLeft n (⟨.load k, reg⟩ : CThr w (ShareSt β)) = 4 := rfl
    have e2 : stepsLeft n (⟨.store k (s.data k), none⟩ : CThr w (ShareSt β)) = 3 := rfl
    show ((s.thr.set i ⟨.store k (s.data k), none⟩).map (stepsLeft n)).sum + 4 * (n - s.value.toNat) + 1 ≤ allLeft n s
    unfold allLeft
    omega
  | store k x =>
    have := hs ⟨.fetch, none⟩
    have e1 : stepsLeft n (⟨.store k x, reg⟩ : CThr w (ShareSt β)) = 3 := rfl
    have e2 : stepsLeft n (⟨.fetch, none⟩ : CThr w (ShareSt β)) = 2 := rfl
    show ((s.thr.set i ⟨.fetch, none⟩).map (stepsLeft n)).sum + 4 * (n - s.value.toNat) + 1 ≤ allLeft n s
    unfold allLeft
    omega
  | fetch =>
    cases reg with
    | some x =>
      have hret : (x + 1 - 1 : BitVec w) = x := BitVec.add_sub_cancel x 1
      show allLeft n ⟨s.value, s.data, s.thr.set i
        ⟨if (x + 1 - 1 : BitVec w).toNat < n then .load (x + 1 - 1 : BitVec w).toNat else .done, none⟩⟩ + 1 ≤ allLeft n s
      rw [hret]
      have e1 : stepsLeft n (⟨.fetch, some x⟩ : CThr w (ShareSt β)) = if x.toNat < n then 5 else 1 := rfl
      by_cases hx : x.toNat < n
      · rw [if_pos hx] at e1 ⊢
        have := hs ⟨.load x.toNat, none⟩
        have e2 : stepsLeft n (⟨.load x.toNat, none⟩ : CThr w (ShareSt β)) = 4 := rfl
        show ((s.thr.set i ⟨.load x.toNat, none⟩).map (stepsLeft n)).sum + 4 * (n - s.value.toNat) + 1 ≤ allLeft n s
        unfold allLeft
        omega
      · rw [if_neg hx] at e1 ⊢
        have := hs ⟨.done, none⟩
        have e2 : stepsLeft n (⟨.done, none⟩ : CThr w (ShareSt β)) = 0 := rfl
        show ((s.thr.set i ⟨.done, none⟩).map (stepsLeft n)).sum + 4 * (n - s.value.toNat) + 1 ≤ allLeft n s
        unfold allLeft
        omega
    | none =>
      have hcnt := I.count
      have e0 : outside n (⟨.fetch, none⟩ : CThr w (ShareSt β)) = 0 := rfl
      have hsum := sum_set (outside n) (⟨.done, none⟩ : CThr w (ShareSt β)) ht
      have ed : outside n (⟨.done, none⟩ : CThr w (ShareSt β)) = 1 := rfl
      have hle := sum_le_length (outside_le n) (s.thr.set i (⟨.done, none⟩ : CThr w (ShareSt β)))
      rw [List.length_set, I.len] at hle
      have hinc : (s.value + 1).toNat = s.value.toNat + 1 := inc_toNat (by omega)
      have := hs ⟨.fetch, some s.value⟩
      have e1 : stepsLeft n (⟨.fetch, none⟩ : CThr w (ShareSt β)) = 2 := rfl
      have e2 : stepsLeft n (⟨.fetch, some s.value⟩ : CThr w (ShareSt β)) = if s.value.toNat < n then 5 else 1 := rfl
      show ((s.thr.set i ⟨.fetch, some s.value⟩).map (stepsLeft n)).sum + 4 * (n - (s.value + 1).toNat) + 1 ≤ allLeft n s
      rw [hinc]
      unfold allLeft
      by_cases hv : s.value.toNat < n
      · rw [if_pos hv] at e2; omega
      · rw [if_neg hv] at e2; omega

theorem left_pos {n : Nat} {s : CSys w (Nat → β) (ShareSt β)} {i : Nat} {t : CThr w (ShareSt β)}
    (ht : s.thr[i]? = some t) (hd : t.st.isDone = false) : 0 < allLeft n s := by
  have h := sum_set (stepsLeft n) (⟨.done, none⟩ : CThr w (ShareSt β)) ht
  have e : stepsLeft n (⟨.done, none⟩ : CThr w (ShareSt β)) = 0 := rfl
  have : 0 < stepsLeft n t := by
    obtain ⟨st, reg⟩ := t
    cases st with
    | done => cases hd
    | load k => exact Nat.zero_lt_succ _
    | store k x => exact Nat.zero_lt_succ _
    | fetch =>
      cases reg with
      | none => exact Nat.zero_lt_succ _
      | some x =>
        show 0 < if x.toNat < n then 5 else 1
        split <;> omega
  unfold allLeft
  omega

/-- A thread that is through saw the counter behind the last element. -/
def SawEnd (n : Nat) (s : CSys w (Nat → β) (ShareSt β)) : Prop :=
  ∀ t ∈ s.thr, outside n t = 1 → n ≤ s.value.toNat

theorem sawEnd_step {n : Nat} {f : β → β} {a : Nat → β} {T : Nat} {s : CSys w (Nat → β) (ShareSt β)}
    (hT : n + T < 2 ^ w) (I : ShareInv n f a T s) (hs : SawEnd n s) {i : Nat} {t : CThr w (ShareSt β)}
    (ht : s.thr[i]? = some t) : SawEnd n (actStep (shareAct n f) s i) := by
  have hmem := List.mem_of_getElem? ht
  have quiet : ∀ (d : Nat → β) (t' : CThr w (ShareSt β)), (outside n t' = 1 → n ≤ s.value.toNat) →
      SawEnd n (⟨s.value, d, s.thr.set i t'⟩ : CSys w (Nat → β) (ShareSt β)) := by
    intro d t' h u hu
    rcases mem_set_cases hu with rfl | hu
    · exact h
    · exact hs u hu
  rw [actStep_some ht]
  obtain ⟨st, reg⟩ := t
  cases st with
  | done => exact quiet _ _ (hs _ hmem)
  | load k => exact quiet _ _ nofun
  | store k x => exact quiet _ _ nofun
  | fetch =>
    cases reg with
    | some x =>
      have hret : (x + 1 - 1 : BitVec w) = x := BitVec.add_sub_cancel x 1
      show SawEnd n (⟨s.value, s.data, s.thr.set i
        ⟨if (x + 1 - 1 : BitVec w).toNat < n then .load (x + 1 - 1 : BitVec w).toNat else .done, none⟩⟩ :
          CSys w (Nat → β) (ShareSt β))
      rw [hret]
      refine quiet _ _ fun h => hs _ hmem ?_
      show (if x.toNat < n then 0 else 1) = 1
      by_cases hx : x.toNat < n
      · rw [if_pos hx] at h; cases h
      · rw [if_neg hx]
    | none =>
      have hcnt := I.count
      have e0 : outside n (⟨.fetch, none⟩ : CThr w (ShareSt β)) = 0 := rfl
      have hsum := sum_set (outside n) (⟨.done, none⟩ : CThr w (ShareSt β)) ht
      have ed : outside n (⟨.done, none⟩ : CThr w (ShareSt β)) = 1 := rfl
      have hle := sum_le_length (outside_le n) (s.thr.set i (⟨.done, none⟩ : CThr w (ShareSt β)))
      rw [List.length_set, I.len] at hle
      have hinc : (s.value + 1).toNat = s.value.toNat + 1 := inc_toNat (by omega)
      intro u hu h
      show n ≤ (s.value + 1).toNat
      rw [hinc]
      rcases mem_set_cases hu with rfl | hu
      · have h : (if s.value.toNat < n then 0 else 1) = 1 := h
        by_cases hv : s.value.toNat < n
        · rw [if_pos hv] at h; cases h
        · omega
      · have := hs u hu h
        omega

theorem share_all {n : Nat} {f : β → β} {a : Nat → β} {T : Nat} (hT : n + T < 2 ^ w) (sched : List Nat) (h0 : 0 < T)
    (hd : ∀ t ∈ (actRun (shareAct n f) (shareStart a T : CSys w (Nat → β) (ShareSt β)) sched).thr, t.st = .done) :
    n ≤ (actRun (shareAct n f) (shareStart a T : CSys w (Nat → β) (ShareSt β)) sched).value.toNat := by
  have h : ShareInv n f a T (actRun (shareAct n f) (shareStart a T : CSys w (Nat → β) (ShareSt β)) sched) ∧
      SawEnd n (actRun (shareAct n f) (shareStart a T : CSys w (Nat → β) (ShareSt β)) sched) :=
    actRun_inv (I := fun s => ShareInv n f a T s ∧ SawEnd n s)
      (fun _ _ _ I ht => ⟨I.1.step hT ht, sawEnd_step hT I.1 I.2 ht⟩) sched ⟨.start, by
        intro t ht ho
        simp only [shareStart, actStart, List.map_replicate] at ht
        rw [(List.mem_replicate.1 ht).2] at ho
        cases ho⟩
  obtain ⟨I, hs⟩ := h
  revert I hs hd
  generalize actRun (shareAct n f) (shareStart a T : CSys w (Nat → β) (ShareSt β)) sched = s
  intro hd I hs
  have hl : 0 < s.thr.length := by rw [I.len]; exact h0
  have hm := List.getElem_mem hl
  refine hs _ hm ?_
  have := hd _ hm
  revert this
  generalize s.thr[0] = t
  intro h
  obtain ⟨st, reg⟩ := t
  have h : st = .done := h
  subst h
  rfl

/-- A thread that is through stays so. -/
theorem share_done {n : Nat} {f : β → β} {i : Nat} {t : CThr w (ShareSt β)} : ∀ (sched : List Nat)
    {s : CSys w (Nat → β) (ShareSt β)}, s.thr[i]? = some t → t.st.isDone = true →
    (actRun (shareAct n f) s sched).thr[i]? = some t
  | [], _, ht, _ => ht
  | j :: sched, s, ht, hd => by
    refine share_done sched (s := actStep (shareAct n f) s j) ?_ hd
    cases hj : s.thr[j]? with
    | none => rw [actStep_none hj]; exact ht
    | some u =>
      rw [actStep_some hj]
      by_cases hij : j = i
      · subst hij
        rw [ht] at hj
        cases hj
        obtain ⟨st, reg⟩ := t
        cases st with
        | done => exact List.getElem?_set_self (List.getElem?_eq_some_iff.1 ht).1
        | fetch => cases hd
        | load k => cases hd
        | store k x => cases hd
      · exact (List.getElem?_set_ne hij).trans ht

/-- A thread that is not through at the end took as many steps as it was scheduled. -/
theorem share_spent {n : Nat} {f : β → β} {a : Nat → β} {T : Nat} (hT : n + T < 2 ^ w) {i : Nat} : ∀ (sched : List Nat)
    {s : CSys w (Nat → β) (ShareSt β)}, ShareInv n f a T s →
    ∀ {u : CThr w (ShareSt β)}, (actRun (shareAct n f) s sched).thr[i]? = some u → u.st.isDone = false →
    allLeft n (actRun (shareAct n f) s sched) + sched.count i ≤ allLeft n s
  | [], s, _, u, _, _ => by simp [actRun]
  | j :: sched, s, I, u, hu, hd => by
    have hrun : actRun (shareAct n f) s (j :: sched) = actRun (shareAct n f) (actStep (shareAct n f) s j) sched := rfl
    rw [hrun] at hu ⊢
    cases hj : s.thr[j]? with
    | none =>
      have hs := actStep_none (act := shareAct n f) hj
      rw [hs] at hu ⊢
      have ih := share_spent hT sched I hu hd
      have hij : j ≠ i := by
        rintro rfl
        have I' : ShareInv n f a T (actRun (shareAct n f) s sched) :=
          actRun_inv (fun _ _ _ I ht => I.step hT ht) sched I
        have h1 := (List.getElem?_eq_some_iff.1 hu).1
        have h2 := List.getElem?_eq_none_iff.1 hj
        rw [I'.len] at h1
        rw [I.len] at h2
        omega
      rw [List.count_cons_of_ne hij]
      exact ih
    | some t =>
      have I' := I.step hT hj
      have ih := share_spent hT sched I' hu hd
      cases hdt : t.st.isDone with
      | false =>
        have := I.less hT hj hdt
        have hc : (j :: sched).count i ≤ sched.count i + 1 := by
          rw [List.count_cons]; split <;> omega
        omega
      | true =>
        have hs : actStep (shareAct n f) s j = s := by
          rw [actStep_some hj]
          obtain ⟨st, reg⟩ := t
          cases st with
          | done =>
            show (⟨s.value, s.data, s.thr.set j ⟨.done, reg⟩⟩ : CSys w (Nat → β) (ShareSt β)) = s
            have : s.thr.set j ⟨.done, reg⟩ = s.thr := by
              apply List.ext_getElem?
              intro k
              by_cases hk : k = j
              · subst hk
                rw [List.getElem?_set_self (List.getElem?_eq_some_iff.1 hj).1, hj]
              · rw [List.getElem?_set_ne fun h => hk h.symm]
            rw [this]
          | fetch => cases hdt
          | load k => cases hdt
          | store k x => cases hdt
        have hij : j ≠ i := by
          rintro rfl
          rw [hs] at hu
          have := share_done (n := n) (f := f) sched hj hdt
          rw [this] at hu
          cases hu
          rw [hdt] at hd
          cases hd
        rw [List.count_cons_of_ne hij]
        rw [hs] at ih ⊢
        exact ih

end Zy
