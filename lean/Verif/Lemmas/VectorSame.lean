import Verif.Spec.VectorSame
import Verif.Lemmas.Vector

/-!
# Lemmas: the capacity of a vector is not seen
-/

namespace Zy

open Spec

variable {α : Type}

theorem room_some {P : Params} {cap need : Nat} (h : P.allocator.isSome ∨ need ≤ cap) :
    ∃ c, room P cap need = some c ∧ (P.allocator = none → c = cap) := by
  unfold room
  by_cases hn : need ≤ cap
  · exact ⟨cap, if_pos hn, fun _ => rfl⟩
  · rw [if_neg hn, if_pos (h.resolve_right hn)]
    exact ⟨_, rfl, fun e => by rw [e] at h; exact absurd (h.resolve_right hn) (by simp)⟩

theorem trim_none {P : Params} {cap len : Nat} (h : P.allocator = none) : trim P cap len = cap := by
  unfold trim; rw [h]; exact if_neg (by simp)

/-- One step, with all slots that it needs. -/
theorem step_plain {P : Params} (j : List (Cell α)) {a : LState α} {op : VOp α} (hp : Plain op)
    (hd : P.allocator.isSome ∨ demand a.elems op ≤ a.cap) :
    (step P j a op).1 = (plainStep a.elems op).1 ∧ (step P j a op).2.elems = (plainStep a.elems op).2.1 ∧
      (step P j a op).2.dead = a.dead ++ killed P (plainStep a.elems op).2.2 ∧
      (P.allocator = none → (step P j a op).2.cap = a.cap) := by
  have hk : killed P ([] : List (Cell α)) = [] := by unfold killed; split <;> rfl
  cases op with
  | push x =>
    obtain ⟨c, e, hc⟩ := room_some (need := a.elems.length + 1) hd
    simp only [step, e, plainStep, hk, List.append_nil, true_and]
    exact hc
  | insertRange i ys =>
    simp only [step, plainStep, demand] at hd ⊢
    by_cases h0 : ys = []
    · simp [h0, hk]
    by_cases hi : i ≤ a.elems.length
    · rw [if_pos hi] at hd
      obtain ⟨c, e, hc⟩ := room_some hd
      simp only [if_neg h0, if_pos hi, if_neg (Nat.not_lt.2 hi), e, hk, List.append_nil, true_and]
      exact hc
    · simp [h0, hi, Nat.lt_of_not_le hi, hk]
  | emplace i c =>
    cases c with
    | none => exact hp.elim
    | some f =>
      simp only [step, plainStep, demand] at hd ⊢
      by_cases hi : i ≤ a.elems.length
      · rw [if_pos hi] at hd
        obtain ⟨c, e, hc⟩ := room_some hd
        simp only [if_pos hi, if_neg (Nat.not_lt.2 hi), e, hp j.head?.join none]
        by_cases hf : failed (f none).1 = true
        · simp only [if_pos hf, hk, List.append_nil, true_and]; exact hc
        · simp only [if_neg hf, hk, List.append_nil, true_and]; exact hc
      · simp [hi, Nat.lt_of_not_le hi, hk]
  | set i x =>
    simp only [step, plainStep]
    cases a.elems[i]? <;> simp [hk]
  | swap i j => exact hp.elim
  | deleteRange i n =>
    simp only [step, plainStep]
    by_cases h0 : n = 0
    · simp [h0, hk]
    by_cases hi : i + n ≤ a.elems.length
    · simp only [if_neg h0, if_pos hi, if_neg (Nat.not_lt.2 hi), true_and]
      exact fun h => trim_none h
    · simp [h0, hi, Nat.lt_of_not_le hi, hk]
  | pop =>
    simp only [step, plainStep]
    cases h : a.elems.getLast? with
    | none => simp [List.getLast?_eq_none_iff.1 h, hk]
    | some x =>
      have : a.elems ≠ [] := fun e => by rw [e] at h; cases h
      simp only [if_neg this, Option.toList_some, true_and]
      exact fun h => trim_none h
  | clear =>
    simp only [step, plainStep]
    by_cases h : a.elems = []
    · simp [h, hk]
    · simp only [if_neg h, true_and]
      exact fun h => trim_none h
  | resize n init =>
    cases init with
    | none => exact hp.elim
    | some x =>
      simp only [step, plainStep, demand, newElems, Option.getD_some] at hd ⊢
      by_cases h1 : n = a.elems.length
      · subst h1; simp [hk]
      obtain ⟨c, e, hc⟩ := room_some hd
      simp only [if_neg h1, e]
      by_cases h2 : n ≤ a.elems.length
      · simp only [if_pos h2, Nat.sub_eq_zero_of_le h2, List.replicate_zero, List.append_nil, true_and]
        exact fun h => trim_none h
      · simp only [if_neg h2, List.take_of_length_le (Nat.le_of_not_le h2), List.drop_of_length_le (Nat.le_of_not_le h2),
          hk, List.append_nil, true_and]
        intro h
        split
        · exact trim_none h
        · exact hc h
  | reserve c =>
    simp only [step, plainStep, demand] at hd ⊢
    by_cases h1 : c ≤ a.cap
    · simp [h1, hk]
    · have h2 := hd.resolve_right h1
      simp only [if_neg h1, if_pos h2, hk, List.append_nil, true_and]
      intro e; rw [e] at h2; exact absurd h2 (by simp)
  | shrinkToFit =>
    simp only [step, plainStep, hk, List.append_nil, true_and]
    cases h : P.allocator with
    | none => simp
    | some b => simp

/-- A whole history. -/
theorem runs_plain {P : Params} {a a' : LState α} {ops : List (VOp α)} {sts : List Status} (h : Runs P a ops sts a')
    (hp : ∀ op ∈ ops, Plain op) (hd : P.allocator.isSome ∨ Within a.cap a.elems ops) :
    sts = (plainRun a.elems ops).1 ∧ a'.elems = (plainRun a.elems ops).2.1 ∧
      a'.dead = a.dead ++ killed P (plainRun a.elems ops).2.2 := by
  induction h with
  | nil s => exact ⟨rfl, rfl, by unfold killed; simp [plainRun]⟩
  | cons junk hj h t ih =>
    obtain ⟨e1, e2, e3, e4⟩ := step_plain junk (hp _ (by simp)) (hd.imp_right fun h => h.1)
    rw [h] at e1 e2 e3 e4
    dsimp only at e1 e2 e3 e4
    obtain ⟨f1, f2, f3⟩ := ih (fun op ho => hp op (by simp [ho])) (by
      cases hA : P.allocator with
      | some b => exact Or.inl rfl
      | none =>
        refine Or.inr ?_
        rw [hA] at hd
        rw [e4 hA, e2]
        exact (hd.resolve_left (by simp)).2)
    rw [e2] at f1 f2 f3
    refine ⟨by rw [f1, e1]; rfl, by rw [f2]; rfl, ?_⟩
    rw [f3, e3, plainRun]
    unfold killed
    split <;> simp

end Zy
