import Verif.Spec.ListSame
import Verif.Lemmas.ListProps
import Verif.Lemmas.ListTargetReach

/-!
# Lemmas: lists that get all their memory do the same
-/

namespace Zy

open Spec

open Zy.LT (Specified)

variable {α : Type}

/-- An allocator that never refuses. -/
@[reducible] def ampleK : Source := .dynamic fun _ => stSuccess

/-- The next request is not refused. -/
def Next (K : Source) (asked len : Nat) : Prop :=
  match K with
  | .dynamic answer => failed (answer asked) = false
  | .fixed n => len < n

/-- The next `m` requests are not refused. -/
def Nexts (K : Source) (asked len m : Nat) : Prop :=
  match K with
  | .dynamic answer => ∀ k < m, failed (answer (asked + k)) = false
  | .fixed n => len + m ≤ n ∨ m = 0

theorem granted_nexts {K : Source} {asked : Nat} {xs : List (Cell α)} {op : LOp α} :
    Granted K asked xs op ↔ Nexts K asked xs.length (wants xs op) := by
  cases K <;> exact Iff.rfl

theorem nexts_succ {K : Source} {asked len m : Nat} :
    Nexts K asked len (m + 1) ↔ Next K asked len ∧ Nexts K (asked + 1) (len + 1) m := by
  cases K with
  | dynamic answer =>
    constructor
    · intro h
      exact ⟨h 0 (by omega), fun k hk => by
        have := h (k + 1) (by omega)
        rwa [show asked + (k + 1) = asked + 1 + k by omega] at this⟩
    · rintro ⟨h0, h⟩ k hk
      cases k with
      | zero => exact h0
      | succ k =>
        rw [show asked + (k + 1) = asked + 1 + k by omega]
        exact h k (by omega)
  | fixed n => simp only [Nexts, Next]; omega

theorem nexts_one {K : Source} {asked len : Nat} : Nexts K asked len 1 ↔ Next K asked len := by
  rw [nexts_succ]
  refine ⟨fun h => h.1, fun h => ⟨h, ?_⟩⟩
  cases K with
  | dynamic answer => intro k hk; omega
  | fixed n => exact Or.inr rfl

theorem next_answer {K : Source} {d : Deque α} :
    Next K d.asked d.elems.length ↔ failed (answerOf K d) = false := by
  cases K with
  | dynamic answer => exact Iff.rfl
  | fixed n =>
    simp only [Next, answerOf]
    split
    · rename_i h; exact ⟨fun _ => failed_success, fun _ => h⟩
    · rename_i h; exact ⟨fun h' => absurd h' h, fun h' => absurd h' (by decide)⟩

theorem addBack_next {K : Source} {d : Deque α} (h : Next K d.asked d.elems.length) (x : Cell α) :
    addBack K d x = (stSuccess, { d with elems := d.elems ++ [x], asked := d.asked + 1 }) := by
  unfold addBack; rw [next_answer.1 h]; rfl

theorem addFront_next {K : Source} {d : Deque α} (h : Next K d.asked d.elems.length) (x : Cell α) :
    addFront K d x = (stSuccess, { d with elems := x :: d.elems, asked := d.asked + 1 }) := by
  unfold addFront; rw [next_answer.1 h]; rfl

theorem addMany_nexts {K : Source} : ∀ (xs : List (Cell α)) {d : Deque α}, Nexts K d.asked d.elems.length xs.length →
    addMany K d xs = (stSuccess, { d with elems := d.elems ++ xs, asked := d.asked + xs.length })
  | [], d, _ => by simp [addMany]
  | x :: xs, d, h => by
    rw [List.length_cons, nexts_succ] at h
    rw [addMany, addBack_next h.1]
    dsimp only
    rw [failed_success, if_neg Bool.false_ne_true, addMany_nexts xs (by
      show Nexts K (d.asked + 1) (d.elems ++ [x]).length xs.length
      rw [List.length_append]; exact h.2)]
    simp only [List.append_assoc, List.singleton_append, List.length_cons]
    rw [show d.asked + 1 + xs.length = d.asked + (xs.length + 1) by omega]

theorem addBack_refused {K : Source} {d : Deque α} (h : ¬ Next K d.asked d.elems.length) (x : Cell α) :
    (addBack K d x).1 = answerOf K d ∧ failed (addBack K d x).1 = true := by
  have : failed (answerOf K d) = true := by
    rw [next_answer] at h; simpa using h
  unfold addBack; rw [this]; exact ⟨rfl, this⟩

theorem addFront_refused {K : Source} {d : Deque α} (h : ¬ Next K d.asked d.elems.length) (x : Cell α) :
    (addFront K d x).1 = answerOf K d ∧ failed (addFront K d x).1 = true := by
  have : failed (answerOf K d) = true := by
    rw [next_answer] at h; simpa using h
  unfold addFront; rw [this]; exact ⟨rfl, this⟩

theorem addMany_refused {K : Source} : ∀ (xs : List (Cell α)) {d : Deque α},
    ¬ Nexts K d.asked d.elems.length xs.length → failed (addMany K d xs).1 = true
  | [], d, h => by
    refine absurd ?_ h
    cases K with
    | dynamic answer => intro k hk; cases hk
    | fixed n => exact Or.inr rfl
  | x :: xs, d, h => by
    rw [List.length_cons, nexts_succ] at h
    rw [addMany]
    by_cases hn : Next K d.asked d.elems.length
    · rw [addBack_next hn]
      dsimp only
      rw [failed_success, if_neg Bool.false_ne_true]
      refine addMany_refused xs ?_
      show ¬ Nexts K (d.asked + 1) (d.elems ++ [x]).length xs.length
      rw [List.length_append]
      exact fun h' => h ⟨hn, h'⟩
    · have := (addBack_refused hn x).2
      rw [this, if_pos rfl]
      exact this

/-- With all memory granted the source does not matter. -/
theorem lstep_granted {K : Source} {dt : Bool} (j : List (Cell α)) {d : Deque α} {op : LOp α} (hs : Specified op)
    (hg : Granted K d.asked d.elems op) :
    lstep K dt j d op = lstep ampleK dt [] d op ∧ (lstep ampleK dt [] d op).1 = (lineStep d.elems op).1 ∧
      (lstep ampleK dt [] d op).2.elems = (lineStep d.elems op).2 ∧
      (lstep ampleK dt [] d op).2.asked = d.asked + wants d.elems op := by
  have hA : ∀ m, Nexts ampleK d.asked d.elems.length m := fun m k _ => failed_success
  have hA1 : Next ampleK d.asked d.elems.length := failed_success
  rw [LT.lstep_specified K dt j [] d hs]
  rw [granted_nexts] at hg
  cases op with
  | pushBack x =>
    rw [show wants d.elems (.pushBack x) = 1 from rfl, nexts_one] at hg
    simp only [lstep, addBack_next hg, addBack_next hA1, lineStep, wants, and_self]
  | pushFront x =>
    rw [show wants d.elems (.pushFront x) = 1 from rfl, nexts_one] at hg
    simp only [lstep, addFront_next hg, addFront_next hA1, lineStep, wants, and_self]
  | pushBackOf i =>
    simp only [lstep, lineStep, wants] at hg ⊢
    cases hi : d.elems[i]? with
    | none =>
      have : ¬ i < d.elems.length := by rw [List.getElem?_eq_none_iff] at hi; omega
      simp [this]
    | some x =>
      have : i < d.elems.length := (List.getElem?_eq_some_iff.1 hi).1
      rw [if_pos this, nexts_one] at hg
      simp only [addBack_next hg, addBack_next hA1, if_pos this, and_self]
  | pushFrontOf i =>
    simp only [lstep, lineStep, wants] at hg ⊢
    cases hi : d.elems[i]? with
    | none =>
      have : ¬ i < d.elems.length := by rw [List.getElem?_eq_none_iff] at hi; omega
      simp [this]
    | some x =>
      have : i < d.elems.length := (List.getElem?_eq_some_iff.1 hi).1
      rw [if_pos this, nexts_one] at hg
      simp only [addFront_next hg, addFront_next hA1, if_pos this, and_self]
  | emplaceBack c =>
    rw [show wants d.elems (.emplaceBack c) = 1 from rfl, nexts_one] at hg
    simp only [lstep, addBack_next hg, addBack_next hA1, lineStep, wants, List.head?_nil, Option.join_none, and_self]
  | emplaceFront c =>
    rw [show wants d.elems (.emplaceFront c) = 1 from rfl, nexts_one] at hg
    simp only [lstep, addFront_next hg, addFront_next hA1, lineStep, wants, List.head?_nil, Option.join_none, and_self]
  | popBack =>
    simp only [lstep, lineStep, wants]
    split <;> simp
  | popFront =>
    simp only [lstep, lineStep, wants]
    cases hx : d.elems with
    | nil => simp [hx]
    | cons x xs => simp
  | set i x =>
    simp only [lstep, lineStep, wants]
    cases hi : d.elems[i]? with
    | none =>
      have : ¬ i < d.elems.length := by rw [List.getElem?_eq_none_iff] at hi; omega
      simp [this]
    | some y =>
      have : i < d.elems.length := (List.getElem?_eq_some_iff.1 hi).1
      simp [this]
  | clear => simp [lstep, lineStep, wants]
  | resize n init =>
    cases init with
    | none => exact hs.elim
    | some x =>
      simp only [lstep, lineStep, wants, fresh, Option.getD_some] at hg ⊢
      by_cases h0 : n = 0
      · simp [h0]
      rw [if_neg h0, if_neg h0]
      by_cases hn : n ≤ d.elems.length
      · simp [hn, Nat.sub_eq_zero_of_le hn]
      · rw [if_neg hn, if_neg hn, addMany_nexts _ (by rw [List.length_replicate]; exact hg),
          addMany_nexts _ (hA _)]
        refine ⟨rfl, rfl, ?_, by simp⟩
        rw [List.take_of_length_le (by omega)]

/-- Without all memory the operation fails. -/
theorem lstep_refused {K : Source} {dt : Bool} (j : List (Cell α)) {d : Deque α} {op : LOp α} (hs : Specified op)
    (hg : ¬ Granted K d.asked d.elems op) : failed (lstep K dt j d op).1 = true := by
  have h0 : wants d.elems op ≠ 0 := by
    intro h0
    rw [granted_nexts, h0] at hg
    refine hg ?_
    cases K with
    | dynamic answer => intro k hk; cases hk
    | fixed n => exact Or.inr rfl
  rw [granted_nexts] at hg
  cases op with
  | pushBack x =>
    rw [show wants d.elems (.pushBack x) = 1 from rfl, nexts_one] at hg
    exact (addBack_refused hg x).2
  | pushFront x =>
    rw [show wants d.elems (.pushFront x) = 1 from rfl, nexts_one] at hg
    exact (addFront_refused hg x).2
  | pushBackOf i =>
    simp only [lstep, wants] at h0 hg ⊢
    by_cases hi : i < d.elems.length
    · rw [if_pos hi, nexts_one] at hg
      rw [List.getElem?_eq_getElem hi]
      exact (addBack_refused hg _).2
    · rw [if_neg hi] at h0; exact absurd rfl h0
  | pushFrontOf i =>
    simp only [lstep, wants] at h0 hg ⊢
    by_cases hi : i < d.elems.length
    · rw [if_pos hi, nexts_one] at hg
      rw [List.getElem?_eq_getElem hi]
      exact (addFront_refused hg _).2
    · rw [if_neg hi] at h0; exact absurd rfl h0
  | emplaceBack c =>
    rw [show wants d.elems (.emplaceBack c) = 1 from rfl, nexts_one] at hg
    exact (addBack_refused hg _).2
  | emplaceFront c =>
    rw [show wants d.elems (.emplaceFront c) = 1 from rfl, nexts_one] at hg
    exact (addFront_refused hg _).2
  | popBack => exact absurd rfl h0
  | popFront => exact absurd rfl h0
  | set i x => exact absurd rfl h0
  | clear => exact absurd rfl h0
  | resize n init =>
    cases init with
    | none => exact hs.elim
    | some x =>
      simp only [lstep, wants, fresh] at h0 hg ⊢
      rw [if_neg (by omega), if_neg (by omega)]
      exact addMany_refused _ (by rw [List.length_replicate]; exact hg)

/-- A history that gets all its memory. -/
theorem lruns_served {K : Source} {dt : Bool} {d d' : Deque α} {ops : List (LOp α)} {sts : List Status}
    (h : LRuns K dt d ops sts d') (hs : ∀ op ∈ ops, Specified op) (hg : Serves K d.asked d.elems ops) :
    LRuns ampleK dt d ops sts d' ∧ sts = (lineRun d.elems ops).1 ∧ d'.elems = (lineRun d.elems ops).2 ∧
      d'.asked = d.asked + wantsAll d.elems ops := by
  induction h with
  | nil s => exact ⟨.nil s, rfl, rfl, rfl⟩
  | cons junk hj h t ih =>
    obtain ⟨e1, e2, e3, e4⟩ := lstep_granted junk (hs _ (by simp)) hg.1 (dt := dt)
    have h2 := h
    rw [e1] at h2
    rw [h2] at e2 e3 e4
    obtain ⟨f1, f2, f3, f4⟩ := ih (fun op hop => hs op (by simp [hop])) (by rw [e3, e4]; exact hg.2)
    refine ⟨.cons junk hj ?_ f1, ?_, ?_, ?_⟩
    · rw [LT.lstep_specified ampleK dt junk [] _ (hs _ (by simp))]; exact h2
    · rw [lineRun, ← e2, ← e3, f2]
    · rw [lineRun, ← e3, f3]
    · rw [wantsAll, ← e3, f4, e4]; dsimp only; omega

/-- The last call of a history. -/
theorem lruns_snoc {K : Source} {dt : Bool} : ∀ {ops : List (LOp α)} {d d' : Deque α} {op : LOp α} {sts : List Status},
    LRuns K dt d (ops ++ [op]) sts d' → ∃ sts₁ d₁ st, sts = sts₁ ++ [st] ∧ LRuns K dt d ops sts₁ d₁ ∧
      ∃ junk, lstep K dt junk d₁ op = (st, d')
  | [], d, d', op, _, h => by
    cases h with
    | cons junk hj h t => cases t; exact ⟨[], d, _, rfl, .nil d, junk, h⟩
  | o :: ops, d, d', op, _, h => by
    cases h with
    | cons junk hj h t =>
      obtain ⟨sts₁, d₁, st, rfl, r1, r2⟩ := lruns_snoc t
      exact ⟨_ :: sts₁, d₁, st, rfl, .cons junk hj h r1, r2⟩

end Zy
