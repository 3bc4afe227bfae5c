import Verif.Spec.Rotate
import Verif.Lemmas.Undo

/-!
# Lemmas: turning and mirroring a list
-/

namespace Zy

open Spec

open Zy.LT (Specified)

variable {α : Type}

theorem serves_append {K : Source} : ∀ {p q : List (LOp α)} {asked : Nat} {xs : List (Cell α)}, Serves K asked xs p →
    Serves K (asked + wantsAll xs p) (lineRun xs p).2 q → Serves K asked xs (p ++ q)
  | [], _, _, _, _, h => h
  | op :: p, q, asked, xs, h, g => by
    refine ⟨h.1, serves_append h.2 ?_⟩
    have e : asked + wantsAll xs (op :: p) = asked + wants xs op + wantsAll (lineStep xs op).2 p := by
      show asked + (wants xs op + wantsAll (lineStep xs op).2 p) = _
      omega
    rw [e] at g
    exact g

theorem lineStep_length (xs : List (Cell α)) (op : LOp α) : (lineStep xs op).2.length ≤ xs.length + wants xs op := by
  cases op with
  | pushBackOf i =>
    simp only [lineStep, wants]
    by_cases h : i < xs.length
    · rw [List.getElem?_eq_getElem h, if_pos h]
      simp
    · rw [List.getElem?_eq_none (by omega), if_neg h]
      simp
  | pushFrontOf i =>
    simp only [lineStep, wants]
    by_cases h : i < xs.length
    · rw [List.getElem?_eq_getElem h, if_pos h]
      simp
    · rw [List.getElem?_eq_none (by omega), if_neg h]
      simp
  | popBack =>
    simp only [lineStep, wants]
    split <;> simp
  | popFront =>
    simp only [lineStep, wants]
    split <;> simp
  | set i x =>
    simp only [lineStep, wants]
    split <;> simp
  | clear => simp [lineStep]
  | resize n i =>
    simp only [lineStep, wants, List.length_append, List.length_take, List.length_replicate]
    omega
  | _ => simp [lineStep, wants]

theorem served_length {n : Nat} : ∀ {ops : List (LOp α)} {asked : Nat} {xs : List (Cell α)},
    Serves (.fixed n) asked xs ops → xs.length ≤ n → (lineRun xs ops).2.length ≤ n
  | [], _, _, _, h => h
  | op :: ops, asked, xs, hs, h => by
    refine served_length (ops := ops) (asked := asked + wants xs op) (xs := (lineStep xs op).2) hs.2 ?_
    have := lineStep_length xs op
    rcases hs.1 with g | g <;> omega

theorem rotated_zero (xs : List (Cell α)) : rotated xs 0 = xs := by simp [rotated]

theorem rotated_succ (x : Cell α) (xs : List (Cell α)) (k : Nat) : rotated (xs ++ [x]) k = rotated (x :: xs) (k + 1) := by
  unfold rotated
  have hl : (xs ++ [x]).length = xs.length + 1 := by simp
  rw [hl, List.length_cons]
  have hk : k % (xs.length + 1) < xs.length + 1 := Nat.mod_lt _ (by omega)
  have hm : (k + 1) % (xs.length + 1) = if k % (xs.length + 1) = xs.length then 0 else k % (xs.length + 1) + 1 := by
    rw [Nat.add_mod]
    generalize k % (xs.length + 1) = m at hk
    split
    · subst m
      cases xs.length with
      | zero => rfl
      | succ l => rw [Nat.mod_eq_of_lt (a := 1) (by omega)]; exact Nat.mod_self _
    · rw [Nat.mod_eq_of_lt (a := 1) (by omega), Nat.mod_eq_of_lt (by omega)]
  rw [hm]
  generalize k % (xs.length + 1) = m at hk
  split
  · subst m
    simp
  · rw [List.drop_append_of_le_length (by omega), List.take_append_of_le_length (by omega)]
    simp

theorem turns_run : ∀ (k : Nat) (xs : List (Cell α)), xs ≠ [] →
    lineRun xs (turns α k) = (List.replicate (2 * k) stSuccess, rotated xs k)
  | 0, xs, _ => by rw [rotated_zero]; rfl
  | k + 1, [], h => absurd rfl h
  | k + 1, x :: xs, _ => by
    show (stSuccess :: stSuccess :: (lineRun (xs ++ [x]) (turns α k)).1, (lineRun (xs ++ [x]) (turns α k)).2) = _
    rw [turns_run k (xs ++ [x]) (by simp), rotated_succ]
    rfl

theorem carries_run : ∀ (k : Nat) (xs : List (Cell α)), xs ≠ [] →
    lineRun xs (carries xs k) = (List.replicate (2 * k) stSuccess, rotated xs k)
  | 0, xs, _ => by
    rw [rotated_zero]
    cases xs <;> rfl
  | k + 1, [], h => absurd rfl h
  | k + 1, x :: xs, _ => by
    show (stSuccess :: stSuccess :: (lineRun (xs ++ [x]) (carries (xs ++ [x]) k)).1,
      (lineRun (xs ++ [x]) (carries (xs ++ [x]) k)).2) = _
    rw [carries_run k (xs ++ [x]) (by simp), rotated_succ]
    rfl

theorem turns_serves {K : Source} : ∀ (k asked : Nat) (xs : List (Cell α)), xs ≠ [] → NextGranted K asked k →
    Spare K xs.length → Serves K asked xs (turns α k)
  | 0, _, _, _, _, _ => trivial
  | k + 1, _, [], h, _, _ => absurd rfl h
  | k + 1, asked, x :: xs, _, hg, hs => by
    refine ⟨?_, ?_, ?_⟩
    · cases K with
      | dynamic answer =>
        intro i hi
        have hi : i < 1 := by simpa [wants] using hi
        exact hg i (by omega)
      | fixed n =>
        have hs : (x :: xs).length < n := hs
        left
        simp only [wants]
        split <;> omega
    · cases K with
      | dynamic answer => intro i hi; cases hi
      | fixed n => exact Or.inr rfl
    · have e : asked + wants (x :: xs) (.pushBackOf 0) = asked + 1 := by simp [wants]
      show Serves K (asked + wants (x :: xs) (.pushBackOf 0)) (xs ++ [x]) (turns α k)
      rw [e]
      refine turns_serves k (asked + 1) (xs ++ [x]) (by simp) ?_ ?_
      · cases K with
        | dynamic answer =>
          intro i hi
          have := hg (i + 1) (by omega)
          rwa [show asked + (i + 1) = asked + 1 + i by omega] at this
        | fixed n => trivial
      · cases K with
        | dynamic answer => trivial
        | fixed n =>
          have hs : (x :: xs).length < n := hs
          show (xs ++ [x]).length < n
          simpa using hs

theorem carries_serves {K : Source} : ∀ (k asked : Nat) (xs : List (Cell α)), NextGranted K asked k →
    (∀ n, K = .fixed n → xs.length ≤ n) → Serves K asked xs (carries xs k)
  | 0, _, xs, _, _ => by cases xs <;> trivial
  | k + 1, _, [], _, _ => trivial
  | k + 1, asked, x :: xs, hg, hs => by
    refine ⟨?_, ?_, ?_⟩
    · cases K with
      | dynamic answer => intro i hi; cases hi
      | fixed n => exact Or.inr rfl
    · cases K with
      | dynamic answer =>
        intro i hi
        have hi : i < 1 := hi
        exact hg i (by omega)
      | fixed n =>
        have := hs n rfl
        left
        show xs.length + 1 ≤ n
        simpa using this
    · show Serves K (asked + 1) (xs ++ [x]) (carries (xs ++ [x]) k)
      refine carries_serves k (asked + 1) (xs ++ [x]) ?_ ?_
      · cases K with
        | dynamic answer =>
          intro i hi
          have := hg (i + 1) (by omega)
          rwa [show asked + (i + 1) = asked + 1 + i by omega] at this
        | fixed n => trivial
      · intro n hn
        have := hs n hn
        simpa using this

theorem sets_run : ∀ (ys pre cur : List (Cell α)), cur.length = ys.length →
    lineRun (pre ++ cur) ((ys.zipIdx pre.length).map fun p => .set p.2 p.1) =
      (List.replicate ys.length stSuccess, pre ++ ys)
  | [], pre, cur, h => by
    have := List.length_eq_zero_iff.1 h
    subst this
    rfl
  | y :: ys, pre, [], h => by cases h
  | y :: ys, pre, c :: cur, h => by
    have e : lineStep (pre ++ c :: cur) (.set pre.length y) = (stSuccess, (pre ++ [y]) ++ cur) := by
      simp only [lineStep]
      rw [if_pos (by simp)]
      simp
    have ih := sets_run ys (pre ++ [y]) cur (by simpa using h)
    rw [show (pre ++ [y]).length = pre.length + 1 by simp] at ih
    show ((lineStep (pre ++ c :: cur) (.set pre.length y)).1 ::
      (lineRun (lineStep (pre ++ c :: cur) (.set pre.length y)).2 ((ys.zipIdx (pre.length + 1)).map _)).1,
      (lineRun (lineStep (pre ++ c :: cur) (.set pre.length y)).2 ((ys.zipIdx (pre.length + 1)).map _)).2) = _
    rw [e, ih]
    simp [List.replicate_succ]

theorem mirror_run (xs : List (Cell α)) :
    lineRun xs (mirror xs) = (List.replicate xs.length stSuccess, xs.reverse) := by
  have := sets_run xs.reverse [] xs (by simp)
  simpa [mirror] using this

theorem sets_serves {K : Source} : ∀ (ys : List (Cell α)) (m asked : Nat) (xs : List (Cell α)),
    Serves K asked xs ((ys.zipIdx m).map fun p => .set p.2 p.1)
  | [], _, _, _ => trivial
  | _ :: ys, m, asked, xs => by
    refine ⟨?_, sets_serves ys (m + 1) _ _⟩
    cases K with
    | dynamic answer => intro i hi; cases hi
    | fixed n => exact Or.inr rfl

theorem turns_specified : ∀ (k : Nat), ∀ o ∈ turns α k, Specified o
  | 0, _, ho => by cases ho
  | k + 1, o, ho => by
    simp only [turns, List.mem_cons] at ho
    rcases ho with rfl | rfl | ho
    · trivial
    · trivial
    · exact turns_specified k o ho

theorem carries_specified : ∀ (k : Nat) (xs : List (Cell α)), ∀ o ∈ carries xs k, Specified o
  | 0, xs, _, ho => by cases xs <;> cases ho
  | k + 1, [], _, ho => by cases ho
  | k + 1, x :: xs, o, ho => by
    simp only [carries, List.mem_cons] at ho
    rcases ho with rfl | rfl | ho
    · trivial
    · trivial
    · exact carries_specified k _ o ho

theorem mirror_specified (xs : List (Cell α)) : ∀ o ∈ mirror xs, Specified o := by
  intro o ho
  obtain ⟨p, _, rfl⟩ := List.mem_map.1 ho
  trivial

theorem turns_cost : ∀ k : Nat, ((turns α k).map lcost).sum = 2 * k
  | 0 => rfl
  | k + 1 => by
    have := turns_cost k
    simp only [turns, List.map_cons, List.sum_cons, lcost, this]
    omega

theorem carries_cost : ∀ (k : Nat) (xs : List (Cell α)), ((carries xs k).map lcost).sum ≤ 2 * k
  | 0, xs => by cases xs <;> simp [carries]
  | k + 1, [] => by simp [carries]
  | k + 1, x :: xs => by
    have := carries_cost k (xs ++ [x])
    simp only [carries, List.map_cons, List.sum_cons, lcost]
    omega

theorem mirror_cost (xs : List (Cell α)) : ((mirror xs).map lcost).sum = xs.length := by
  have : ∀ (ys : List (Cell α)) (m : Nat),
      (((ys.zipIdx m).map fun p => (LOp.set p.2 p.1 : LOp α)).map lcost).sum = ys.length := by
    intro ys
    induction ys with
    | nil => intro m; rfl
    | cons y ys ih =>
      intro m
      have := ih (m + 1)
      simp only [List.zipIdx_cons, List.map_cons, List.sum_cons, List.length_cons, lcost]
      rw [this]
      omega
  have := this xs.reverse 0
  simpa [mirror] using this

end Zy
