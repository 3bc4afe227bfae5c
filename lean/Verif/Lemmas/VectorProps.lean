import Verif.Lemmas.VectorSearch

/-!
# Helper lemmas for the property theorems about vectors
-/

namespace Zy

open Spec

variable {α : Type}

/-! ## Evaluating the binary search -/

theorem withData_some {β : Type} (b : Block α) (f : Block α → Out β) : withData (some b) f = f b := rfl

theorem bsearch_start (cells : List (Cell α)) (cmp : Cell α → Int) {i n : Nat}
    (h64 : i + n < 9223372036854775808) (h0 : 0 < n) :
    bsearchLoop cells cmp (n + 1) (toI64 i) (toI64 (sub64 (i + n) 1)) stFalse [] =
    bsearchLoop cells cmp (n + 1) (i : Int) (((i + n : Nat) : Int) - 1) stFalse [] := by
  rw [toI64_last (by omega) h64, toI64_small (by omega)]

theorem Rep.len63 {P : Params} {s : VS α} {a : LState α} {b : Block α} {slack : List (Cell α)} (R : Rep P s a b slack) : a.elems.length < 9223372036854775808 := by
  have h1 := (R.fits.mul_growth (g := 255) (by omega) R.esz1).2.1
  omega

theorem bsearch_eval {P : Params} {s : VS α} {a : LState α} {b : Block α} {slack : List (Cell α)}
    (R : Rep P s a b slack) (cmp : Cell α → Int) {i n : Nat} (hin : i + n ≤ a.elems.length) (h0 : n ≠ 0) :
    vecBinarySearchEx s cmp i n =
      (bsearchLoop b.cells cmp (n + 1) (i : Int) (((i + n : Nat) : Int) - 1) stFalse []).bind fun r =>
        .ret (r.1, some (toU64 r.2.1), r.2.2) := by
  have h63 := R.len63
  have hadd : add64 i n = i + n := add64_eq (by omega)
  unfold vecBinarySearchEx
  rw [hadd, R.size, if_neg (by omega), if_neg h0, R.data]
  rw [withData_some]
  rw [bsearch_start b.cells cmp (by omega) (by omega)]

/-! ## Conservation of elements -/

theorem killed_true {P : Params} (h : P.dtor = true) (xs : List (Cell α)) : killed P xs = xs := by
  simp [killed, h]

theorem set_perm {l : List (Cell α)} {i : Nat} {old x : Cell α} (h : l[i]? = some old) :
    (old :: l.set i x).Perm (x :: l) := by
  obtain ⟨hi, rfl⟩ := List.getElem?_eq_some_iff.1 h
  have h1 : l = l.take i ++ l[i] :: l.drop (i + 1) := by
    rw [← List.drop_eq_getElem_cons hi, List.take_append_drop]
  rw [List.set_eq_take_append_cons_drop, if_pos hi]
  have h2 : (x :: l).Perm (x :: (l.take i ++ l[i] :: l.drop (i + 1))) :=
    List.Perm.of_eq (congrArg _ h1)
  refine List.Perm.trans ?_ h2.symm
  refine List.Perm.trans (List.Perm.cons _ List.perm_middle) ?_
  refine List.Perm.trans (List.Perm.swap _ _ _) ?_
  exact List.Perm.cons _ List.perm_middle.symm

theorem swap_perm {l : List (Cell α)} {i j : Nat} {x y : Cell α} (hi : l[i]? = some x)
    (hj : l[j]? = some y) : ((l.set i y).set j x).Perm l := by
  have h1 : (x :: l.set i y).Perm (y :: l) := set_perm hi
  have hj' : (l.set i y)[j]? = some y := by
    rw [List.getElem?_set]
    split
    · rename_i h; subst h
      obtain ⟨h2, _⟩ := List.getElem?_eq_some_iff.1 hi
      simp [h2]
    · exact hj
  have h2 : (y :: (l.set i y).set j x).Perm (x :: l.set i y) := set_perm hj'
  exact List.Perm.cons_inv (h2.trans h1)

theorem perm_insert {d l xs : List (Cell α)} (i : Nat) :
    (d ++ (l.take i ++ xs ++ l.drop i)).Perm (d ++ l ++ xs) := by
  rw [List.append_assoc d l xs]
  refine List.Perm.append_left d ?_
  have h : (l.take i ++ xs ++ l.drop i).Perm (l.take i ++ l.drop i ++ xs) := by
    rw [List.append_assoc, List.append_assoc]
    exact List.Perm.append_left _ List.perm_append_comm
  rw [List.take_append_drop] at h
  exact h

theorem step_conserves {P : Params} (hd : P.dtor = true) {junk : List (Cell α)} {a a' : LState α}
    {op : VOp α} {st : Status} (hj : junk.length = junkLen a op)
    (h : step P junk a op = (st, a')) :
    (a'.dead ++ a'.elems).Perm (a.dead ++ a.elems ++ stored a op st a') := by
  cases op with
  | push x =>
    simp only [step] at h
    split at h <;> (simp only [Prod.mk.injEq] at h; obtain ⟨rfl, rfl⟩ := h)
    · simp [stored]
    · simp [stored]
  | insertRange i xs =>
    simp only [step] at h
    repeat' split at h
    all_goals (simp only [Prod.mk.injEq] at h; obtain ⟨rfl, rfl⟩ := h)
    · simp [stored]
    · simp [stored]
    · simp [stored]
    · simp only [stored, failed_success]
      exact perm_insert i
  | emplace i c =>
    obtain ⟨y, rfl⟩ : ∃ y, junk = [y] := List.length_eq_one_iff.1 hj
    simp only [step] at h
    by_cases hi : i > a.elems.length
    · rw [if_pos hi] at h
      simp only [Prod.mk.injEq] at h; obtain ⟨rfl, rfl⟩ := h
      simp [stored]
    · rw [if_neg hi] at h
      have hpre : (a.elems.take i).length = i := by simp; omega
      have hdt : ∀ z : Cell α, ((a.elems.take i ++ [z] ++ a.elems.drop i).drop i).take 1 = [z] := by
        intro z
        have : (a.elems.take i ++ [z] ++ a.elems.drop i).drop i = z :: a.elems.drop i := by
          rw [List.append_assoc]
          conv => lhs; arg 1; rw [← hpre]
          rw [List.drop_left]; rfl
        rw [this]; rfl
      split at h
      · simp only [Prod.mk.injEq] at h; obtain ⟨rfl, rfl⟩ := h
        simp [stored]
      · split at h
        · simp only [Prod.mk.injEq] at h; obtain ⟨rfl, rfl⟩ := h
          simp only [stored, failed_success, hdt]
          exact perm_insert i
        · split at h
          · rename_i hf
            simp only [Prod.mk.injEq] at h; obtain ⟨rfl, rfl⟩ := h
            have hst : ∀ (op : VOp α) (x y : LState α), stored x op _ y = [] := fun _ _ _ => if_pos hf
            rw [hst, List.append_nil]
          · simp only [Prod.mk.injEq] at h; obtain ⟨rfl, rfl⟩ := h
            simp only [stored, failed_success, hdt]
            exact perm_insert i
  | set i x =>
    simp only [step] at h
    split at h
    · simp only [Prod.mk.injEq] at h; obtain ⟨rfl, rfl⟩ := h
      simp [stored]
    · rename_i old ho
      simp only [Prod.mk.injEq] at h; obtain ⟨rfl, rfl⟩ := h
      simp only [stored, failed_success, killed_true hd]
      rw [List.append_assoc, List.append_assoc]
      refine List.Perm.append_left _ ?_
      refine (set_perm ho).trans ?_
      exact List.perm_append_comm (l₁ := [x]) (l₂ := a.elems)
  | swap i j =>
    simp only [step] at h
    split at h
    · rename_i x y hx hy
      split at h
      · simp only [Prod.mk.injEq] at h; obtain ⟨rfl, rfl⟩ := h
        simp [stored]
      · simp only [Prod.mk.injEq] at h; obtain ⟨rfl, rfl⟩ := h
        simp only [stored, failed_success]
        simp only [Bool.false_eq_true, if_false, List.append_nil]
        exact List.Perm.append_left _ (swap_perm hx hy)
    · simp only [Prod.mk.injEq] at h; obtain ⟨rfl, rfl⟩ := h
      simp [stored]
  | deleteRange i n =>
    simp only [step] at h
    repeat' split at h
    all_goals (simp only [Prod.mk.injEq] at h; obtain ⟨rfl, rfl⟩ := h)
    · simp [stored]
    · simp [stored]
    · simp only [stored, failed_success, killed_true hd]
      simp only [Bool.false_eq_true, if_false, List.append_nil]
      rw [List.append_assoc]
      refine List.Perm.append_left _ ?_
      have h1 : a.elems = a.elems.take i ++ ((a.elems.drop i).take n ++ a.elems.drop (i + n)) := by
        rw [← List.drop_drop, List.take_append_drop, List.take_append_drop]
      conv => rhs; rw [h1]
      rw [← List.append_assoc, ← List.append_assoc]
      exact List.Perm.append_right _ List.perm_append_comm
  | pop =>
    simp only [step] at h
    split at h
    · simp only [Prod.mk.injEq] at h; obtain ⟨rfl, rfl⟩ := h
      simp [stored]
    · rename_i h0
      simp only [Prod.mk.injEq] at h; obtain ⟨rfl, rfl⟩ := h
      simp only [stored, failed_success, killed_true hd]
      simp only [Bool.false_eq_true, if_false, List.append_nil]
      rw [List.append_assoc]
      refine List.Perm.append_left _ ?_
      have h1 : a.elems.getLast?.toList = [a.elems.getLast h0] := by
        rw [List.getLast?_eq_some_getLast h0]; rfl
      rw [h1]
      conv => rhs; rw [← List.dropLast_concat_getLast h0]
      exact List.perm_append_comm
  | clear =>
    simp only [step] at h
    split at h
    · simp only [Prod.mk.injEq] at h; obtain ⟨rfl, rfl⟩ := h
      simp [stored]
    · simp only [Prod.mk.injEq] at h; obtain ⟨rfl, rfl⟩ := h
      simp [stored, killed_true hd]
  | resize n init =>
    simp only [step] at h
    split at h
    · simp only [Prod.mk.injEq] at h; obtain ⟨rfl, rfl⟩ := h
      simp [stored]
    · split at h
      · simp only [Prod.mk.injEq] at h; obtain ⟨rfl, rfl⟩ := h
        simp [stored]
      · split at h
        · rename_i hle
          simp only [Prod.mk.injEq] at h; obtain ⟨rfl, rfl⟩ := h
          have h1 : (a.elems.take n).drop a.elems.length = [] := by
            apply List.drop_eq_nil_of_le; simp; omega
          simp only [stored, failed_success, killed_true hd, h1]
          simp only [Bool.false_eq_true, if_false, List.append_nil]
          rw [List.append_assoc]
          refine List.Perm.append_left _ ?_
          refine List.perm_append_comm.trans ?_
          rw [List.take_append_drop]
        · simp only [Prod.mk.injEq] at h; obtain ⟨rfl, rfl⟩ := h
          simp [stored]
  | reserve c =>
    simp only [step] at h
    repeat' split at h
    all_goals (simp only [Prod.mk.injEq] at h; obtain ⟨rfl, rfl⟩ := h; simp [stored])
  | shrinkToFit =>
    simp only [step, Prod.mk.injEq] at h
    obtain ⟨rfl, rfl⟩ := h
    split <;> simp [stored]

theorem run_conserves {P : Params} (hdt : P.dtor = true) (ops : List (VOp α)) :
    ∀ {s : VS α} {a : LState α} {b : Block α} {slack : List (Cell α)}, Rep P s a b slack →
    AllInDomain P a ops → ∃ sts s' a' b' slack', runVec s ops = .ret (sts, s') ∧
      Rep P s' a' b' slack' ∧
      (a'.dead ++ a'.elems).Perm (a.dead ++ a.elems ++ storedRun s ops) := by
  induction ops with
  | nil =>
    intro s a b slack R _
    exact ⟨[], s, a, b, slack, rfl, R, by simp [storedRun]⟩
  | cons op ops ih =>
    intro s a b slack R hd
    cases hd with
    | cons hd ht =>
      obtain ⟨junk, st, s1, a1, b1, sl1, hj, hstep, hop, R1⟩ := op_ok R op hd
      have ht' := ht junk hj
      rw [hstep] at ht'
      obtain ⟨sts, s', a', b', sl', hrun, R', hp⟩ := ih R1 ht'
      refine ⟨st :: sts, s', a', b', sl', by simp [runVec, hop, hrun], R', ?_⟩
      have h1 := step_conserves hdt hj hstep
      simp only [storedRun, hop, R.abs_eq, R1.abs_eq]
      refine hp.trans ?_
      rw [← List.append_assoc]
      exact List.Perm.append_right _ h1

/-! ## Counting allocator calls of pushes -/

theorem push_calls {P : Params} {s : VS α} {a : LState α} {b : Block α} {slack : List (Cell α)}
    (R : Rep P s a b slack) (hdyn : P.allocator.isSome) (x : Cell α)
    (hf : Fits P (a.elems.length + 1)) :
    ∃ s' b' sl', vecPushBack s (.ext [x]) = .ret (stSuccess, s') ∧
      Rep P s' { a with elems := a.elems ++ [x],
                        cap := if a.elems.length + 1 ≤ a.cap then a.cap
                               else (a.elems.length + 1) * P.growth } b' sl' ∧
      s'.w.calls = s.w.calls + if a.elems.length + 1 ≤ a.cap then 0 else 1 := by
  have hr : Spec.room P a.cap (a.elems.length + 1) =
      some (if a.elems.length + 1 ≤ a.cap then a.cap else (a.elems.length + 1) * P.growth) := by
    unfold Spec.room
    split
    · rfl
    · simp
  obtain ⟨junk, st, s', a', b', sl', hj, hstep, hop, R'⟩ := push_ok R x hf
  simp only [step, hr, Prod.mk.injEq] at hstep
  obtain ⟨rfl, rfl⟩ := hstep
  refine ⟨s', b', sl', hop, R', ?_⟩
  have hlt := (hf.mul_growth R.growth255 R.esz1).2.2
  obtain ⟨al, hal⟩ := Option.isSome_iff_exists.1 hdyn
  simp only [vecOp, vecPushBack, Src.isNull, R.size, add64_eq hlt, growFor, shouldGrow, R.cap] at hop
  by_cases hle : a.elems.length + 1 ≤ a.cap
  · simp only [hle, if_true]
    rw [if_neg (by simp), if_neg (by simp; omega)] at hop
    simp only [Out.ret_bind', failed_success, R.data, withData] at hop
    cases hm : memcpyIn b s.v.size (.ext [x]) 1 with
    | ub w => rw [hm] at hop; simp at hop
    | ret b2 =>
      rw [hm] at hop
      simp only [Out.ret_bind'] at hop
      simp at hop
      rw [← hop]
      simp
  · simp only [hle, if_false]
    rw [if_neg (by simp), if_pos (by simp; omega)] at hop
    have hnz : ¬ (max 1 (mul64 (a.elems.length + 1) s.v.growth) < 1) := by omega
    simp only [reallocate, R.allocator, hal, hnz, if_false, reallocTo, R.data, withData,
      reallocBlock, R.reliable_now, World.log, Bool.false_eq_true, Out.ret_bind', failed_success] at hop
    cases hm2 : memcpyIn _ s.v.size (.ext [x]) 1 with
    | ub w => rw [hm2] at hop; simp at hop
    | ret b3 =>
      rw [hm2] at hop
      simp at hop
      rw [← hop]

end Zy
