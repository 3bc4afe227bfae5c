import Verif.Model.Merge
import Verif.Spec.Merge
import Verif.Lemmas.Work

/-!
# Lemmas: merging
-/

namespace Zy

open Spec

variable {α : Type}

/-- The list that `mergeVec` appends. -/
def mergeList {β : Type} (cmp : β → β → Int) (xs ys : List β) : List β := xs.merge ys fun x y => decide (cmp x y ≤ 0)

theorem mergeList_filter {β : Type} {cmp : β → β → Int} (hc : Comparator cmp) (k : β) : ∀ (xs ys : List β),
    Ascending cmp xs → Ascending cmp ys → ((mergeList cmp xs ys).filter fun x => cmp x k == 0) =
      (xs.filter fun x => cmp x k == 0) ++ ys.filter fun x => cmp x k == 0
  | [], ys, _, _ => by simp [mergeList]
  | x :: xs, [], _, _ => by simp [mergeList]
  | x :: xs, y :: ys, hx, hy => by
    by_cases h : cmp x y ≤ 0
    · have e : mergeList cmp (x :: xs) (y :: ys) = x :: mergeList cmp xs (y :: ys) := by
        unfold mergeList
        rw [List.cons_merge_cons_pos _ _ _ (by simpa using h)]
      have ih := mergeList_filter hc k xs (y :: ys) (List.Pairwise.of_cons hx) hy
      rw [e, List.filter_cons, List.filter_cons (xs := xs), ih]
      split <;> rfl
    · have e : mergeList cmp (x :: xs) (y :: ys) = y :: mergeList cmp (x :: xs) ys := by
        unfold mergeList
        rw [List.cons_merge_cons_neg _ _ _ (by simpa using h)]
      have ih := mergeList_filter hc k (x :: xs) ys hx (List.Pairwise.of_cons hy)
      rw [e, List.filter_cons, List.filter_cons (x := y) (xs := ys), ih]
      by_cases hk : (cmp y k == 0) = true
      · rw [if_pos hk, if_pos hk]
        have hk0 : cmp y k = 0 := by simpa using hk
        have hnone : ((x :: xs).filter fun x => cmp x k == 0) = [] := by
          rw [List.filter_eq_nil_iff]
          intro z hz hzk
          have hz0 : cmp z k = 0 := by simpa using hzk
          have hxz : cmp x z ≤ 0 := by
            rcases List.mem_cons.1 hz with rfl | hz
            · rcases Int.le_total (cmp z z) 0 with h | h
              · exact h
              · exact (hc.flip z z).2 h
            · exact List.rel_of_pairwise_cons hx hz
          have hky : cmp k y ≤ 0 := (hc.flip k y).2 (by omega)
          exact h (hc.trans x k y (hc.trans x z k hxz (by omega)) hky)
        rw [hnone]
        rfl
      · rw [if_neg hk, if_neg hk]
termination_by xs ys => xs.length + ys.length

theorem mergeList_spec {β : Type} {cmp : β → β → Int} (hc : Comparator cmp) {xs ys : List β} (hx : Ascending cmp xs)
    (hy : Ascending cmp ys) : MergedFrom cmp xs ys (mergeList cmp xs ys) := by
  refine ⟨?_, List.merge_perm_append .., fun k => mergeList_filter hc k xs ys hx hy⟩
  have := List.pairwise_merge (le := fun x y => decide (cmp x y ≤ 0))
    (fun x y z h1 h2 => by simp only [decide_eq_true_eq] at *; exact hc.trans x y z h1 h2)
    (fun x y => by
      simp only [Bool.or_eq_true, decide_eq_true_eq]
      rcases Int.le_total (cmp x y) 0 with h | h
      · exact Or.inl h
      · exact Or.inr ((hc.flip y x).2 h)) xs ys
    (hx.imp fun h => by simpa using h) (hy.imp fun h => by simpa using h)
  exact this.imp fun h => by simpa using h

/-- The elements from `i` on. -/
theorem drop_cons_of {β : Type} {l : List β} {i : Nat} (h : i < l.length) : ∃ x, l[i]? = some x ∧ l.drop i = x :: l.drop (i + 1) :=
  ⟨l[i], List.getElem?_eq_getElem h, List.drop_eq_getElem_cons h⟩

theorem checkPush_ok {P : Params} {m : Nat} {s : VS α} (h : Reach P s) (hr : RoomFor P (absOf s).cap m)
    (hl : (absOf s).elems.length + 1 ≤ m) (x : Cell α) :
    ∃ s1, (∀ k, checkPush s x k = k s1) ∧ Reach P s1 ∧ (absOf s1).elems = (absOf s).elems ++ [x] ∧
      (absOf s1).dead = (absOf s).dead ∧ RoomFor P (absOf s1).cap m := by
  obtain ⟨s1, e1, h1, g1, d1, c1⟩ := reach_step h (.push x) trivial (fits_fewer hr.1 hl) (hr.2.imp_right fun h => by
    show (absOf s).elems.length + 1 ≤ _; omega)
  have e1' : vecPushBack s (.ext [x]) = .ret (stSuccess, s1) := e1
  refine ⟨s1, fun k => ?_, h1, g1, ?_, room_cap hr c1⟩
  · unfold checkPush
    rw [e1', Out.ret_bind']
    dsimp only
    rw [if_neg (by rw [failed_success]; decide)]
  · rw [d1]
    show _ ++ killed P [] = _
    rw [killed_nil, List.append_nil]

theorem mergeVec_ok {P Pa Pb : Params} {m : Nat} {a b : VS α} (ha : Reach Pa a) (hb : Reach Pb b)
    (cmp : Cell α → Cell α → Int) : ∀ (n i j : Nat) {s : VS α}, Reach P s → RoomFor P (absOf s).cap m →
      (absOf a).elems.length - i + ((absOf b).elems.length - j) ≤ n →
      (absOf s).elems.length + ((absOf a).elems.length - i + ((absOf b).elems.length - j)) ≤ m →
      ∃ s', mergeVec cmp a b n i j s = .ret (stSuccess, s') ∧ Reach P s' ∧
        (absOf s').elems = (absOf s).elems ++ mergeList cmp ((absOf a).elems.drop i) ((absOf b).elems.drop j) ∧
        (absOf s').dead = (absOf s).dead := by
  obtain ⟨ba, sla, Ra⟩ := ha.rep
  obtain ⟨bb, slb, Rb⟩ := hb.rep
  have za : vecGetSize a = (absOf a).elems.length := Ra.size
  have zb : vecGetSize b = (absOf b).elems.length := Rb.size
  intro n
  induction n with
  | zero =>
    intro i j s h _ hn _
    refine ⟨s, rfl, h, ?_, rfl⟩
    rw [List.drop_eq_nil_of_le (by omega), List.drop_eq_nil_of_le (by omega)]
    simp [mergeList]
  | succ n ih =>
    intro i j s h hr hn hm
    by_cases hi : i < (absOf a).elems.length
    · obtain ⟨x, gx, dx⟩ := drop_cons_of hi
      by_cases hj : j < (absOf b).elems.length
      · obtain ⟨y, gy, dy⟩ := drop_cons_of hj
        by_cases hxy : cmp x y ≤ 0
        · obtain ⟨s1, e1, h1, g1, d1, r1⟩ := checkPush_ok h hr (by omega) x
          obtain ⟨s2, e2, h2, g2, d2⟩ := ih (i + 1) j h1 r1 (by omega) (by
            rw [g1, List.length_append, List.length_singleton]; omega)
          refine ⟨s2, ?_, h2, ?_, d2.trans d1⟩
          · rw [mergeVec, za, if_pos hi, Ra.getMacro gx, Out.ret_bind', zb]
            rw [if_pos hj, Rb.getMacro gy, Out.ret_bind', if_pos hxy, e1, e2]
          · rw [g2, g1, dx, dy, List.append_assoc]
            unfold mergeList
            rw [List.cons_merge_cons_pos _ _ _ (by simpa using hxy)]
            rfl
        · obtain ⟨s1, e1, h1, g1, d1, r1⟩ := checkPush_ok h hr (by omega) y
          obtain ⟨s2, e2, h2, g2, d2⟩ := ih i (j + 1) h1 r1 (by omega) (by
            rw [g1, List.length_append, List.length_singleton]; omega)
          refine ⟨s2, ?_, h2, ?_, d2.trans d1⟩
          · rw [mergeVec, za, if_pos hi, Ra.getMacro gx, Out.ret_bind', zb]
            rw [if_pos hj, Rb.getMacro gy, Out.ret_bind', if_neg hxy, e1, e2]
          · rw [g2, g1, dx, dy, List.append_assoc]
            unfold mergeList
            rw [List.cons_merge_cons_neg _ _ _ (by simpa using hxy)]
            rfl
      · obtain ⟨s1, e1, h1, g1, d1, r1⟩ := checkPush_ok h hr (by omega) x
        obtain ⟨s2, e2, h2, g2, d2⟩ := ih (i + 1) j h1 r1 (by omega) (by
          rw [g1, List.length_append, List.length_singleton]; omega)
        refine ⟨s2, ?_, h2, ?_, d2.trans d1⟩
        · rw [mergeVec, za, if_pos hi, Ra.getMacro gx, Out.ret_bind', zb]
          rw [if_neg hj, e1, e2]
        · rw [g2, g1, dx, List.append_assoc, List.drop_eq_nil_of_le (as := (absOf b).elems) (by omega)]
          simp [mergeList]
    · by_cases hj : j < (absOf b).elems.length
      · obtain ⟨y, gy, dy⟩ := drop_cons_of hj
        obtain ⟨s1, e1, h1, g1, d1, r1⟩ := checkPush_ok h hr (by omega) y
        obtain ⟨s2, e2, h2, g2, d2⟩ := ih i (j + 1) h1 r1 (by omega) (by
          rw [g1, List.length_append, List.length_singleton]; omega)
        refine ⟨s2, ?_, h2, ?_, d2.trans d1⟩
        · rw [mergeVec, za, if_neg hi, zb, if_pos hj, Rb.getMacro gy, Out.ret_bind', e1, e2]
        · rw [g2, g1, dy, List.append_assoc, List.drop_eq_nil_of_le (as := (absOf a).elems) (by omega)]
          simp [mergeList]
      · refine ⟨s, ?_, h, ?_, rfl⟩
        · rw [mergeVec, za, if_neg hi, zb, if_neg hj]
        · rw [List.drop_eq_nil_of_le (by omega), List.drop_eq_nil_of_le (by omega)]
          simp [mergeList]

/-! ## Without enough room -/

/-- Append elements as long as it succeeds. -/
def pushList : VS α → List (Cell α) → Out (Status × VS α)
  | s, [] => .ret (stSuccess, s)
  | s, x :: l => checkPush s x fun s => pushList s l

theorem mergeVec_push {Pa Pb : Params} {a b : VS α} (ha : Reach Pa a) (hb : Reach Pb b) (cmp : Cell α → Cell α → Int) :
    ∀ (n i j : Nat) (s : VS α), (absOf a).elems.length - i + ((absOf b).elems.length - j) ≤ n →
      mergeVec cmp a b n i j s = pushList s (mergeList cmp ((absOf a).elems.drop i) ((absOf b).elems.drop j)) := by
  obtain ⟨ba, sla, Ra⟩ := ha.rep
  obtain ⟨bb, slb, Rb⟩ := hb.rep
  have za : vecGetSize a = (absOf a).elems.length := Ra.size
  have zb : vecGetSize b = (absOf b).elems.length := Rb.size
  intro n
  induction n with
  | zero =>
    intro i j s hn
    rw [List.drop_eq_nil_of_le (by omega), List.drop_eq_nil_of_le (by omega), mergeList, List.nil_merge]
    rfl
  | succ n ih =>
    intro i j s hn
    rw [mergeVec, za, zb]
    by_cases hi : i < (absOf a).elems.length
    · obtain ⟨x, gx, dx⟩ := drop_cons_of hi
      rw [if_pos hi, Ra.getMacro gx, Out.ret_bind']
      by_cases hj : j < (absOf b).elems.length
      · obtain ⟨y, gy, dy⟩ := drop_cons_of hj
        rw [if_pos hj, Rb.getMacro gy, Out.ret_bind']
        by_cases hxy : cmp x y ≤ 0
        · rw [if_pos hxy, dx, dy, mergeList, List.cons_merge_cons_pos _ _ _ (by simpa using hxy), pushList]
          congr 1
          funext s'
          rw [ih (i + 1) j s' (by omega), dy]
          rfl
        · rw [if_neg hxy, dx, dy, mergeList, List.cons_merge_cons_neg _ _ _ (by simpa using hxy), pushList]
          congr 1
          funext s'
          rw [ih i (j + 1) s' (by omega), dx]
          rfl
      · rw [if_neg hj, dx, List.drop_eq_nil_of_le (as := (absOf b).elems) (by omega), mergeList, List.merge_right, pushList]
        congr 1
        funext s'
        rw [ih (i + 1) j s' (by omega), List.drop_eq_nil_of_le (as := (absOf b).elems) (by omega), mergeList, List.merge_right]
    · rw [if_neg hi]
      by_cases hj : j < (absOf b).elems.length
      · obtain ⟨y, gy, dy⟩ := drop_cons_of hj
        rw [if_pos hj, Rb.getMacro gy, Out.ret_bind', dy, List.drop_eq_nil_of_le (as := (absOf a).elems) (by omega),
          mergeList, List.nil_merge, pushList]
        congr 1
        funext s'
        rw [ih i (j + 1) s' (by omega), List.drop_eq_nil_of_le (as := (absOf a).elems) (by omega), mergeList, List.nil_merge]
      · rw [if_neg hj, List.drop_eq_nil_of_le (by omega), List.drop_eq_nil_of_le (by omega), mergeList, List.nil_merge]
        rfl

theorem pushList_full {P : Params} (hP : P.allocator = none) {m : Nat} (hm : Fits P m) : ∀ (l : List (Cell α)) {s : VS α},
    Reach P s → (absOf s).elems.length + l.length ≤ m → (absOf s).elems.length ≤ (absOf s).cap →
    (absOf s).cap < (absOf s).elems.length + l.length →
    ∃ s', pushList s l = .ret (stInsufficient, s') ∧ Reach P s' ∧
      (absOf s').elems = (absOf s).elems ++ l.take ((absOf s).cap - (absOf s).elems.length) ∧
      (absOf s').dead = (absOf s).dead ∧ (absOf s').cap = (absOf s).cap
  | [], s, _, _, hle, hlt => by simp only [List.length_nil] at hlt; omega
  | x :: l, s, h, hl, hle, hlt => by
    rw [List.length_cons] at hl hlt
    by_cases hroom : (absOf s).elems.length + 1 ≤ (absOf s).cap
    · obtain ⟨s1, e1, h1, g1, d1, c1⟩ := reach_step h (.push x) trivial (fits_fewer hm (by omega)) (Or.inr hroom)
      have e1' : vecPushBack s (.ext [x]) = .ret (stSuccess, s1) := e1
      have g1' : (absOf s1).elems = (absOf s).elems ++ [x] := g1
      have n1 : (absOf s1).elems.length = (absOf s).elems.length + 1 := by rw [g1', List.length_append, List.length_singleton]
      obtain ⟨s2, e2, h2, g2, d2, c2⟩ := pushList_full hP hm l h1 (by omega) (by rw [c1 hP]; omega) (by rw [c1 hP]; omega)
      refine ⟨s2, ?_, h2, ?_, ?_, c2.trans (c1 hP)⟩
      · rw [pushList, checkPush, e1', Out.ret_bind']
        dsimp only
        rw [if_neg (by rw [failed_success]; decide), e2]
      · rw [g2, n1, c1 hP, g1', List.append_assoc]
        congr 1
        rw [show (absOf s).cap - (absOf s).elems.length = ((absOf s).cap - ((absOf s).elems.length + 1)) + 1 by omega]
        rfl
      · rw [d2, d1]
        show _ ++ killed P [] = _
        rw [killed_nil, List.append_nil]
    · obtain ⟨b, slack, R⟩ := h.rep
      have hd : InDomain P (absOf s) (.push x) := fits_fewer hm (by omega)
      obtain ⟨junk, st, s', a', b', sl', -, hst, hop, R'⟩ := op_ok R (.push x) hd
      have hno : room P (absOf s).cap ((absOf s).elems.length + 1) = none := by
        unfold room
        rw [if_neg hroom, if_neg (by simp [hP])]
      simp only [step, hno, Prod.mk.injEq] at hst
      obtain ⟨rfl, rfl⟩ := hst
      have e1' : vecPushBack s (.ext [x]) = .ret (stInsufficient, s') := hop
      have ha : absOf s' = absOf s := R'.abs_eq
      refine ⟨s', ?_, .step h hd hop, ?_, by rw [ha], by rw [ha]⟩
      · rw [pushList, checkPush, e1', Out.ret_bind']
        dsimp only
        rw [if_pos (show failed stInsufficient = true by decide)]
      · rw [ha, show (absOf s).cap - (absOf s).elems.length = 0 by omega, List.take_zero, List.append_nil]

end Zy
