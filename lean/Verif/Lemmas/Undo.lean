import Verif.Spec.Undo
import Verif.Lemmas.BitsetProps

/-!
# Lemmas: undoing what was done to a container
-/

namespace Zy

open Spec

open Zy.LT (Specified)

variable {α : Type}

/-! ## Lists -/

theorem lineRun_append (p q : List (LOp α)) : ∀ xs : List (Cell α), lineRun xs (p ++ q) =
    ((lineRun xs p).1 ++ (lineRun (lineRun xs p).2 q).1, (lineRun (lineRun xs p).2 q).2) := by
  induction p with
  | nil => intro xs; rfl
  | cons op p ih =>
    intro xs
    show ((lineStep xs op).1 :: (lineRun (lineStep xs op).2 (p ++ q)).1, (lineRun (lineStep xs op).2 (p ++ q)).2) = _
    rw [ih]
    rfl

theorem lineRun_pushes : ∀ ys xs : List (Cell α),
    lineRun xs (ys.map .pushBack) = (List.replicate ys.length stSuccess, xs ++ ys)
  | [], xs => by simp [lineRun]
  | y :: ys, xs => by
    show (stSuccess :: (lineRun (xs ++ [y]) (ys.map .pushBack)).1, (lineRun (xs ++ [y]) (ys.map .pushBack)).2) = _
    rw [lineRun_pushes ys]
    simp [List.replicate_succ]

theorem lineRun_pops : ∀ (n : Nat) (xs ys : List (Cell α)), ys.length = n →
    lineRun (xs ++ ys) (List.replicate n .popBack) = (List.replicate n stSuccess, xs)
  | 0, xs, ys, h => by
    have := List.length_eq_zero_iff.1 h
    subst this
    simp [lineRun]
  | n + 1, xs, ys, h => by
    have hne : ys ≠ [] := by rintro rfl; cases h
    have hne' : xs ++ ys ≠ [] := by simp [hne]
    have e : (lineStep (xs ++ ys) .popBack) = (stSuccess, xs ++ ys.dropLast) := by
      show (if xs ++ ys = [] then _ else (stSuccess, (xs ++ ys).dropLast)) = _
      rw [if_neg hne', List.dropLast_append_of_ne_nil hne]
    rw [List.replicate_succ, lineRun, e]
    dsimp only
    rw [lineRun_pops n xs ys.dropLast (by simp [h]), List.replicate_succ]

theorem undoList_ok (xs : List (Cell α)) (op : LOp α) :
    lineRun (lineStep xs op).2 (undoList xs op) = (List.replicate (undoList xs op).length stSuccess, xs) := by
  have back : ∀ x, lineRun (xs ++ [x]) [.popBack] = (List.replicate 1 stSuccess, xs) := fun x =>
    lineRun_pops 1 xs [x] rfl
  have front : ∀ x, lineRun (x :: xs) [.popFront] = (List.replicate 1 stSuccess, xs) := fun x => rfl
  cases op with
  | pushBack x => exact back x
  | pushFront x => exact front x
  | pushBackOf i =>
    cases h : xs[i]? with
    | none =>
      have hi := List.getElem?_eq_none_iff.1 h
      have : ¬ i < xs.length := by omega
      simp only [lineStep, undoList, h, this, if_false]
      rfl
    | some x =>
      have hi := (List.getElem?_eq_some_iff.1 h).1
      simp only [lineStep, undoList, h, hi, if_true]
      exact back x
  | pushFrontOf i =>
    cases h : xs[i]? with
    | none =>
      have hi := List.getElem?_eq_none_iff.1 h
      have : ¬ i < xs.length := by omega
      simp only [lineStep, undoList, h, this, if_false]
      rfl
    | some x =>
      have hi := (List.getElem?_eq_some_iff.1 h).1
      simp only [lineStep, undoList, h, hi, if_true]
      exact front x
  | emplaceBack c => exact back _
  | emplaceFront c => exact front _
  | popBack =>
    by_cases hx : xs = []
    · subst hx; rfl
    · have h := List.getLast?_eq_some_getLast hx
      simp only [lineStep, undoList, h, if_neg hx, Option.toList, List.map_cons, List.map_nil]
      show ([stSuccess], xs.dropLast ++ [xs.getLast hx]) = _
      rw [List.dropLast_concat_getLast]
      rfl
  | popFront =>
    cases xs with
    | nil => rfl
    | cons x xs => rfl
  | set i x =>
    cases h : xs[i]? with
    | none =>
      have hi := List.getElem?_eq_none_iff.1 h
      have : ¬ i < xs.length := by omega
      simp only [lineStep, undoList, h, this, if_false]
      rfl
    | some y =>
      obtain ⟨hi, hy⟩ := List.getElem?_eq_some_iff.1 h
      simp only [lineStep, undoList, h, hi, if_true, Option.toList, List.map_cons, List.map_nil, lineRun,
        List.length_set, List.set_set]
      rw [← hy, List.set_getElem_self]
      rfl
  | clear => exact (lineRun_pushes xs []).trans (by simp [undoList])
  | resize n init =>
    show lineRun (xs.take n ++ List.replicate (n - xs.length) (init.getD none))
      ((xs.drop n).map .pushBack ++ List.replicate (n - xs.length) .popBack) = _
    by_cases hn : n ≤ xs.length
    · have : n - xs.length = 0 := by omega
      simp only [undoList, this, List.replicate_zero, List.append_nil, List.length_map]
      rw [lineRun_pushes, List.take_append_drop]
    · have hd : xs.drop n = [] := List.drop_eq_nil_of_le (by omega)
      have ht : xs.take n = xs := List.take_of_length_le (by omega)
      simp only [undoList, hd, ht, List.map_nil, List.nil_append, List.length_replicate]
      exact lineRun_pops _ _ _ (by simp)

theorem undoListAll_ok : ∀ (ops : List (LOp α)) (xs : List (Cell α)),
    lineRun (lineRun xs ops).2 (undoListAll xs ops) = (List.replicate (undoListAll xs ops).length stSuccess, xs)
  | [], xs => rfl
  | op :: ops, xs => by
    show lineRun (lineRun (lineStep xs op).2 ops).2 (undoListAll (lineStep xs op).2 ops ++ undoList xs op) = _
    rw [lineRun_append, undoListAll_ok ops, undoList_ok]
    simp [undoListAll]

theorem serves_left {K : Source} : ∀ {p q : List (LOp α)} {asked : Nat} {xs : List (Cell α)},
    Serves K asked xs (p ++ q) → Serves K asked xs p
  | [], _, _, _, _ => trivial
  | _ :: _, _, _, _, h => ⟨h.1, serves_left h.2⟩

theorem undoList_specified (xs : List (Cell α)) (op : LOp α) : ∀ o ∈ undoList xs op, Specified o := by
  have maps : ∀ (f : Cell α → LOp α), (∀ x, Specified (f x)) → ∀ (ys : List (Cell α)), ∀ o ∈ ys.map f, Specified o := by
    intro f hf ys o ho
    obtain ⟨x, _, rfl⟩ := List.mem_map.1 ho
    exact hf x
  cases op with
  | popBack => exact maps .pushBack (fun _ => trivial) _
  | popFront => exact maps .pushFront (fun _ => trivial) _
  | set i x => exact maps (.set i) (fun _ => trivial) _
  | clear => exact maps .pushBack (fun _ => trivial) _
  | resize n init =>
    intro o ho
    rcases List.mem_append.1 ho with ho | ho
    · exact maps .pushBack (fun _ => trivial) _ o ho
    · rw [(List.mem_replicate.1 ho).2]; trivial
  | pushBackOf i =>
    intro o ho
    simp only [undoList] at ho
    split at ho
    · rw [List.mem_singleton.1 ho]; trivial
    · cases ho
  | pushFrontOf i =>
    intro o ho
    simp only [undoList] at ho
    split at ho
    · rw [List.mem_singleton.1 ho]; trivial
    · cases ho
  | pushBack x => intro o ho; rw [List.mem_singleton.1 ho]; trivial
  | pushFront x => intro o ho; rw [List.mem_singleton.1 ho]; trivial
  | emplaceBack c => intro o ho; rw [List.mem_singleton.1 ho]; trivial
  | emplaceFront c => intro o ho; rw [List.mem_singleton.1 ho]; trivial

theorem undoListAll_specified : ∀ (ops : List (LOp α)) (xs : List (Cell α)), ∀ o ∈ undoListAll xs ops, Specified o
  | [], _, _, ho => by cases ho
  | op :: ops, xs, o, ho => by
    rcases List.mem_append.1 ho with ho | ho
    · exact undoListAll_specified ops _ o ho
    · exact undoList_specified xs op o ho

/-! ## Vectors -/

/-- The statuses and the elements of a history. -/
def shown (r : List Status × List (Cell α) × List (Cell α)) : List Status × List (Cell α) := (r.1, r.2.1)

theorem plainRun_append (p q : List (VOp α)) : ∀ xs : List (Cell α), shown (plainRun xs (p ++ q)) =
    ((plainRun xs p).1 ++ (plainRun (plainRun xs p).2.1 q).1, (plainRun (plainRun xs p).2.1 q).2.1) := by
  induction p with
  | nil => intro xs; rfl
  | cons op p ih =>
    intro xs
    have := ih (plainStep xs op).2.1
    simp only [shown, Prod.mk.injEq] at this ⊢
    refine ⟨?_, this.2⟩
    show (plainStep xs op).1 :: (plainRun (plainStep xs op).2.1 (p ++ q)).1 = _
    rw [this.1]
    rfl

theorem undoVec_ok (xs : List (Cell α)) (op : VOp α) (hp : Plain op) :
    shown (plainRun (plainStep xs op).2.1 (undoVec xs op)) = (List.replicate (undoVec xs op).length stSuccess, xs) := by
  have one : ∀ (ys : List (Cell α)) (o : VOp α), shown (plainRun ys [o]) = ([(plainStep ys o).1], (plainStep ys o).2.1) :=
    fun _ _ => rfl
  have del : ∀ (i n : Nat) (ys : List (Cell α)), i ≤ xs.length → ys.length = n → n ≠ 0 →
      shown (plainRun (xs.take i ++ ys ++ xs.drop i) [.deleteRange i n]) = ([stSuccess], xs) := by
    intro i n ys hi hy hn
    have hl : (xs.take i).length = i := by simp; omega
    have h1 : i + n ≤ (xs.take i ++ ys ++ xs.drop i).length := by simp; omega
    rw [one]
    simp only [plainStep, if_neg hn, if_pos h1]
    congr 1
    have t : (xs.take i ++ ys ++ xs.drop i).take i = xs.take i := by
      rw [List.append_assoc, List.take_append_of_le_length (by omega), List.take_of_length_le (by omega)]
    have d : (xs.take i ++ ys ++ xs.drop i).drop (i + n) = xs.drop i := by
      rw [List.drop_append_of_le_length (by simp; omega), List.drop_eq_nil_of_le (by simp; omega)]
      rfl
    rw [t, d, List.take_append_drop]
  cases op with
  | push x =>
    show shown (plainRun (xs ++ [x]) [.pop]) = _
    rw [one]
    simp [plainStep, undoVec]
  | insertRange i ys =>
    by_cases hy : ys = []
    · simp [undoVec, plainStep, hy, shown, plainRun]
    · by_cases hi : i ≤ xs.length
      · have hc : ¬ (ys = [] ∨ xs.length < i) := fun h => h.elim hy fun h => by omega
        simp only [undoVec, plainStep, if_neg hy, if_pos hi, if_neg hc]
        exact del i _ ys hi rfl fun h => hy (List.length_eq_zero_iff.1 h)
      · have hc : ys = [] ∨ xs.length < i := Or.inr (by omega)
        simp only [undoVec, plainStep, if_neg hy, if_neg hi, if_pos hc]
        rfl
  | emplace i c =>
    cases c with
    | none => cases hp
    | some f =>
      by_cases hi : i ≤ xs.length
      · cases hf : failed (f none).1 with
        | true => simp [undoVec, plainStep, hf, hi, shown, plainRun]
        | false =>
          have hc : ¬ (xs.length < i ∨ False) := fun h => h.elim (fun h => by omega) id
          simp only [undoVec, plainStep, hf, if_pos hi, Bool.false_eq_true, if_neg hc, if_false]
          exact del i 1 [(f none).2] hi rfl (by omega)
      · have hc : xs.length < i ∨ failed (f none).1 = true := Or.inl (by omega)
        simp only [undoVec, plainStep, if_neg hi, if_pos hc]
        rfl
  | set i x =>
    cases h : xs[i]? with
    | none => simp [undoVec, plainStep, h, shown, plainRun]
    | some y =>
      obtain ⟨hi, hy⟩ := List.getElem?_eq_some_iff.1 h
      simp only [undoVec, plainStep, h, Option.toList, List.map_cons, List.map_nil]
      rw [one]
      simp only [plainStep, List.getElem?_set_self hi, List.set_set]
      rw [← hy, List.set_getElem_self]
      rfl
  | swap i j => cases hp
  | deleteRange i n =>
    by_cases hn : n = 0
    · simp [undoVec, plainStep, hn, shown, plainRun]
    · by_cases hi : i + n ≤ xs.length
      · have hc : ¬ (n = 0 ∨ xs.length < i + n) := by omega
        simp only [undoVec, plainStep, if_neg hn, if_pos hi, if_neg hc]
        rw [one]
        have h1 : (xs.drop i).take n ≠ [] := by
          intro h
          have := congrArg List.length h
          simp at this
          omega
        have hl : (xs.take i).length = i := by simp; omega
        have h2 : i ≤ (xs.take i ++ xs.drop (i + n)).length := by simp; omega
        simp only [plainStep, if_neg h1, if_pos h2]
        have t : (xs.take i ++ xs.drop (i + n)).take i = xs.take i := by
          rw [List.take_append_of_le_length (by omega), List.take_of_length_le (by omega)]
        have d : (xs.take i ++ xs.drop (i + n)).drop i = (xs.drop i).drop n := by
          rw [List.drop_append_of_le_length (by omega), List.drop_eq_nil_of_le (as := xs.take i) (by omega), List.nil_append,
            List.drop_drop]
        rw [t, d, List.append_assoc, List.take_append_drop, List.take_append_drop]
        rfl
      · have hc : n = 0 ∨ xs.length < i + n := Or.inr (by omega)
        simp only [undoVec, plainStep, if_neg hn, if_neg hi, if_pos hc]
        rfl
  | pop =>
    by_cases hx : xs = []
    · subst hx; rfl
    · have h := List.getLast?_eq_some_getLast hx
      simp only [undoVec, plainStep, h, Option.toList, List.map_cons, List.map_nil]
      rw [one]
      simp only [plainStep]
      rw [List.dropLast_concat_getLast]
      rfl
  | clear =>
    by_cases hx : xs = []
    · subst hx; rfl
    · simp only [undoVec, plainStep, if_neg hx]
      rw [one]
      simp [plainStep, hx]
  | resize n init =>
    by_cases h1 : n < xs.length
    · have h0 : n - xs.length = 0 := by omega
      simp only [undoVec, plainStep, if_pos h1, h0, List.replicate_zero, List.append_nil]
      rw [one]
      have h2 : xs.drop n ≠ [] := by
        intro h
        have := congrArg List.length h
        simp at this
        omega
      have h3 : n ≤ (xs.take n).length := by simp; omega
      have h4 : (xs.take n).length = n := by simp; omega
      simp only [plainStep, if_neg h2, if_pos h3]
      rw [List.take_of_length_le (l := xs.take n) (by omega), List.drop_eq_nil_of_le (as := xs.take n) (by omega),
        List.append_nil, List.take_append_drop]
      rfl
    · by_cases h2 : xs.length < n
      · simp only [undoVec, plainStep, if_neg h1, if_pos h2]
        have ht : xs.take n = xs := List.take_of_length_le (by omega)
        rw [ht]
        have := del xs.length (n - xs.length) (List.replicate (n - xs.length) (init.getD none)) (Nat.le_refl _) (by simp)
          (by omega)
        rwa [List.take_length, List.drop_length, List.append_nil] at this
      · have h0 : n = xs.length := by omega
        subst h0
        simp [undoVec, plainStep, shown, plainRun]
  | reserve n => rfl
  | shrinkToFit => rfl

theorem undoVecAll_ok : ∀ (ops : List (VOp α)) (xs : List (Cell α)), (∀ op ∈ ops, Plain op) →
    shown (plainRun (plainRun xs ops).2.1 (undoVecAll xs ops)) = (List.replicate (undoVecAll xs ops).length stSuccess, xs)
  | [], xs, _ => rfl
  | op :: ops, xs, hp => by
    show shown (plainRun (plainRun (plainStep xs op).2.1 ops).2.1 (undoVecAll (plainStep xs op).2.1 ops ++ undoVec xs op)) = _
    rw [plainRun_append]
    have h1 := undoVecAll_ok ops (plainStep xs op).2.1 fun o ho => hp o (List.mem_cons_of_mem _ ho)
    have h2 := undoVec_ok xs op (hp op List.mem_cons_self)
    simp only [shown, Prod.mk.injEq] at h1 h2
    rw [h1.1, h1.2, h2.1, h2.2]
    simp [undoVecAll]

theorem undoVec_plain (xs : List (Cell α)) (op : VOp α) (hp : Plain op) : ∀ o ∈ undoVec xs op, Plain o := by
  cases op with
  | swap i j => cases hp
  | emplace i c =>
    cases c with
    | none => cases hp
    | some f =>
      intro o ho
      simp only [undoVec] at ho
      split at ho
      · cases ho
      · rw [List.mem_singleton.1 ho]; trivial
  | push x => intro o ho; rw [List.mem_singleton.1 ho]; trivial
  | insertRange i ys =>
    intro o ho
    simp only [undoVec] at ho
    split at ho
    · cases ho
    · rw [List.mem_singleton.1 ho]; trivial
  | set i x =>
    intro o ho
    obtain ⟨x, _, rfl⟩ := List.mem_map.1 ho
    trivial
  | deleteRange i n =>
    intro o ho
    simp only [undoVec] at ho
    split at ho
    · cases ho
    · rw [List.mem_singleton.1 ho]; trivial
  | pop =>
    intro o ho
    obtain ⟨x, _, rfl⟩ := List.mem_map.1 ho
    trivial
  | clear =>
    intro o ho
    simp only [undoVec] at ho
    split at ho
    · cases ho
    · rw [List.mem_singleton.1 ho]; trivial
  | resize n init =>
    intro o ho
    simp only [undoVec] at ho
    split at ho
    · rw [List.mem_singleton.1 ho]; trivial
    · split at ho
      · rw [List.mem_singleton.1 ho]; trivial
      · cases ho
  | reserve n => intro o ho; cases ho
  | shrinkToFit => intro o ho; cases ho

theorem undoVecAll_plain : ∀ (ops : List (VOp α)) (xs : List (Cell α)), (∀ op ∈ ops, Plain op) →
    ∀ o ∈ undoVecAll xs ops, Plain o
  | [], _, _, _, ho => by cases ho
  | op :: ops, xs, hp, o, ho => by
    rcases List.mem_append.1 ho with ho | ho
    · exact undoVecAll_plain ops _ (fun o ho => hp o (List.mem_cons_of_mem _ ho)) o ho
    · exact undoVec_plain xs op (hp op List.mem_cons_self) o ho

/-! ## Bitsets -/

theorem assignFrom_ok : ∀ (bs pre cur : List Bool), cur.length = bs.length →
    (assignFrom pre.length bs).foldl plain (pre ++ cur) = pre ++ bs
  | [], pre, cur, h => by
    have := List.length_eq_zero_iff.1 h
    subst this
    rfl
  | b :: bs, pre, [], h => by cases h
  | b :: bs, pre, c :: cur, h => by
    show (assignFrom (pre.length + 1) bs).foldl plain ((pre ++ c :: cur).set pre.length b) = _
    have e1 : (pre ++ c :: cur).set pre.length b = (pre ++ [b]) ++ cur := by
      rw [List.set_append_right _ _ (Nat.le_refl _)]
      simp
    have e2 : pre.length + 1 = (pre ++ [b]).length := by simp
    rw [e1, e2, assignFrom_ok bs (pre ++ [b]) cur (by simpa using h)]
    simp

theorem pushes_ok : ∀ (bs pre : List Bool), (bs.map BOp.push).foldl plain pre = pre ++ bs
  | [], pre => by simp
  | b :: bs, pre => by
    show (bs.map BOp.push).foldl plain (pre ++ [b]) = _
    rw [pushes_ok bs]
    simp

theorem undoBits_ok (bs : List Bool) (op : BOp) (hp : op = .pop → bs ≠ []) :
    (undoBits bs op).foldl plain (plain bs op) = bs := by
  have put : ∀ i v, (bs[i]?.toList.map (BOp.assign i)).foldl plain (bs.set i v) = bs := by
    intro i v
    cases h : bs[i]? with
    | none =>
      show bs.set i v = bs
      exact List.set_eq_of_length_le (List.getElem?_eq_none_iff.1 h)
    | some b =>
      obtain ⟨hi, hb⟩ := List.getElem?_eq_some_iff.1 h
      show (bs.set i v).set i b = bs
      rw [List.set_set, ← hb, List.set_getElem_self]
  cases op with
  | push v => simp [undoBits, plain]
  | pop =>
    have hx := hp rfl
    have h := List.getLast?_eq_some_getLast hx
    simp only [undoBits, h, Option.toList, List.map_cons, List.map_nil, List.foldl_cons, List.foldl_nil, plain]
    exact List.dropLast_concat_getLast hx
  | set i => exact put i true
  | reset i => exact put i false
  | assign i v => exact put i v
  | toggle i =>
    show (bs.modify i fun b => !b).modify i (fun b => !b) = bs
    apply List.ext_getElem?
    intro k
    rw [List.getElem?_modify, List.getElem?_modify]
    cases bs[k]? with
    | none => rfl
    | some b =>
      by_cases hk : i = k
      · simp [hk]
      · simp [hk]
  | setAll => exact assignFrom_ok bs [] (bs.map fun _ => true) (by simp)
  | resetAll => exact assignFrom_ok bs [] (bs.map fun _ => false) (by simp)
  | flip =>
    show (bs.map fun b => !b).map (fun b => !b) = bs
    rw [List.map_map]
    conv => rhs; rw [← List.map_id bs]
    exact List.map_congr_left fun b _ => Bool.not_not b
  | clear => exact (pushes_ok bs []).trans rfl
  | reserve n => rfl
  | shrinkToFit => rfl

/-- No pop of an empty bitset. -/
def NoEmptyPop (bs : List Bool) : List BOp → Prop
  | [] => True
  | op :: ops => (op = .pop → bs ≠ []) ∧ NoEmptyPop (plain bs op) ops

theorem noEmptyPop_of {P : Params} : ∀ (ops : List BOp) {q : List BOp} {s : BState}, BAllInDomain P s (ops ++ q) →
    NoEmptyPop s.bits ops
  | [], _, _, _ => trivial
  | op :: ops, q, s, h => by
    refine ⟨?_, ?_⟩
    · rintro rfl; exact h.1
    · have := noEmptyPop_of ops h.2
      rwa [bstep_plain h.1] at this

theorem undoBitsAll_ok : ∀ (ops : List BOp) (bs : List Bool), NoEmptyPop bs ops →
    (undoBitsAll bs ops).foldl plain (ops.foldl plain bs) = bs
  | [], _, _ => rfl
  | op :: ops, bs, h => by
    show (undoBitsAll (plain bs op) ops ++ undoBits bs op).foldl plain (ops.foldl plain (plain bs op)) = bs
    rw [List.foldl_append, undoBitsAll_ok ops _ h.2, undoBits_ok bs op h.1]

end Zy
