import Verif.Lemmas.Pointers
import Verif.Lemmas.SharedMixed
import Verif.Lemmas.VectorOrder
import Verif.Model.Owned

/-!
# Lemmas: a vector of strings that owns its strings
-/

namespace Zy

open Spec

/-! ## The destructor -/

/-- The strings with these numbers are destroyed. -/
def destroyEach (d : Desk) : List Nat → Out Desk
  | [] => .ret d
  | k :: ks => (d.exec (.destroy k)).bind fun r => destroyEach r.2 ks

theorem destroyEach_append : ∀ (ks ls : List Nat) (d : Desk),
    destroyEach d (ks ++ ls) = (destroyEach d ks).bind fun d' => destroyEach d' ls
  | [], _, _ => rfl
  | k :: ks, ls, d => by
    simp only [List.cons_append, destroyEach]
    cases d.exec (.destroy k) with
    | ub u => rfl
    | ret r => exact destroyEach_append ks ls r.2

theorem destroyLoopO_ok : ∀ {mid : List Nat} {s : VS Nat} {d : Desk} {b : Block Nat} {pre post : List (Cell Nat)},
    s.v.data = some b → b.cells = pre ++ mid.map some ++ post →
    destroyLoopO s d pre.length mid.length =
      (destroyEach d mid).bind fun d' =>
        .ret ({ s with w := { s.w with trace := s.w.trace ++ (mid.map some).map Event.destroy } }, d') := by
  intro mid
  induction mid with
  | nil => intro s d b pre post hd h; simp [destroyLoopO, destroyEach]
  | cons k mid ih =>
    intro s d b pre post hd h
    have hx : b.cells[pre.length]? = some (some k) := by rw [h]; simp
    simp only [List.length_cons, destroyLoopO, hd, withData, hx, destroyEach]
    cases d.exec (.destroy k) with
    | ub u => rfl
    | ret r =>
      simp only [Out.ret_bind']
      have := ih (s := { s with w := s.w.log (.destroy (some k)) }) (d := r.2) hd (pre := pre ++ [some k]) (post := post)
        (by simp [h])
      rw [List.length_append, List.length_singleton] at this
      rw [this]
      simp [World.log]

theorem three_parts {β : Type} (l : List β) (i n : Nat) : l.take i ++ (l.drop i).take n ++ l.drop (i + n) = l := by
  rw [List.append_assoc, ← List.drop_drop, List.take_append_drop, List.take_append_drop]

theorem runDtorsO_ok {P : Params} (hP : P.dtor = true) {s : VS Nat} {d : Desk} {a : LState Nat} {b : Block Nat}
    {slack : List (Cell Nat)} (R : Rep P s a b slack) {pre mid post : List Nat}
    (h : a.elems = (pre ++ mid ++ post).map some) {lo hi : Nat} (hlo : lo = pre.length) (hhi : hi = lo + mid.length) :
    ∃ s', runDtors s lo hi = .ret s' ∧ runDtorsO s d lo hi = (destroyEach d mid).bind fun d' => .ret (s', d') := by
  have hn : hi - lo = mid.length := by omega
  have hc : b.cells = pre.map some ++ mid.map some ++ (post.map some ++ slack) := by
    rw [R.cells, h]; simp
  refine ⟨{ s with w := { s.w with trace := s.w.trace ++ (mid.map some).map Event.destroy } }, ?_, ?_⟩
  · unfold runDtors
    rw [R.dtor, hP, if_pos rfl, hn, hlo]
    have := destroyLoop_ok R.data hc
    simpa using this
  · unfold runDtorsO
    rw [R.dtor, hP, if_pos rfl, hn, hlo]
    have := destroyLoopO_ok (d := d) R.data hc
    simpa using this

/-! ## Calls -/

/-- The operation of the vector. -/
def Spec.Move.op : Move Nat → VOp Nat
  | .push x => .push (some x)
  | .insert i x => .insertRange i [some x]
  | .set i x => .set i (some x)
  | .swap i j => .swap i j
  | .delete i n => .deleteRange i n
  | .pop => .pop
  | .clear => .clear
  | .shrinkTo n => .resize n none
  | .reserve c => .reserve c
  | .fit => .shrinkToFit

/-- The strings that the vector destroys. -/
def Spec.Move.gone (ids : List Nat) : Move Nat → List Nat
  | .set i _ => (ids.drop i).take 1
  | .delete i n => if ids.length < i + n then [] else (ids.drop i).take n
  | .pop => ids.drop (ids.length - 1)
  | .clear => ids
  | .shrinkTo n => ids.drop n
  | _ => []

/-- The vector function `f` after the destructors. -/
def after (o : Shop) (ks : List Nat) (x : Out (Status × VS Nat)) : Out (Status × Shop) :=
  (destroyEach o.d ks).bind fun d' => x.bind fun r => .ret (r.1, ⟨r.2, d'⟩)

theorem after_nil (o : Shop) (x : Out (Status × VS Nat)) :
    after o [] x = x.bind fun r => .ret (r.1, ⟨r.2, o.d⟩) := rfl

theorem after_ret (o : Shop) (st : Status) : after o [] (.ret (st, o.s)) = .ret (st, o) := rfl

theorem resize_tail (s : VS Nat) (d : Desk) (n : Nat) :
    ((if shouldGrow n s.v.cap || shouldShrink n s.v.cap s.v.shrink then reallocate s (mul64 n s.v.growth)
      else .ret (stSuccess, s)).bind fun r =>
      if failed r.1 then .ret (r.1, (⟨r.2, d⟩ : Shop))
      else
        let s := r.2
        if ¬ (Src.null : Src Nat).isNull ∧ n > s.v.size then
          withData s.v.data fun b =>
          (fillLoop b .null s.v.size (n - s.v.size)).bind fun b' =>
          .ret (stSuccess, ⟨{ s with v := { s.v with data := some b', size := n } }, d⟩)
        else .ret (stSuccess, ⟨{ s with v := { s.v with size := n } }, d⟩)) =
    ((if shouldGrow n s.v.cap || shouldShrink n s.v.cap s.v.shrink then reallocate s (mul64 n s.v.growth)
      else .ret (stSuccess, s)).bind fun r =>
      if failed r.1 then .ret r
      else
        let s := r.2
        if ¬ (Src.null : Src Nat).isNull ∧ n > s.v.size then
          withData s.v.data fun b =>
          (fillLoop b .null s.v.size (n - s.v.size)).bind fun b' =>
          .ret (stSuccess, { s with v := { s.v with data := some b', size := n } })
        else .ret (stSuccess, { s with v := { s.v with size := n } })).bind fun r => .ret (r.1, ⟨r.2, d⟩) := by
  generalize (if shouldGrow n s.v.cap || shouldShrink n s.v.cap s.v.shrink then reallocate s (mul64 n s.v.growth)
      else .ret (stSuccess, s)) = y
  cases y with
  | ub u => rfl
  | ret r =>
    simp only [Out.ret_bind']
    have hnull : (Src.null : Src Nat).isNull = true := rfl
    rw [hnull]
    by_cases h : failed r.1 <;> simp [h]

section
variable {P : Params} (hP : P.dtor = true) {o : Shop} {ids : List Nat} {cap : Nat} {dead : List (Cell Nat)}
  {b : Block Nat} {slack : List (Cell Nat)} (R : Rep P o.s ⟨ids.map some, cap, dead⟩ b slack)
include hP R

theorem setO_eq (i x : Nat) : vecSetO o i (.ext [some x]) = after o ((ids.drop i).take 1) (vecSet o.s i (.ext [some x])) := by
  have hs : o.s.v.size = ids.length := by rw [R.size]; simp
  unfold vecSetO vecSet
  have hnull : (Src.ext [some x]).isNull = false := rfl
  rw [hnull, if_neg Bool.false_ne_true, if_neg Bool.false_ne_true, hs]
  by_cases hi : i ≥ ids.length
  · rw [if_pos hi, if_pos hi, List.drop_eq_nil_of_le hi]; rfl
  · rw [if_neg hi, if_neg hi]
    obtain ⟨s', e1, e2⟩ := runDtorsO_ok hP (d := o.d) R (pre := ids.take i) (mid := (ids.drop i).take 1)
      (post := ids.drop (i + 1)) (by rw [three_parts]) (lo := i) (hi := i + 1) (by simp; omega) (by simp; omega)
    rw [e1, e2]
    unfold after
    cases destroyEach o.d ((ids.drop i).take 1) with
    | ub u => rfl
    | ret d' =>
      simp only [Out.ret_bind']
      cases s'.v.data with
      | none => rfl
      | some b =>
        simp only [withData]
        cases memcpyIn b i (.ext [some x]) 1 <;> rfl

theorem deleteO_eq (i n : Nat) (h64 : i + n < 18446744073709551616) :
    vecDeleteRangeO o i n = after o (if ids.length < i + n then [] else (ids.drop i).take n) (vecDeleteRange o.s i n) := by
  have hs : o.s.v.size = ids.length := by rw [R.size]; simp
  have ha : add64 i n = i + n := add64_eq h64
  unfold vecDeleteRangeO vecDeleteRange
  rw [ha, hs]
  by_cases hn : n = 0
  · subst hn; rw [if_pos rfl, if_pos rfl]; simp [after, destroyEach]
  · rw [if_neg hn, if_neg hn]
    by_cases hi : ids.length < i + n
    · rw [if_pos hi, if_pos hi, if_pos hi]; rfl
    · rw [if_neg hi, if_neg hi, if_neg hi]
      obtain ⟨s', e1, e2⟩ := runDtorsO_ok hP (d := o.d) R (pre := ids.take i) (mid := (ids.drop i).take n)
        (post := ids.drop (i + n)) (by rw [three_parts]) (lo := i) (hi := i + n) (by simp; omega) (by simp; omega)
      rw [e1, e2]
      unfold after
      cases destroyEach o.d ((ids.drop i).take n) with
      | ub u => rfl
      | ret d' =>
        simp only [Out.ret_bind']
        generalize (if i + n < s'.v.size then shiftLeft s' i n else .ret s') = y
        cases y <;> rfl

theorem popO_eq : vecPopBackO o = after o (ids.drop (ids.length - 1)) (vecPopBack o.s) := by
  have hs : o.s.v.size = ids.length := by rw [R.size]; simp
  unfold vecPopBackO vecPopBack
  rw [hs]
  by_cases hn : ids.length = 0
  · rw [if_pos hn, if_pos hn, List.length_eq_zero_iff.1 hn]; rfl
  · rw [if_neg hn, if_neg hn]
    obtain ⟨s', e1, e2⟩ := runDtorsO_ok hP (d := o.d) R (pre := ids.take (ids.length - 1))
      (mid := ids.drop (ids.length - 1)) (post := []) (by rw [List.append_nil, List.take_append_drop])
      (lo := ids.length - 1) (hi := ids.length) (by simp; try omega) (by simp; try omega)
    rw [e1, e2]
    unfold after
    cases destroyEach o.d (ids.drop (ids.length - 1)) <;> rfl

theorem resizeO_eq (n : Nat) : vecResizeExO o n .null = after o (ids.drop n) (vecResizeEx o.s n .null) := by
  have hs : o.s.v.size = ids.length := by rw [R.size]; simp
  unfold vecResizeExO vecResizeEx
  rw [hs]
  by_cases hn : n = ids.length
  · rw [if_pos hn, if_pos hn, hn, List.drop_length]; rfl
  · rw [if_neg hn, if_neg hn]
    by_cases hlt : n < ids.length
    · rw [if_pos hlt, if_pos hlt]
      obtain ⟨s', e1, e2⟩ := runDtorsO_ok hP (d := o.d) R (pre := ids.take n)
        (mid := ids.drop n) (post := []) (by rw [List.append_nil, List.take_append_drop])
        (lo := n) (hi := ids.length) (by simp; omega) (by simp; omega)
      rw [e1, e2]
      unfold after
      cases destroyEach o.d (ids.drop n) with
      | ub u => rfl
      | ret d' => exact resize_tail _ _ _
    · rw [if_neg hlt, if_neg hlt, List.drop_eq_nil_of_le (by omega)]
      exact resize_tail _ _ _

theorem destroyO_eq : ∃ s', vecDestroy o.s = .ret (stSuccess, s') ∧ s'.v.data = none ∧
    (P.allocator.isSome → replay s'.w.trace = some none) ∧
    vecDestroyO o = after o ids (.ret (stSuccess, s')) := by
  have hs : o.s.v.size = ids.length := by rw [R.size]; simp
  obtain ⟨s2, e, hdata, -, hrep, -⟩ := destroy_rep R
  refine ⟨s2, e, hdata, hrep, ?_⟩
  obtain ⟨s', e1, e2⟩ := runDtorsO_ok hP (d := o.d) R (pre := []) (mid := ids) (post := []) (by simp) (lo := 0)
    (hi := ids.length) rfl (by simp)
  unfold vecDestroyO
  unfold vecDestroy at e
  rw [hs] at e ⊢
  rw [e1] at e
  rw [e2]
  simp only [Out.ret_bind'] at e
  unfold after
  cases destroyEach o.d ids with
  | ub u => rfl
  | ret d' =>
    exact congrArg (fun x : Out (Status × VS Nat) => x.bind fun r => .ret (r.1, (⟨r.2, d'⟩ : Shop))) e

omit hP R in
theorem insert_one (s : VS Nat) (i x : Nat) : vecInsert s i (.ext [some x]) = vecOp s (.insertRange i [some x]) := rfl

/-- Every call is the destruction of the strings that go, followed by the function of the vector. -/
theorem call_eq (m : Move Nat) (hd : Row.allows P ⟨ids, cap⟩ m) : m.call o = after o (m.gone ids) (vecOp o.s m.op) := by
  cases m with
  | push x => rfl
  | insert i x => rfl
  | set i x => exact setO_eq hP R i x
  | swap i j => rfl
  | delete i n => exact deleteO_eq hP R i n hd
  | pop => exact popO_eq hP R
  | clear => exact resizeO_eq hP R 0
  | shrinkTo n => exact resizeO_eq hP R n
  | reserve c => rfl
  | fit => rfl

end

/-! ## The row of numbers -/

/-- The vector does with the numbers what the row does. -/
theorem step_row {P : Params} {ids : List Nat} {cap : Nat} {dead : List (Cell Nat)} (m : Move Nat)
    (hd : Row.allows P ⟨ids, cap⟩ m) (hcap : ids.length ≤ cap) :
    ∃ dead', step P [] ⟨ids.map some, cap, dead⟩ m.op =
      ((Row.does P ⟨ids, cap⟩ m).1,
        ⟨(Row.does P ⟨ids, cap⟩ m).2.items.map some, (Row.does P ⟨ids, cap⟩ m).2.cap, dead'⟩) := by
  cases m with
  | push x =>
    simp only [Move.op, step, Row.does, List.length_map]
    cases room P cap (ids.length + 1) <;> exact ⟨_, by simp; rfl⟩
  | insert i x =>
    simp only [Move.op, step, Row.does, List.length_map, List.length_singleton]
    by_cases hi : ids.length < i
    · exact ⟨dead, by simp [hi]⟩
    · rw [if_neg hi, if_neg (by simp), if_neg hi]
      cases room P cap (ids.length + 1) <;> exact ⟨_, by simp [List.map_take, List.map_drop]; rfl⟩
  | set i x =>
    simp only [Move.op, step, Row.does, List.getElem?_map]
    by_cases hi : i < ids.length
    · rw [if_pos hi, List.getElem?_eq_getElem hi]
      exact ⟨_, by simp [List.map_set]; rfl⟩
    · rw [if_neg hi, List.getElem?_eq_none (Nat.le_of_not_lt hi)]
      exact ⟨_, rfl⟩
  | swap i j =>
    simp only [Move.op, step, Row.does, List.getElem?_map, List.length_map]
    cases hi : ids[i]? with
    | none => exact ⟨_, by simp; rfl⟩
    | some x =>
      cases hj : ids[j]? with
      | none => exact ⟨_, by simp; rfl⟩
      | some y =>
        simp only [Option.map_some]
        by_cases h : ids.length = cap
        · rw [if_pos h, if_pos h]; exact ⟨_, rfl⟩
        · rw [if_neg h, if_neg h]; exact ⟨_, by simp [List.map_set]; rfl⟩
  | delete i n =>
    simp only [Move.op, step, Row.does, List.length_map]
    by_cases hn : n = 0
    · rw [if_pos hn, if_pos hn]; exact ⟨_, rfl⟩
    · rw [if_neg hn, if_neg hn]
      by_cases h : ids.length < i + n
      · rw [if_pos h, if_pos h]; exact ⟨_, rfl⟩
      · rw [if_neg h, if_neg h]; exact ⟨_, by simp [List.map_take, List.map_drop]; rfl⟩
  | pop =>
    simp only [Move.op, step, Row.does, List.length_map, List.map_eq_nil_iff]
    by_cases h : ids = []
    · rw [if_pos h, if_pos (by simp [h])]; exact ⟨_, rfl⟩
    · rw [if_neg h, if_neg (by simp [h])]; exact ⟨_, by simp [List.map_dropLast]; rfl⟩
  | clear =>
    simp only [Move.op, step, Row.does, List.map_eq_nil_iff]
    by_cases h : ids = []
    · rw [if_pos h, if_pos (by simp [h])]; exact ⟨_, rfl⟩
    · rw [if_neg h, if_neg (by simp [h])]; exact ⟨_, rfl⟩
  | shrinkTo n =>
    have hn : n ≤ ids.length := hd.1
    simp only [Move.op, step, Row.does, List.length_map]
    by_cases h : n = ids.length
    · rw [if_pos h, if_pos h]; exact ⟨_, rfl⟩
    · rw [if_neg h, if_neg h]
      have hr : room P cap n = some cap := if_pos (Nat.le_trans hn hcap)
      simp only [hr]
      rw [if_pos hn]
      exact ⟨_, by simp [List.map_take]; rfl⟩
  | reserve c =>
    simp only [Move.op, step, Row.does]
    by_cases h : c ≤ cap
    · rw [if_pos h, if_pos h]; exact ⟨_, rfl⟩
    · rw [if_neg h, if_neg h]
      by_cases h : P.allocator.isSome
      · rw [if_pos h, if_pos h]; exact ⟨_, rfl⟩
      · rw [if_neg h, if_neg h]; exact ⟨_, rfl⟩
  | fit =>
    simp only [Move.op, step, Row.does, List.length_map]
    by_cases h : P.allocator.isSome
    · rw [if_pos h, if_pos h]; exact ⟨_, rfl⟩
    · rw [if_neg h, if_neg h]; exact ⟨_, rfl⟩

theorem move_junk {P : Params} {ids : List Nat} {cap : Nat} {dead : List (Cell Nat)} (m : Move Nat)
    (hd : Row.allows P ⟨ids, cap⟩ m) : junkLen ⟨ids.map some, cap, dead⟩ m.op = 0 := by
  cases m <;> try rfl
  rename_i n
  have hn : n ≤ ids.length := hd.1
  simp only [Move.op, junkLen, List.length_map]
  omega

theorem move_domain {P : Params} {ids : List Nat} {cap : Nat} {dead : List (Cell Nat)} (m : Move Nat)
    (hd : Row.allows P ⟨ids, cap⟩ m) : InDomain P ⟨ids.map some, cap, dead⟩ m.op := by
  cases m <;> simp_all [Row.allows, Move.op, InDomain]

/-- What is in the row and what goes is what was there and what comes. -/
theorem does_perm {P : Params} {ids : List Nat} {cap : Nat} (m : Move Nat) (hd : Row.allows P ⟨ids, cap⟩ m) :
    (failed (Row.does P ⟨ids, cap⟩ m).1 = true ∧ (Row.does P ⟨ids, cap⟩ m).2.items = ids ∧ m.gone ids = []) ∨
    (failed (Row.does P ⟨ids, cap⟩ m).1 = false ∧
      ((Row.does P ⟨ids, cap⟩ m).2.items ++ m.gone ids).Perm (m.item.toList ++ ids)) := by
  have hs : failed stSuccess = false := by decide
  have hi' : failed stInsufficient = true := by decide
  have ho : failed stOutOfRange = true := by decide
  have ha : failed stInvalidArgument = true := by decide
  cases m with
  | push x =>
    simp only [Row.does, Move.gone, Move.item]
    cases room P cap (ids.length + 1)
    · exact .inl ⟨hi', by simp, by simp⟩
    · refine .inr ⟨hs, ?_⟩
      simp only [List.append_nil, Option.toList]
      exact List.perm_append_comm
  | insert i x =>
    simp only [Row.does, Move.gone, Move.item]
    by_cases hi : ids.length < i
    · rw [if_pos hi]; exact .inl ⟨ho, by simp, by simp⟩
    · rw [if_neg hi]
      cases room P cap (ids.length + 1)
      · exact .inl ⟨hi', by simp, by simp⟩
      · refine .inr ⟨hs, ?_⟩
        simp only [List.append_nil, Option.toList]
        refine (List.perm_append_comm.append_right _).trans ?_
        rw [List.append_assoc, List.take_append_drop]
  | set i x =>
    simp only [Row.does, Move.gone, Move.item]
    by_cases hi : i < ids.length
    · rw [if_pos hi]
      refine .inr ⟨hs, ?_⟩
      simp only [Option.toList]
      have h1 : (ids.drop i).take 1 = [ids[i]] := by
        rw [List.drop_eq_getElem_cons hi]; rfl
      have h2 : ids = ids.take i ++ ids[i] :: ids.drop (i + 1) := by
        rw [List.getElem_cons_drop, List.take_append_drop]
      rw [h1, List.set_eq_take_append_cons_drop, if_pos hi]
      conv => rhs; rw [h2]
      refine (List.perm_append_comm (l₂ := [ids[i]])).trans ?_
      refine (List.Perm.cons _ List.perm_middle).trans ?_
      refine (List.Perm.swap x ids[i] _).trans ?_
      exact List.Perm.cons _ List.perm_middle.symm
    · rw [if_neg hi]
      exact .inl ⟨ho, rfl, by rw [List.drop_eq_nil_of_le (Nat.le_of_not_lt hi)]; rfl⟩
  | swap i j =>
    have hp := exchange_perm ids i j
    unfold exchange at hp
    simp only [Row.does, Move.gone, Move.item]
    cases hi : ids[i]? with
    | none => exact .inl ⟨ho, by simp, by simp⟩
    | some x =>
      cases hj : ids[j]? with
      | none => exact .inl ⟨ho, by simp, by simp⟩
      | some y =>
        rw [hi, hj] at hp
        simp only
        by_cases h : ids.length = cap
        · rw [if_pos h]; exact .inl ⟨hi', by simp, by simp⟩
        · rw [if_neg h]; exact .inr ⟨hs, by simpa using hp⟩
  | delete i n =>
    simp only [Row.does, Move.gone, Move.item]
    by_cases hn : n = 0
    · rw [if_pos hn]; exact .inl ⟨ha, rfl, by simp [hn]⟩
    · rw [if_neg hn]
      by_cases h : ids.length < i + n
      · rw [if_pos h, if_pos h]; exact .inl ⟨ho, by simp, by simp⟩
      · rw [if_neg h, if_neg h]
        refine .inr ⟨hs, ?_⟩
        simp only [Option.toList, List.nil_append]
        conv => rhs; rw [← three_parts ids i n]
        rw [List.append_assoc, List.append_assoc]
        exact List.perm_append_comm.append_left _
  | pop =>
    simp only [Row.does, Move.gone, Move.item]
    by_cases h : ids.length = 0
    · rw [if_pos h]; exact .inl ⟨ho, rfl, by rw [List.length_eq_zero_iff.1 h]; rfl⟩
    · rw [if_neg h]
      refine .inr ⟨hs, ?_⟩
      simp only [Option.toList, List.nil_append]
      rw [List.dropLast_eq_take, List.take_append_drop]
  | clear =>
    simp only [Row.does, Move.gone, Move.item]
    by_cases h : ids.length = 0
    · rw [if_pos h, List.length_eq_zero_iff.1 h]; exact .inr ⟨hs, List.Perm.refl _⟩
    · rw [if_neg h]; exact .inr ⟨hs, List.Perm.refl _⟩
  | shrinkTo n =>
    simp only [Row.does, Move.gone, Move.item]
    by_cases h : n = ids.length
    · rw [if_pos h, h]; exact .inr ⟨hs, by simp⟩
    · rw [if_neg h]
      refine .inr ⟨hs, ?_⟩
      simp only [Option.toList, List.nil_append]
      rw [List.take_append_drop]
  | reserve c =>
    simp only [Row.does, Move.gone, Move.item]
    by_cases h : c ≤ cap
    · rw [if_pos h]; exact .inr ⟨hs, by simp⟩
    · rw [if_neg h]
      by_cases h : P.allocator.isSome
      · rw [if_pos h]; exact .inr ⟨hs, by simp⟩
      · rw [if_neg h]; exact .inl ⟨hi', by simp, by simp⟩
  | fit =>
    simp only [Row.does, Move.gone, Move.item]
    by_cases h : P.allocator.isSome
    · rw [if_pos h]; exact .inr ⟨hs, by simp⟩
    · rw [if_neg h]; exact .inr ⟨hs, by simp⟩

/-- A row of other things does the same. -/
theorem does_map {β γ : Type} {P : Params} {l : List β} {cap : Nat} (f : β → γ) (m : Move β) :
    Row.does P ⟨l.map f, cap⟩ (m.map f) =
      ((Row.does P ⟨l, cap⟩ m).1, ⟨(Row.does P ⟨l, cap⟩ m).2.items.map f, (Row.does P ⟨l, cap⟩ m).2.cap⟩) := by
  cases m with
  | push x =>
    simp only [Move.map, Row.does, List.length_map]
    cases room P cap (l.length + 1) <;> simp
  | insert i x =>
    simp only [Move.map, Row.does, List.length_map]
    by_cases hi : l.length < i
    · rw [if_pos hi, if_pos hi]
    · rw [if_neg hi, if_neg hi]
      cases room P cap (l.length + 1) <;> simp [List.map_take, List.map_drop]
  | set i x =>
    simp only [Move.map, Row.does, List.length_map]
    by_cases hi : i < l.length
    · rw [if_pos hi, if_pos hi]; simp [List.map_set]
    · rw [if_neg hi, if_neg hi]
  | swap i j =>
    simp only [Move.map, Row.does, List.getElem?_map, List.length_map]
    cases hi : l[i]? with
    | none => simp
    | some x =>
      cases hj : l[j]? with
      | none => simp
      | some y =>
        simp only [Option.map_some]
        by_cases h : l.length = cap
        · rw [if_pos h, if_pos h]
        · rw [if_neg h, if_neg h]; simp [List.map_set]
  | delete i n =>
    simp only [Move.map, Row.does, List.length_map]
    by_cases hn : n = 0
    · rw [if_pos hn, if_pos hn]
    · rw [if_neg hn, if_neg hn]
      by_cases h : l.length < i + n
      · rw [if_pos h, if_pos h]
      · rw [if_neg h, if_neg h]; simp [List.map_take, List.map_drop]
  | pop =>
    simp only [Move.map, Row.does, List.length_map]
    by_cases h : l.length = 0
    · rw [if_pos h, if_pos h]
    · rw [if_neg h, if_neg h]; simp [List.map_dropLast]
  | clear =>
    simp only [Move.map, Row.does, List.length_map]
    by_cases h : l.length = 0
    · rw [if_pos h, if_pos h]
    · rw [if_neg h, if_neg h]; simp
  | shrinkTo n =>
    simp only [Move.map, Row.does, List.length_map]
    by_cases h : n = l.length
    · rw [if_pos h, if_pos h]
    · rw [if_neg h, if_neg h]; simp [List.map_take]
  | reserve c =>
    simp only [Move.map, Row.does]
    by_cases h : c ≤ cap
    · rw [if_pos h, if_pos h]
    · rw [if_neg h, if_neg h]
      by_cases h : P.allocator.isSome
      · rw [if_pos h, if_pos h]
      · rw [if_neg h, if_neg h]
  | fit =>
    simp only [Move.map, Row.does, List.length_map]
    by_cases h : P.allocator.isSome
    · rw [if_pos h, if_pos h]
    · rw [if_neg h, if_neg h]

/-! ## The strings -/

/-- Strings that exist can be destroyed, each once. -/
theorem destroyEach_ok : ∀ {ks : List Nat} {d : Desk} {S : Shelf}, DInv d S → ks.Nodup →
    (∀ k ∈ ks, ∃ x, S.objs[k]? = some (some x)) →
    ∃ d' S', destroyEach d ks = .ret d' ∧ DInv d' S' ∧
      ∀ j, S'.objs[j]? = if j ∈ ks then some none else S.objs[j]?
  | [], d, S, I, _, _ => ⟨d, S, rfl, I, fun j => by simp⟩
  | k :: ks, d, S, I, hn, h => by
    obtain ⟨x, hx⟩ := h k (by simp)
    obtain ⟨st, d1, S1, e, D, I1⟩ := deed_ok I (.destroy k) ⟨x, hx⟩
    have hS1 : S1.objs = S.objs.set k none := by cases D; rfl
    have hn' := List.nodup_cons.1 hn
    obtain ⟨d2, S2, e2, I2, h2⟩ := destroyEach_ok (ks := ks) I1 hn'.2 (fun j hj => by
      obtain ⟨y, hy⟩ := h j (by simp [hj])
      refine ⟨y, ?_⟩
      rw [hS1, List.getElem?_set_ne (fun hjk : k = j => hn'.1 (hjk.symm ▸ hj))]
      exact hy)
    refine ⟨d2, S2, ?_, I2, fun j => ?_⟩
    · simp only [destroyEach, e, Out.ret_bind']; exact e2
    · rw [h2 j, hS1]
      by_cases hj : j ∈ ks
      · simp [hj]
      · by_cases hk : j = k
        · subst hk
          have hlt : j < S.objs.length := (List.getElem?_eq_some_iff.1 hx).1
          simp [hj, List.getElem?_set_self hlt]
        · rw [List.getElem?_set_ne (fun h => hk h.symm)]
          simp [hj, hk]

/-- A string that does not exist can not be destroyed. -/
theorem destroy_gone {d : Desk} {S : Shelf} (I : DInv d S) {k : Nat} (h : ∀ x, S.objs[k]? ≠ some (some x)) :
    d.exec (.destroy k) = .ub .uaf := by
  have hk := I.objs k
  simp only [Desk.exec]
  cases hd : d.objs[k]? with
  | none => rfl
  | some o =>
    cases o with
    | none => rfl
    | some o =>
      exfalso
      have := I.shows.2.2 k
      rw [hd] at this
      cases hS : S.objs[k]? with
      | none => rw [hS] at this; exact this
      | some y =>
        cases y with
        | none => rw [hS] at this; exact this
        | some y => exact h y hS

theorem text_ok {d : Desk} {S : Shelf} (I : DInv d S) {x : List (Cell Byte)} (hx : SFits (x.length + 1)) :
    ∃ d' S', d.text x = .ret (S.objs.length, d') ∧ DInv d' S' ∧ S'.objs = S.objs ++ [some (.str textP (made x))] := by
  have hlen : d.objs.length = S.objs.length := I.shows.1
  obtain ⟨st, d1, S1, e1, D1, I1⟩ := deed_ok I (.newString 0 2 4 0) ⟨⟨by decide, by decide, by decide⟩, by decide⟩
  have hS1 : S1.objs = S.objs ++ [some (.str textP ⟨[], 33⟩)] := by cases D1; rfl
  have hget : S1.objs[S.objs.length]? = some (some (.str textP ⟨[], 33⟩)) := by rw [hS1]; simp
  have hdom : SInDomain ⟨[], 33⟩ (.append x) := by
    show SFits (0 + x.length + 1)
    rw [Nat.zero_add]; exact hx
  obtain ⟨st2, d2, S2, e2, D2, I2⟩ := deed_ok I1 (.stringCall S.objs.length (.append x)) ⟨_, _, hget, hdom⟩
  refine ⟨d2, S2, ?_, I2, ?_⟩
  · unfold Desk.text
    rw [e1, Out.ret_bind', hlen]
    simp only
    rw [e2]
    rfl
  · cases D2 with
    | stringCall h junk hj hs =>
      rw [hget] at h
      cases h
      have hy : made x = (sstep textP junk ⟨[], 33⟩ (.append x)).2 := rfl
      rw [hs] at hy
      show S1.objs.set S.objs.length _ = _
      rw [hS1, hy, List.set_append_right _ _ (Nat.le_refl _)]
      simp

/-! ## Vector and strings together -/

/-- The text of string `k`. -/
def textAt (S : Shelf) (k : Nat) : SState :=
  match S.objs[k]? with
  | some (some (.str _ y)) => y
  | _ => ⟨[], 0⟩

theorem textAt_eq {S : Shelf} {k : Nat} {Q : Params} {y : SState} (h : S.objs[k]? = some (some (.str Q y))) :
    textAt S k = y := by
  unfold textAt
  rw [h]

theorem textAt_congr {S S' : Shelf} {k : Nat} (h : S'.objs[k]? = S.objs[k]?) : textAt S' k = textAt S k := by
  unfold textAt
  rw [h]

/-- The objects that exist are the strings with these numbers. -/
structure Owned (S : Shelf) (ids : List Nat) : Prop where
  nodup : ids.Nodup
  live : ∀ j x, S.objs[j]? = some (some x) → j ∈ ids
  strs : ∀ k ∈ ids, S.objs[k]? = some (some (.str textP (textAt S k)))

theorem Owned.settle {S S' : Shelf} {ids ids' gone : List Nat} (h : Owned S ids) (hp : (ids' ++ gone).Perm ids)
    (hS : ∀ j, S'.objs[j]? = if j ∈ gone then some none else S.objs[j]?) :
    Owned S' ids' ∧ ids'.map (textAt S') = ids'.map (textAt S) := by
  have hn := List.nodup_append.1 (hp.nodup_iff.2 h.nodup)
  have hout : ∀ k ∈ ids', S'.objs[k]? = S.objs[k]? := fun k hk => by
    rw [hS k, if_neg (fun hg => hn.2.2 k hk k hg rfl)]
  refine ⟨⟨hn.1, fun j x hj => ?_, fun k hk => ?_⟩, ?_⟩
  · rw [hS j] at hj
    by_cases hg : j ∈ gone
    · rw [if_pos hg] at hj; cases hj
    · rw [if_neg hg] at hj
      have := hp.mem_iff.2 (h.live j x hj)
      rw [List.mem_append] at this
      exact this.resolve_right hg
  · rw [hout k hk, textAt_congr (hout k hk)]
    exact h.strs k (hp.mem_iff.1 (List.mem_append_left _ hk))
  · exact List.map_congr_left fun k hk => textAt_congr (hout k hk)

theorem gone_some {P : Params} {ids : List Nat} {cap : Nat} {m : Move Nat} (hd : Row.allows P ⟨ids, cap⟩ m)
    (hn : (m.item.toList ++ ids).Nodup) : (m.gone ids).Nodup ∧ ∀ k ∈ m.gone ids, k ∈ m.item.toList ++ ids := by
  rcases does_perm m hd with ⟨-, -, hg⟩ | ⟨-, hp⟩
  · rw [hg]; exact ⟨List.nodup_nil, fun k hk => by cases hk⟩
  · exact ⟨(List.nodup_append.1 (hp.nodup_iff.2 hn)).2.1, fun k hk => hp.mem_iff.1 (List.mem_append_right _ hk)⟩

/-- One call. The new string, if any, exists already. -/
theorem call_ok {P : Params} (hP : P.dtor = true) {o : Shop} {ids : List Nat} {cap : Nat} {dead : List (Cell Nat)}
    {b : Block Nat} {slack : List (Cell Nat)} (R : Rep P o.s ⟨ids.map some, cap, dead⟩ b slack) {S : Shelf}
    (I : DInv o.d S) {m : Move Nat} (O : Owned S (m.item.toList ++ ids)) (hd : Row.allows P ⟨ids, cap⟩ m) :
    ∃ o' S' dead' b' slack', m.call o = .ret ((Row.does P ⟨ids, cap⟩ m).1, o') ∧
      Rep P o'.s ⟨(Row.does P ⟨ids, cap⟩ m).2.items.map some, (Row.does P ⟨ids, cap⟩ m).2.cap, dead'⟩ b' slack' ∧
      DInv o'.d S' ∧ ∀ j, S'.objs[j]? = if j ∈ m.gone ids then some none else S.objs[j]? := by
  obtain ⟨hg1, hg2⟩ := gone_some hd O.nodup
  obtain ⟨d', S', e, I', hS'⟩ := destroyEach_ok I hg1 fun k hk => ⟨_, O.strs k (hg2 k hk)⟩
  obtain ⟨junk, st, s', a', b', slack', hj, hst, hop, R'⟩ := op_ok R m.op (move_domain m hd)
  rw [move_junk m hd] at hj
  have hj0 : junk = [] := List.length_eq_zero_iff.1 hj
  have hcap : ids.length ≤ cap := by have := R.len; simpa using this
  obtain ⟨dead', hst'⟩ := step_row (dead := dead) m hd hcap
  rw [hj0, hst'] at hst
  cases hst
  refine ⟨⟨s', d'⟩, S', dead', b', slack', ?_, R', I', hS'⟩
  rw [call_eq hP R m hd]
  unfold after
  rw [e, hop]
  rfl

/-- The invariant of programs. -/
structure OInv (P : Params) (o : Shop) (r : Row SState) (ids : List Nat) (S : Shelf) : Prop where
  rep : ∃ dead b slack, Rep P o.s ⟨ids.map some, r.cap, dead⟩ b slack
  desk : DInv o.d S
  owned : Owned S ids
  items : r.items = ids.map (textAt S)

theorem allows_length {β γ : Type} {P : Params} {l : List β} {k : List γ} {cap : Nat} (h : l.length = k.length)
    {δ : Type} (m : Move δ) (f : δ → β) (g : δ → γ) (hd : Row.allows P ⟨l, cap⟩ (m.map f)) :
    Row.allows P ⟨k, cap⟩ (m.map g) := by
  cases m <;> simp_all [Row.allows, Move.map]

theorem item_map {β γ : Type} (f : β → γ) (m : Move β) : (m.map f).item = m.item.map f := by
  cases m <;> rfl

theorem map_map {β γ δ : Type} (f : β → γ) (g : γ → δ) (m : Move β) : (m.map f).map g = m.map (g ∘ f) := by
  cases m <;> rfl

theorem map_congr {β γ : Type} {f g : β → γ} {m : Move β} (h : ∀ x, m.item = some x → f x = g x) :
    m.map f = m.map g := by
  cases m <;> first | rfl | (simp only [Move.map]; rw [h _ rfl])

theorem move_ok {P : Params} (hP : P.dtor = true) {o : Shop} {r : Row SState} {ids : List Nat} {S : Shelf}
    (I : OInv P o r ids S) (m : Move (List (Cell Byte))) (hd : r.accepts P (.move m)) :
    ∃ o' ids' S', o.exec (.move m) = .ret ((r.does P (m.map made)).1, o') ∧
      OInv P o' (r.does P (m.map made)).2 ids' S' := by
  obtain ⟨dead, b, slack, R⟩ := I.rep
  obtain ⟨items, cap⟩ := r
  have hitems : items = ids.map (textAt S) := I.items
  subst hitems
  cases hm : m.item with
  | none =>
    have hdo : Row.allows P ⟨ids, cap⟩ (m.map fun _ => 0) := allows_length (by simp) m made _ hd.1
    have hit : (m.map fun _ => (0 : Nat)).item = none := by rw [item_map, hm]; rfl
    obtain ⟨o', S', dead', b', slack', e, R', I', hS'⟩ := call_ok hP R I.desk (m := m.map fun _ => 0)
      (by rw [hit]; exact I.owned) hdo
    have hmm : m.map made = (m.map fun _ => 0).map (textAt S) := by
      rw [map_map]; exact map_congr fun x hx => by rw [hm] at hx; cases hx
    have hp : ((Row.does P ⟨ids, cap⟩ (m.map fun _ => 0)).2.items ++ (m.map fun _ => 0).gone ids).Perm ids := by
      rcases does_perm _ hdo with ⟨-, h1, h2⟩ | ⟨-, h⟩
      · rw [h1, h2, List.append_nil]
      · rw [hit] at h; exact h
    obtain ⟨O', hmap⟩ := I.owned.settle hp hS'
    rw [hmm, does_map]
    refine ⟨o', _, S', ?_, ⟨dead', b', slack', R'⟩, I', O', hmap.symm⟩
    simp only [Shop.exec, hm]
    exact e
  | some x =>
    obtain ⟨d1, S1, e1, I1, hS1⟩ := text_ok I.desk (hd.2 x hm)
    generalize hn : S.objs.length = n at *
    have hlt : ∀ k ∈ ids, k < n := fun k hk => by
      rw [← hn]; exact (List.getElem?_eq_some_iff.1 (I.owned.strs k hk)).1
    have hold : ∀ k, k < n → S1.objs[k]? = S.objs[k]? := fun k hk => by
      rw [hS1, List.getElem?_append_left (by omega)]
    have hnew : S1.objs[n]? = some (some (.str textP (made x))) := by
      rw [hS1, ← hn]; simp
    have hit : (m.map fun _ => n).item = some n := by rw [item_map, hm]; rfl
    have O1 : Owned S1 ([n] ++ ids) := by
      refine ⟨?_, fun j y hj => ?_, fun k hk => ?_⟩
      · exact List.nodup_cons.2 ⟨fun h => Nat.lt_irrefl _ (hlt n h), I.owned.nodup⟩
      · rcases Nat.lt_trichotomy j n with h | h | h
        · rw [hold j h] at hj
          exact List.mem_append_right _ (I.owned.live j y hj)
        · simp [h]
        · rw [hS1, List.getElem?_eq_none (by simp; omega)] at hj
          cases hj
      · rcases List.mem_append.1 hk with h | h
        · rw [List.mem_singleton.1 h, textAt_eq hnew]
          exact hnew
        · rw [hold k (hlt k h), textAt_congr (hold k (hlt k h))]
          exact I.owned.strs k h
    have hdo : Row.allows P ⟨ids, cap⟩ (m.map fun _ => n) := allows_length (by simp) m made _ hd.1
    obtain ⟨o', S', dead', b', slack', e, R', I', hS'⟩ := call_ok (o := ⟨o.s, d1⟩) hP R I1 (m := m.map fun _ => n)
      (by rw [hit]; exact O1) hdo
    have hmm : m.map made = (m.map fun _ => n).map (textAt S1) := by
      rw [map_map]
      refine map_congr fun y hy => ?_
      rw [hm] at hy; cases hy
      exact (textAt_eq hnew).symm
    have hids : ids.map (textAt S) = ids.map (textAt S1) :=
      List.map_congr_left fun k hk => (textAt_congr (hold k (hlt k hk))).symm
    rw [hmm, hids, does_map]
    rcases does_perm _ hdo with ⟨hf, h1, h2⟩ | ⟨hf, hp⟩
    · rw [h2] at hS'
      have hget : S'.objs[n]? = some (some (.str textP (made x))) := by rw [hS' n]; simpa using hnew
      obtain ⟨d2, S2, e2, I2, hS2⟩ := destroyEach_ok (ks := [n]) I' (by simp) fun k hk => by
        rw [List.mem_singleton.1 hk]; exact ⟨_, hget⟩
      obtain ⟨O', hmap⟩ := O1.settle (ids' := ids) (gone := [n]) (S' := S2) List.perm_append_comm fun j => by
        rw [hS2 j, hS' j]; simp
      refine ⟨⟨o'.s, d2⟩, ids, S2, ?_, ⟨dead', b', slack', ?_⟩, I2, O', ?_⟩
      · simp only [Shop.exec, hm, e1, Out.ret_bind', e]
        rw [if_pos hf]
        simp only [destroyEach] at e2
        cases e3 : o'.d.exec (.destroy n) with
        | ub u => rw [e3] at e2; cases e2
        | ret q => rw [e3] at e2; simp only [Out.ret_bind'] at e2 ⊢; cases e2; rfl
      · rw [h1] at R'; exact R'
      · show _ = ids.map (textAt S2)
        rw [hmap, h1]
    · rw [hit] at hp
      obtain ⟨O', hmap⟩ := O1.settle hp hS'
      refine ⟨o', _, S', ?_, ⟨dead', b', slack', R'⟩, I', O', hmap.symm⟩
      simp only [Shop.exec, hm, e1, Out.ret_bind', e]
      rw [if_neg (by rw [hf]; decide)]

theorem edit_ok {P : Params} {o : Shop} {r : Row SState} {ids : List Nat} {S : Shelf}
    (I : OInv P o r ids S) (k : Nat) (op : SOp) (hd : r.accepts P (.edit k op)) :
    ∃ junk o' S', junk.length = r.unknown (.edit k op) ∧ o.exec (.edit k op) = .ret ((r.wants P junk (.edit k op)).1, o') ∧
      OInv P o' (r.wants P junk (.edit k op)).2 ids S' := by
  obtain ⟨dead, b, slack, R⟩ := I.rep
  obtain ⟨items, cap⟩ := r
  have hitems : items = ids.map (textAt S) := I.items
  subst hitems
  cases hk : ids[k]? with
  | none =>
    have hlen : ids.length ≤ k := List.getElem?_eq_none_iff.1 hk
    have hg : vecGetMutable o.s k = none := by
      cases h : vecGetMutable o.s k with
      | none => rfl
      | some p =>
        have := ((getMutable_rep R k p).1 h).1
        simp at this
        omega
    have hi : (ids.map (textAt S))[k]? = none := by rw [List.getElem?_map, hk]; rfl
    refine ⟨[], o, S, ?_, ?_, ?_⟩
    · simp only [Row.unknown, hi]; rfl
    · simp only [Row.wants, hi, Shop.exec, hg]
    · simp only [Row.wants, hi]
      exact I
  | some n =>
    have hi : (ids.map (textAt S))[k]? = some (textAt S n) := by rw [List.getElem?_map, hk]; rfl
    have hklt : k < ids.length := (List.getElem?_eq_some_iff.1 hk).1
    have hg : vecGetMutable o.s k = some ⟨b.id, k⟩ := (getMutable_rep R k _).2 ⟨by simpa using hklt, rfl⟩
    have hr : readThrough o.s ⟨b.id, k⟩ = .ret (some n) := readThrough_rep R (by simp [hk])
    have hmem : n ∈ ids := List.mem_of_getElem? hk
    have hS := I.owned.strs n hmem
    obtain ⟨st, d', S', e, D, I'⟩ := deed_ok I.desk (.stringCall n op) ⟨_, _, hS, hd _ hi⟩
    cases D with
    | stringCall h junk hj hs =>
      rename_i Q x y
      rw [hS] at h
      cases h
      have hnlt : n < S.objs.length := (List.getElem?_eq_some_iff.1 hS).1
      have hself : (S.put n (.str textP y)).objs[n]? = some (some (.str textP y)) :=
        List.getElem?_set_self hnlt
      have hother : ∀ j, j ≠ n → (S.put n (.str textP y)).objs[j]? = S.objs[j]? :=
        fun j h => List.getElem?_set_ne (fun h' => h h'.symm)
      refine ⟨junk, ⟨o.s, d'⟩, S.put n (.str textP y), ?_, ?_, ?_, I', ⟨I.owned.nodup, fun j z hz => ?_, fun j hj => ?_⟩, ?_⟩
      · simp only [Row.unknown, hi]; exact hj
      · simp only [Row.wants, hi, Shop.exec, hg, hr, Out.ret_bind', e, hs]
      · simp only [Row.wants, hi]; exact ⟨dead, b, slack, R⟩
      · by_cases h : j = n
        · rw [h]; exact hmem
        · rw [hother j h] at hz; exact I.owned.live j z hz
      · by_cases h : j = n
        · rw [h, textAt_eq hself]; exact hself
        · rw [textAt_congr (hother j h), hother j h]; exact I.owned.strs j hj
      · simp only [Row.wants, hi, hs]
        apply List.ext_getElem?
        intro j
        rw [List.getElem?_set, List.getElem?_map, List.getElem?_map]
        by_cases hjk : k = j
        · subst hjk
          rw [if_pos rfl, if_pos (by simpa using hklt), hk, Option.map_some, textAt_eq hself]
        · rw [if_neg hjk]
          cases hj' : ids[j]? with
          | none => rfl
          | some n' =>
            have : n' ≠ n := by
              intro h
              subst h
              exact hjk ((List.getElem?_inj hklt I.owned.nodup).1 (hk.trans hj'.symm))
            rw [Option.map_some, Option.map_some, textAt_congr (hother n' this)]

/-- One command. -/
theorem order_ok {P : Params} (hP : P.dtor = true) {o : Shop} {r : Row SState} {ids : List Nat} {S : Shelf}
    (I : OInv P o r ids S) (c : Order) (hd : r.accepts P c) :
    ∃ junk o' ids' S', junk.length = r.unknown c ∧ o.exec c = .ret ((r.wants P junk c).1, o') ∧
      OInv P o' (r.wants P junk c).2 ids' S' := by
  cases c with
  | move m =>
    obtain ⟨o', ids', S', e, I'⟩ := move_ok hP I m hd
    exact ⟨[], o', ids', S', rfl, e, I'⟩
  | edit k op =>
    obtain ⟨junk, o', S', hj, e, I'⟩ := edit_ok I k op hd
    exact ⟨junk, o', ids, S', hj, e, I'⟩

/-- A whole program. -/
theorem orders_ok {P : Params} (hP : P.dtor = true) : ∀ (cs : List Order) {o : Shop} {r : Row SState}
    {ids : List Nat} {S : Shelf}, OInv P o r ids S → r.AcceptsAll P cs →
    ∃ sts o' r' ids' S', o.run cs = .ret (sts, o') ∧ r.Lives P cs sts r' ∧ OInv P o' r' ids' S'
  | [], o, r, ids, S, I, _ => ⟨[], o, r, ids, S, rfl, .nil r, I⟩
  | c :: cs, o, r, ids, S, I, h => by
    cases h with
    | cons h t =>
      obtain ⟨junk, o1, ids1, S1, hj, e1, I1⟩ := order_ok hP I c h
      obtain ⟨sts, o2, r2, ids2, S2, e2, L, I2⟩ := orders_ok hP cs I1 (t junk hj)
      exact ⟨_, o2, r2, ids2, S2, by simp only [Shop.run, e1, Out.ret_bind', e2], .cons junk hj L, I2⟩

/-! ## Beginning and end -/

theorem shop_start {P : Params} {s : VS Nat} (h : Reach P s) (he : contents s = .ret []) {u : World Byte} (hw : Fresh u)
    (hr : Reliable u) : OInv P ⟨s, ⟨[], u⟩⟩ ⟨[], s.v.cap⟩ [] ⟨[], []⟩ := by
  obtain ⟨b, slack, R⟩ := h.rep
  rw [R.contents] at he
  injection he with he
  refine ⟨⟨(absOf s).dead, b, slack, ?_⟩, desk_start hw hr, ⟨List.nodup_nil, fun j x hj => by simp at hj, fun k hk => by cases hk⟩, rfl⟩
  · have : absOf s = ⟨[], s.v.cap, (absOf s).dead⟩ := by
      cases ha : absOf s with
      | mk es c dd =>
        rw [ha] at he
        have hc : s.v.cap = c := by have := R.cap; rw [ha] at this; exact this
        rw [hc]
        simp_all
    rw [← show absOf s = ⟨[].map some, s.v.cap, (absOf s).dead⟩ from this]
    exact R

theorem OInv.shows {P : Params} {o : Shop} {r : Row SState} {ids : List Nat} {S : Shelf} (I : OInv P o r ids S) :
    o.shows r := by
  obtain ⟨dead, b, slack, R⟩ := I.rep
  have hsh := I.desk.shows.2.2
  refine ⟨ids, R.contents, R.cap, I.owned.nodup, fun j => ?_, by rw [I.items, List.length_map], fun k n y hk hy => ?_⟩
  · constructor
    · rintro ⟨x, hx⟩
      have h := hsh j
      rw [hx] at h
      cases hS : S.objs[j]? with
      | none => rw [hS] at h; exact h.elim
      | some z =>
        cases z with
        | none => rw [hS] at h; exact h.elim
        | some z => exact I.owned.live j z hS
    · intro hj
      have h := hsh j
      rw [I.owned.strs j hj] at h
      cases hd : o.d.objs[j]? with
      | none => rw [hd] at h; exact h.elim
      | some z =>
        cases z with
        | none => rw [hd] at h; exact h.elim
        | some z => exact ⟨z, rfl⟩
  · have hS := I.owned.strs n (List.mem_of_getElem? hk)
    have h := hsh n
    rw [hS] at h
    rw [I.items, List.getElem?_map, hk] at hy
    cases hy
    cases hd : o.d.objs[n]? with
    | none => rw [hd] at h; exact h.elim
    | some z =>
      cases z with
      | none => rw [hd] at h; exact h.elim
      | some z =>
        rw [hd] at h
        cases z with
        | vec v => exact h.elim
        | bits m v => exact h.elim
        | str v fx => exact ⟨v, fx, rfl, h.1, h.2.1⟩

theorem heap_empty {d : Desk} {S : Shelf} (I : DInv d S) (h : ∀ (j : Nat) x, S.objs[j]? ≠ some (some x)) :
    heapOf d.w.trace = some .empty := by
  obtain ⟨hp, h1, h2⟩ := I.tidy.sep.heap
  rw [h1]
  congr 1
  funext k
  cases hk : hp k with
  | none => rfl
  | some x =>
    exfalso
    obtain ⟨i, hi⟩ := (h2 k x).1 hk
    unfold Desk.places at hi
    rw [List.getElem?_map] at hi
    have hsh := I.shows.2.2 i
    cases hv : d.objs[i]? with
    | none => rw [hv] at hi; cases hi
    | some o =>
      cases o with
      | none => rw [hv] at hi; cases hi
      | some o =>
        rw [hv] at hsh
        cases hS : S.objs[i]? with
        | none => rw [hS] at hsh; exact hsh
        | some z =>
          cases z with
          | none => rw [hS] at hsh; exact hsh
          | some z => exact h i z hS

theorem OInv.destroy {P : Params} (hP : P.dtor = true) {o : Shop} {r : Row SState} {ids : List Nat} {S : Shelf}
    (I : OInv P o r ids S) : ∃ s' d' S', vecDestroyO o = .ret (stSuccess, ⟨s', d'⟩) ∧ s'.v.data = none ∧
      (P.allocator.isSome → replay s'.w.trace = some none) ∧ DInv d' S' ∧ ∀ (j : Nat) x, S'.objs[j]? ≠ some (some x) := by
  obtain ⟨dead, b, slack, R⟩ := I.rep
  obtain ⟨s', -, hdata, hrep, e⟩ := destroyO_eq hP R
  obtain ⟨d', S', e2, I', hS'⟩ := destroyEach_ok I.desk I.owned.nodup fun k hk => ⟨_, I.owned.strs k hk⟩
  refine ⟨s', d', S', ?_, hdata, hrep, I', fun j x hj => ?_⟩
  · rw [e]; unfold after; rw [e2]; rfl
  · rw [hS' j] at hj
    by_cases hm : j ∈ ids
    · rw [if_pos hm] at hj; cases hj
    · rw [if_neg hm] at hj; exact hm (I.owned.live j x hj)

/-- A vector with the number of a string that does not exist can not be destroyed. -/
theorem destroy_stale {P : Params} (hP : P.dtor = true) {s : VS Nat} {a : LState Nat} {b : Block Nat}
    {slack : List (Cell Nat)} (R : Rep P s a b slack) {d : Desk} {S : Shelf} (I : DInv d S)
    (h : ∀ (j : Nat) x, S.objs[j]? ≠ some (some x)) {k : Nat} {es : List (Cell Nat)} (he : a.elems = some k :: es) :
    vecDestroyO ⟨s, d⟩ = .ub .uaf := by
  have hs : s.v.size = es.length + 1 := by rw [R.size, he]; rfl
  have hx : b.cells[0]? = some (some k) := by rw [R.cells, he]; rfl
  unfold vecDestroyO runDtorsO
  simp only [R.dtor, hP, if_true, hs, Nat.sub_zero, destroyLoopO, R.data, withData, hx]
  rw [destroy_gone I (h k)]
  rfl

/-- A vector with elements behind its strings can not be destroyed. -/
theorem destroy_grown {P : Params} (hP : P.dtor = true) {s : VS Nat} {d : Desk} {ids : List Nat} {c : Cell Nat}
    {es : List (Cell Nat)} {cap : Nat} {dead : List (Cell Nat)} {b : Block Nat} {slack : List (Cell Nat)}
    (R : Rep P s ⟨ids.map some ++ c :: es, cap, dead⟩ b slack) {S : Shelf} (I : DInv d S) (O : Owned S ids) :
    ∃ w, vecDestroyO ⟨s, d⟩ = .ub w ∧ (w = .uaf ∨ w = .indet) := by
  obtain ⟨d', S', e2, I', hS'⟩ := destroyEach_ok I O.nodup fun k hk => ⟨_, O.strs k hk⟩
  have hno : ∀ (j : Nat) x, S'.objs[j]? ≠ some (some x) := fun j x hj => by
    rw [hS' j] at hj
    by_cases hm : j ∈ ids
    · rw [if_pos hm] at hj; cases hj
    · rw [if_neg hm] at hj; exact hm (O.live j x hj)
  have hs : s.v.size = ids.length + (es.length + 1) := by rw [R.size]; simp
  have hsplit : ∀ (n : Nat) (mid : List Nat) (s : VS Nat) (d : Desk) (i : Nat) (pre post : List (Cell Nat)),
      s.v.data = some b → b.cells = pre ++ mid.map some ++ post → i = pre.length →
      destroyLoopO s d i (mid.length + n) = (destroyEach d mid).bind fun d' =>
        destroyLoopO { s with w := { s.w with trace := s.w.trace ++ (mid.map some).map Event.destroy } } d'
          (i + mid.length) n := by
    intro n mid
    induction mid with
    | nil => intro s d i pre post hd h hi; simp [destroyEach]
    | cons k mid ih =>
      intro s d i pre post hd h hi
      have hx : b.cells[i]? = some (some k) := by rw [h, hi]; simp
      rw [show (k :: mid).length + n = (mid.length + n) + 1 by simp; omega]
      simp only [destroyLoopO, hd, withData, hx, destroyEach]
      cases d.exec (.destroy k) with
      | ub u => rfl
      | ret q =>
        simp only [Out.ret_bind']
        rw [ih { s with w := s.w.log (.destroy (some k)) } q.2 (i + 1) (pre ++ [some k]) post hd (by simp [h])
          (by simp [hi])]
        simp [World.log, Nat.add_assoc, Nat.add_comm 1]
  have hc : b.cells = [] ++ ids.map some ++ (c :: es ++ slack) := by rw [R.cells]; simp
  have hx : b.cells[ids.length]? = some c := by rw [R.cells]; simp
  unfold vecDestroyO runDtorsO
  simp only [R.dtor, hP, if_true, hs, Nat.sub_zero]
  rw [hsplit (es.length + 1) ids s d 0 [] _ R.data hc rfl, e2]
  simp only [Out.ret_bind', Nat.zero_add, destroyLoopO, R.data, withData, hx]
  cases c with
  | none => exact ⟨_, rfl, .inr rfl⟩
  | some k =>
    simp only
    rw [destroy_gone I' (hno k)]
    exact ⟨_, rfl, .inl rfl⟩

end Zy
