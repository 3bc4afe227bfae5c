import Verif.Lemmas.VectorReach

/-!
# Lemmas: element pointers into the vector itself
-/

namespace Zy

open Spec

variable {α : Type}

theorem readRange_val {cells : List (Cell α)} {i n : Nat} (h : i + n ≤ cells.length) :
    readRange cells i n = .ret ((cells.drop i).take n) := by
  unfold readRange
  rw [if_pos h]

/-- Copying from the block itself is copying from a copy, unless the ranges overlap partially. -/
theorem memcpyIn_self {b : Block α} {i dst n : Nat} {xs : List (Cell α)}
    (ho : ¬ (i < dst + n ∧ dst < i + n ∧ i ≠ dst)) (hx : readRange b.cells i n = .ret xs)
    (hl : xs.length = n) : memcpyIn b dst (.self b.id i) n = memcpyIn b dst (.ext xs) n := by
  have h1 : readRange xs 0 n = .ret xs := by
    rw [readRange_val (by omega), List.drop_zero, List.take_of_length_le (by omega)]
  simp only [memcpyIn, if_true, h1, hx, Out.ret_bind']
  rw [if_neg ho]

/-- No block moves if there is room, or if the vector does not own its memory. -/
theorem growFor_still {P : Params} {s : VS α} {a : LState α} {b : Block α} {slack : List (Cell α)}
    (R : Rep P s a b slack) {need : Nat} (hw : need < 18446744073709551616)
    (h : need ≤ a.cap ∨ P.allocator = none) :
    ∃ st, growFor s need = .ret (st, s) ∧ (failed st = true ↔ ¬ need ≤ a.cap) := by
  unfold growFor shouldGrow
  rw [R.cap]
  by_cases hn : need ≤ a.cap
  · rw [if_neg (by simp; omega)]
    exact ⟨_, rfl, by simp [hn]⟩
  · rw [if_pos (by simp; omega)]
    have hfix := h.resolve_left hn
    rw [reallocate_fixed R hfix]
    split
    · exact ⟨_, rfl, by simp only [hn, not_false_eq_true, iff_true]; decide⟩
    · rename_i hc
      exfalso
      have hg := (R.fixed hfix).1
      rw [R.growth, hg] at hc
      rw [mul64_eq (by omega)] at hc
      omega

/-- A growing dynamic vector always gets a new block. -/
theorem growFor_moves {P : Params} {s : VS α} {a : LState α} {b : Block α} {slack : List (Cell α)}
    (R : Rep P s a b slack) (hdyn : P.allocator.isSome) {need : Nat} (hf : Fits P need)
    (hn : a.elems.length ≤ need) (hc : a.cap < need) :
    ∃ s' b' sl', growFor s need = .ret (stSuccess, s') ∧ b'.id ≠ b.id ∧
      Rep P s' { a with cap := need * P.growth } b' sl' ∧ need ≤ need * P.growth := by
  obtain ⟨al, hal⟩ := Option.isSome_iff_exists.1 hdyn
  have hr : Spec.room P a.cap need = some (need * P.growth) := by
    unfold Spec.room
    rw [if_neg (by omega), if_pos hdyn]
  obtain ⟨h1, s', b', sl', e, R'⟩ := growFor_some R hf hn hr
  refine ⟨s', b', sl', e, ?_, R', h1⟩
  have hA := R.alloc
  simp only [AllocOK, hal] at hA
  have hm := (hf.mul_growth R.growth255 R.esz1).2.1
  have hcap := R.cap1
  have e2 := e
  unfold growFor shouldGrow at e2
  rw [R.cap, if_pos (by simpa using hc), R.growth, mul64_eq hm] at e2
  simp only [reallocate, R.allocator, hal] at e2
  rw [if_neg (by omega)] at e2
  simp only [reallocTo, R.data, withData, reallocBlock, R.reliable_now, World.log,
    Bool.false_eq_true, if_false] at e2
  have e3 := congrArg (fun o : Out (Status × VS α) => match o with
    | .ret r => r.2.v.data.map Block.id
    | .ub _ => none) e2
  simp only [R'.data, Option.map_some] at e3
  have := Option.some.inj e3
  omega

/-- The memory after the gap for an insertion was opened. -/
theorem shift_cells {P : Params} {s : VS α} {a : LState α} {b : Block α} {slack : List (Cell α)}
    (R : Rep P s a b slack) {i n : Nat} (hi : i ≤ a.elems.length) (hn : a.elems.length + n ≤ a.cap)
    (hlt : a.elems.length + n < 18446744073709551616) :
    (if i < s.v.size then shiftRight s i n else .ret s) =
        .ret ⟨{ s.v with data := some ⟨b.id, a.elems.take i ++ (a.elems.drop i ++ slack).take n ++
          (a.elems.drop i ++ slack.drop n)⟩ }, s.w⟩ := by
  have hroom := R.room
  rw [R.cells] at hroom
  simp at hroom
  have hsl : n ≤ slack.length := by omega
  by_cases h : i < s.v.size
  · have hpre : (a.elems.take i).length = i := by simp; omega
    rw [if_pos h]
    have hm := memmove_right (pre := a.elems.take i) (suf := a.elems.drop i) (slack := slack) hsl
    rw [List.take_append_drop, ← R.cells, hpre] at hm
    have h1 : add64 i n = i + n := add64_eq (by omega)
    have h2 : sub64 s.v.size i = (a.elems.drop i).length := by
      rw [sub64_eq (by omega) (by rw [R.size]; omega), R.size]; simp
    simp only [shiftRight, R.data, withData, h1, h2, hm, Out.ret_bind', List.append_assoc]
  · have hi' : i = a.elems.length := by rw [R.size] at h; omega
    rw [if_neg h]
    subst hi'
    have : b = { b with cells := a.elems ++ slack } := by rw [← R.cells]
    simp
    rw [← this, ← R.data]

/-- What lies in the memory after the gap was opened: in front of it and in it the old elements, behind it
the elements that were `n` slots before. -/
theorem gap_read {es sl : List (Cell α)} {i j n : Nat} (hj : j ≤ es.length) (hi : i + n ≤ es.length)
    (hsl : n ≤ sl.length) :
    ((i + n ≤ j ∨ i = j) → readRange (es.take j ++ (es.drop j ++ sl).take n ++ (es.drop j ++ sl.drop n)) i n =
      .ret ((es.drop i).take n)) ∧
    (j + n ≤ i → readRange (es.take j ++ (es.drop j ++ sl).take n ++ (es.drop j ++ sl.drop n)) i n =
      .ret ((es.drop (i - n)).take n)) := by
  have hlen : i + n ≤ (es.take j ++ (es.drop j ++ sl).take n ++ (es.drop j ++ sl.drop n)).length := by
    simp; omega
  have h2 : (es.take j).length = j := by simp; omega
  have h3 : ((es.drop j ++ sl).take n).length = n := by simp; omega
  constructor
  · intro h
    rw [readRange_val hlen]
    congr 1
    rcases h with h | rfl
    · rw [List.append_assoc, List.drop_append_of_le_length (by omega),
        List.take_append_of_le_length (by rw [List.length_drop]; omega), List.drop_take, List.take_take,
        Nat.min_eq_left (by omega)]
    · rw [List.append_assoc, List.drop_append_of_le_length (by omega), List.drop_of_length_le (by omega),
        List.nil_append, List.take_append_of_le_length (by omega), List.take_take, Nat.min_self,
        List.take_append_of_le_length (by rw [List.length_drop]; omega)]
  · intro h
    rw [readRange_val hlen]
    congr 1
    rw [List.drop_append, List.drop_of_length_le (by rw [List.length_append]; omega), List.nil_append,
      List.length_append, h2, h3, List.drop_append_of_le_length (by rw [List.length_drop]; omega),
      List.drop_drop, show j + (i - (j + n)) = i - n by omega,
      List.take_append_of_le_length (by rw [List.length_drop]; omega)]

theorem fillLoop_self (x : Cell α) (i : Nat) : ∀ (n : Nat) {b : Block α} {k : Nat},
    b.cells[i]? = some x → i < k →
    fillLoop b (.self b.id i) k n = fillLoop b (.ext [x]) k n := by
  intro n
  induction n with
  | zero => intro b k _ _; rfl
  | succ n ih =>
    intro b k hx hk
    obtain ⟨hi, hx'⟩ := List.getElem?_eq_some_iff.1 hx
    have hr : readRange b.cells i 1 = .ret [x] := by
      rw [readRange_val (by omega), List.drop_eq_getElem_cons hi, List.take_succ_cons, List.take_zero, hx']
    have hr1 : readRange [x] 0 1 = .ret [x] := rfl
    simp only [fillLoop]
    rw [memcpyIn_self (xs := [x]) (by omega) hr rfl]
    simp only [memcpyIn, hr1, Out.ret_bind', writeRange]
    split
    · simp only [Out.ret_bind']
      rename_i hle
      refine ih (b := { b with cells := b.cells.take k ++ [x] ++ b.cells.drop (k + [x].length) }) ?_
        (by omega)
      show (b.cells.take k ++ [x] ++ b.cells.drop (k + [x].length))[i]? = some x
      have hlk : (b.cells.take k).length = k := by simp at hle ⊢; omega
      rw [List.append_assoc, List.getElem?_append_left (by omega), List.getElem?_take, if_pos hk, hx]
    · rfl

theorem resize_still {P : Params} {s : VS α} {a : LState α} {b : Block α} {slack : List (Cell α)}
    (R : Rep P s a b slack) {i n : Nat} {x : Cell α} (hx : a.elems[i]? = some x)
    (h : n ≤ a.elems.length ∨ P.allocator = none ∨
      (n ≤ a.cap ∧ (P.thr = 0 ∨ a.cap ≤ n * P.thr)))
    (hn : n * 255 < 18446744073709551616) :
    vecResizeEx s n (.self b.id i) = vecResizeEx s n (.ext [x]) := by
  have hi : i < a.elems.length := (List.getElem?_eq_some_iff.1 hx).1
  have hbx : b.cells[i]? = some x := by rw [R.cells, List.getElem?_append_left hi, hx]
  rw [vecResizeEx_eq, vecResizeEx_eq]
  by_cases h1 : n = s.v.size
  · rw [if_pos h1, if_pos h1]
  rw [if_neg h1, if_neg h1]
  by_cases h2 : n < s.v.size
  · have hs : n < a.elems.length := by rw [← R.size]; exact h2
    rw [if_pos h2]
    obtain ⟨s1, e1, R1⟩ := runDtors_ok R (pre := a.elems.take n) (mid := a.elems.drop n) (post := [])
      (by simp) (lo := n) (hi := s.v.size) (by simp; omega) (by rw [R.size]; simp; omega)
    rw [e1, Out.ret_bind', Out.ret_bind']
    have key : ∀ r, resizeRealloc s1 n = .ret r → ¬ (n > r.2.v.size) := by
      intro r hr
      have hsz : r.2.v.size = s1.v.size := by
        unfold resizeRealloc at hr
        split at hr
        · unfold reallocate at hr
          have ht : ∀ al c, reallocTo s1 al c = .ret r → r.2.v.size = s1.v.size := by
            intro al c hq
            simp only [reallocTo, R1.data, withData] at hq
            split at hq <;> (cases hq; rfl)
          split at hr
          · split at hr <;> (cases hr; rfl)
          · split at hr
            · split at hr
              · exact ht _ _ hr
              · cases hr; rfl
            · exact ht _ _ hr
        · cases hr; rfl
      have : s1.v.size = a.elems.length := R1.size
      omega
    cases hr : resizeRealloc s1 n with
    | ub w => rfl
    | ret r =>
      simp only [Out.ret_bind']
      rw [if_neg (c := (¬ Src.isNull (Src.self b.id i : Src α) = true) ∧ n > r.2.v.size)
          (fun h => key r hr h.2),
        if_neg (c := (¬ Src.isNull (Src.ext [x]) = true) ∧ n > r.2.v.size) (fun h => key r hr h.2)]
  · rw [if_neg h2, Out.ret_bind', Out.ret_bind']
    have hst : ∃ st, resizeRealloc s n = .ret (st, s) := by
      unfold resizeRealloc
      split
      · rename_i hc
        rcases h with h | h | h
        · rw [R.size] at h1 h2; omega
        · rw [reallocate_fixed R h]
          split <;> exact ⟨_, rfl⟩
        · exfalso
          have hm : n * P.thr < 18446744073709551616 :=
            Nat.lt_of_le_of_lt (Nat.mul_le_mul_left _ R.thr255) hn
          rw [R.cap, R.shrink] at hc
          simp only [shouldGrow, shouldShrink, mul64_eq hm, Bool.or_eq_true, Bool.and_eq_true,
            decide_eq_true_eq] at hc
          rcases hc with hc | ⟨hc1, hc2⟩
          · omega
          · rcases h.2 with h3 | h3
            · exact hc1 h3
            · omega
      · exact ⟨_, rfl⟩
    obtain ⟨st, e⟩ := hst
    rw [e, Out.ret_bind', Out.ret_bind']
    have hk : n > s.v.size := by omega
    simp only [Src.isNull, Bool.false_eq_true, not_false_eq_true, true_and, R.data, withData]
    rw [if_pos hk, if_pos hk, fillLoop_self x i _ hbx (by rw [R.size]; exact hi)]

/-- Storage that is given a new size moves, and the loop that copies the initializer reads the old block. -/
theorem resize_moves {P : Params} {s : VS α} {a : LState α} {b : Block α} {slack : List (Cell α)}
    (R : Rep P s a b slack) (hdyn : P.allocator.isSome) {i n : Nat} (hf : Fits P n)
    (hn : a.elems.length < n) (h : a.cap < n ∨ (P.thr ≠ 0 ∧ n * P.thr < a.cap)) :
    vecResizeEx s n (.self b.id i) = .ub .uaf := by
  obtain ⟨al, hal⟩ := Option.isSome_iff_exists.1 hdyn
  have hA := R.alloc
  simp only [AllocOK, hal] at hA
  have hid : ¬ b.id = s.w.nextBlk := by have := hA.2; omega
  have hm := (hf.mul_growth R.growth255 R.esz1).2.1
  have ht := (hf.mul_growth R.thr255 R.esz1).2.1
  have hge := Nat.le_mul_of_pos_right n R.growth1
  have hsz := R.size
  have hcond : (shouldGrow n s.v.cap || shouldShrink n s.v.cap s.v.shrink) = true := by
    simp only [shouldGrow, shouldShrink, R.shrink, R.cap, mul64_eq ht]
    rcases h with h | h
    · simp [h]
    · simp [h.1, h.2]
  obtain ⟨k, hk⟩ : ∃ k, n - s.v.size = k + 1 := ⟨n - s.v.size - 1, by omega⟩
  have hgt : n > s.v.size := by omega
  unfold vecResizeEx
  rw [if_neg (by omega), if_neg (by omega), Out.ret_bind', if_pos hcond, R.growth, mul64_eq hm]
  simp only [reallocate, R.allocator, hal]
  rw [if_neg (by omega)]
  simp only [reallocTo, R.data, withData, reallocBlock, R.reliable_now, World.log,
    Bool.false_eq_true, if_false, Out.ret_bind', failed_success, Src.isNull, not_false_eq_true, true_and,
    hgt, if_true, hk, fillLoop, memcpyIn, hid, Out.ub_bind']

theorem Rep.read {P : Params} {s : VS α} {a : LState α} {b : Block α} {slack : List (Cell α)}
    (R : Rep P s a b slack) {i n : Nat} (h : i + n ≤ a.elems.length) :
    readRange b.cells i n = .ret ((a.elems.drop i).take n) := by
  rw [readRange_val (by rw [R.cells, List.length_append]; omega), R.cells,
    List.drop_append_of_le_length (by omega), List.take_append_of_le_length (by rw [List.length_drop]; omega)]

theorem Rep.small {P : Params} {s : VS α} {a : LState α} {b : Block α} {slack : List (Cell α)}
    (R : Rep P s a b slack) : a.elems.length * 255 < 18446744073709551616 := by
  have hf := R.fits
  unfold Fits at hf
  exact Nat.lt_of_le_of_lt (Nat.le_mul_of_pos_right _ R.esz1) hf

/-- An insertion that does not move the block: after the gap is opened, one `memcpy` into the gap. -/
theorem insert_still {P : Params} {s : VS α} {a : LState α} {b : Block α} {slack : List (Cell α)}
    (R : Rep P s a b slack) {j n : Nat} (hn : 1 ≤ n) (hj : j ≤ a.elems.length)
    (hlt : a.elems.length + n < 18446744073709551616)
    (h : a.elems.length + n ≤ a.cap ∨ P.allocator = none) :
    ∃ st, (failed st = true ↔ ¬ a.elems.length + n ≤ a.cap) ∧ ∀ src : Src α, src.isNull = false →
      vecInsertRange s j src n = if failed st then .ret (st, s) else
        (memcpyIn ⟨b.id, a.elems.take j ++ (a.elems.drop j ++ slack).take n ++
          (a.elems.drop j ++ slack.drop n)⟩ j src n).bind fun b' =>
        .ret (stSuccess, ⟨{ s.v with data := some b', size := add64 s.v.size n }, s.w⟩) := by
  obtain ⟨st, e, hst⟩ := growFor_still R hlt h
  refine ⟨st, hst, fun src hsrc => ?_⟩
  have hadd : add64 s.v.size n = a.elems.length + n := by rw [R.size, add64_eq (by omega)]
  unfold vecInsertRange
  rw [if_neg (by rw [hsrc]; simp; omega), if_neg (by rw [R.size]; omega)]
  simp only [hadd, e, Out.ret_bind']
  by_cases hf : failed st = true
  · rw [if_pos hf, if_pos hf]
  · rw [if_neg hf, if_neg hf]
    have := shift_cells R hj (Decidable.not_not.1 fun hc => hf (hst.2 hc)) hlt
    rw [this]
    simp only [Out.ret_bind', withData, hadd]

theorem insert_moves {P : Params} {s : VS α} {a : LState α} {b : Block α} {slack : List (Cell α)}
    (R : Rep P s a b slack) (hdyn : P.allocator.isSome) {i j n : Nat} (hn : 1 ≤ n)
    (hj : j ≤ a.elems.length) (hf : Fits P (a.elems.length + n)) (hc : a.cap < a.elems.length + n) :
    vecInsertRange s j (.self b.id i) n = .ub .uaf := by
  obtain ⟨s', b', sl', e, hid, R', h1⟩ := growFor_moves R hdyn hf (by omega) hc
  have hm := (hf.mul_growth R.growth255 R.esz1).2.1
  have hadd : add64 s.v.size n = a.elems.length + n := by rw [R.size, add64_eq (by omega)]
  unfold vecInsertRange
  rw [if_neg (by simp [Src.isNull]; omega), if_neg (by rw [R.size]; omega), hadd, e]
  simp only [Out.ret_bind', failed_success, Bool.false_eq_true, if_false]
  rw [shift_cells R' hj h1 (by show a.elems.length + n < _; omega)]
  simp only [Out.ret_bind', withData, memcpyIn]
  rw [if_neg (by exact fun h => hid h.symm)]
  rfl

theorem push_moves {P : Params} {s : VS α} {a : LState α} {b : Block α} {slack : List (Cell α)}
    (R : Rep P s a b slack) (hdyn : P.allocator.isSome) {i : Nat}
    (hf : Fits P (a.elems.length + 1)) (hc : a.cap < a.elems.length + 1) :
    vecPushBack s (.self b.id i) = .ub .uaf := by
  obtain ⟨s', b', sl', e, hid, R', h1⟩ := growFor_moves R hdyn hf (by omega) hc
  have hm := (hf.mul_growth R.growth255 R.esz1).2.1
  have hadd : add64 s.v.size 1 = a.elems.length + 1 := by rw [R.size, add64_eq (by omega)]
  unfold vecPushBack
  simp only [Src.isNull, Bool.false_eq_true, if_false, hadd, e, Out.ret_bind', failed_success, R'.data,
    withData, memcpyIn]
  rw [if_neg (by exact fun h => hid h.symm)]
  rfl

end Zy
