import Verif.Model.StringAlias
import Verif.Lemmas.VectorAlias
import Verif.Lemmas.StringReach

/-!
# Lemmas about text that lies in the string itself
-/

namespace Zy

open Spec

variable {P : Params} {t : Str} {a : SState} {b : Block Byte} {sl : List (Cell Byte)}

theorem strInsertSrc_ext (t : Str) (j : Nat) (v : View) : strInsertSrc t j (.ext v.mem) v.size = strInsert t j v := rfl

theorem strInsertExSrc_ext (t : Str) (j : Nat) (v : View) (k m : Nat) :
    strInsertExSrc t j (.ext v.mem) v.size k m = strInsertEx t j v k m := rfl

/-- A resize that keeps the block. -/
theorem resize_keeps {α : Type} {P : Params} {s : VS α} {a : LState α} {b : Block α} {slack : List (Cell α)}
    (R : Rep P s a b slack) {need : Nat} (hge : a.elems.length ≤ need) (hf : Fits P need)
    (h : need = a.elems.length ∨ P.allocator = none ∨ (need ≤ a.cap ∧ (P.thr = 0 ∨ a.cap ≤ need * P.thr))) :
    ∃ st, vecResize s need = .ret (st, if failed st then s else { s with v := { s.v with size := need } }) := by
  have hmt := (hf.mul_growth R.thr255 R.esz1).2.1
  have hmg := (hf.mul_growth R.growth255 R.esz1).2.1
  unfold vecResize vecResizeEx
  rw [R.size]
  by_cases h0 : need = a.elems.length
  · refine ⟨stSuccess, ?_⟩
    rw [if_pos h0, failed_success, if_neg (by simp)]
    have hs : s.v.size = need := by rw [R.size, h0]
    rw [← hs]
  rw [if_neg h0, if_neg (by omega), Out.ret_bind']
  have hz : ¬ (¬ Src.isNull (.null : Src α) ∧ need > s.v.size) := by simp [Src.isNull]
  by_cases hc : (shouldGrow need s.v.cap || shouldShrink need s.v.cap s.v.shrink) = true
  · have hal : P.allocator = none := by
      rcases h with h | h | ⟨h1, h2⟩
      · exact absurd h h0
      · exact h
      · exfalso
        simp only [shouldGrow, shouldShrink, R.cap, R.shrink, mul64_eq hmt] at hc
        rcases h2 with h2 | h2
        · simp [h2] at hc; omega
        · simp at hc; omega
    rw [if_pos hc]
    simp only [reallocate, R.allocator, hal]
    by_cases hcap : s.v.cap < mul64 need s.v.growth
    · rw [if_pos hcap, Out.ret_bind']
      exact ⟨stInsufficient, by simp [show failed stInsufficient = true from rfl]⟩
    · rw [if_neg hcap, Out.ret_bind']
      exact ⟨stSuccess, by simp [failed_success, Src.isNull, R.allocator, hal]⟩
  · rw [if_neg hc, Out.ret_bind']
    exact ⟨stSuccess, by simp [failed_success, Src.isNull]⟩

/-- The copy at the end of both append functions. -/
theorem append_self {i n : Nat} (R : SRep P t a b sl) (hi : i + n ≤ a.text.length) (hf : SFits (a.text.length + n + 1))
    (h : n = 0 ∨ P.allocator = none ∨
      (a.text.length + n + 1 ≤ a.bytes ∧ (P.thr = 0 ∨ a.bytes ≤ (a.text.length + n + 1) * P.thr))) :
    ∃ st s', vecResize t.s (a.text.length + n + 1) = .ret (st, s') ∧ (failed st = false →
      vecMemcpy s'.v a.text.length (.self b.id i) n = vecMemcpy s'.v a.text.length (.ext ((a.text.drop i).take n)) n) := by
  have hl : (a.text ++ [some 0#8]).length = a.text.length + 1 := by simp
  obtain ⟨st, e⟩ := resize_keeps R.rep (need := a.text.length + n + 1) (by simp) ((fits_iff R.one _).2 hf)
    (by rcases h with h | h | h
        · exact Or.inl (by simp; omega)
        · exact Or.inr (Or.inl h)
        · exact Or.inr (Or.inr h))
  refine ⟨st, _, e, fun hs => ?_⟩
  rw [if_neg (by simp [hs])]
  unfold vecMemcpy
  simp only [R.rep.data, withData]
  have hr : readRange b.cells i n = .ret ((a.text.drop i).take n) := by
    rw [R.rep.read (by simp only [hl]; omega)]
    simp only
    rw [List.drop_append_of_le_length (by omega), List.take_append_of_le_length (by simp; omega)]
  rw [memcpyIn_self (by omega) hr (by simp; omega)]

theorem append_moves {i n : Nat} (R : SRep P t a b sl) (hdyn : P.allocator.isSome) (hn : 1 ≤ n)
    (hf : SFits (a.text.length + n + 1))
    (h : a.bytes < a.text.length + n + 1 ∨ (P.thr ≠ 0 ∧ (a.text.length + n + 1) * P.thr < a.bytes)) :
    ∃ s', vecResize t.s (a.text.length + n + 1) = .ret (stSuccess, s') ∧
      vecMemcpy s'.v a.text.length (.self b.id i) n = .ub .uaf := by
  obtain ⟨al, hal⟩ := Option.isSome_iff_exists.1 hdyn
  have hF := (fits_iff R.one _).2 hf
  have hmt := (hF.mul_growth R.rep.thr255 R.rep.esz1).2.1
  have hmg := (hF.mul_growth R.rep.growth255 R.rep.esz1).2.1
  have hge := Nat.le_mul_of_pos_right (a.text.length + n + 1) R.rep.growth1
  have hA := R.rep.alloc
  simp only [AllocOK, hal] at hA
  have hid : ¬ b.id = t.s.w.nextBlk := by have := hA.2; omega
  have hcap : t.s.v.cap = a.bytes := R.rep.cap
  have hcond : (shouldGrow (a.text.length + n + 1) t.s.v.cap ||
      shouldShrink (a.text.length + n + 1) t.s.v.cap t.s.v.shrink) = true := by
    simp only [shouldGrow, shouldShrink, R.rep.shrink, mul64_eq hmt, hcap]
    rcases h with h | h
    · simp [h]
    · simp [h.1, h.2]
  simp only [vecResize, vecResizeEx, R.size]
  rw [if_neg (by omega), if_neg (by omega), Out.ret_bind', if_pos hcond, R.rep.growth, mul64_eq hmg]
  simp only [reallocate, R.rep.allocator, hal]
  rw [if_neg (by omega)]
  simp only [reallocTo, R.rep.data, withData, reallocBlock, R.rep.reliable_now, World.log,
    Bool.false_eq_true, if_false, Out.ret_bind', failed_success, Src.isNull, not_true, false_and]
  exact ⟨_, rfl, by simp only [vecMemcpy, withData, memcpyIn, hid, if_false, Out.ub_bind']⟩

/-- What is read from the string after it was resized is its old text. -/
theorem resize_reads {k m : Nat} {r : Status × VS Byte} (R : SRep P t a b sl) (hf : SFits (a.text.length + m + 1))
    (e : vecResize t.s (a.text.length + m + 1) = .ret r) (hs : ¬ failed r.1 = true) (hk : k + m ≤ a.text.length) :
    ∃ b', r.2.v.data = some b' ∧ readRange b'.cells k m = .ret ((a.text.drop k).take m) := by
  have hF := (fits_iff R.one _).2 hf
  have hl : (a.text ++ [some 0#8]).length = a.text.length + 1 := by simp
  have key : ∃ s' b' sl' junk c, r.2 = s' ∧ Rep P s' ⟨a.text ++ [some 0#8] ++ junk, c, []⟩ b' sl' := by
    by_cases hm : m = 0
    · subst hm
      refine ⟨t.s, b, sl, [], a.bytes, ?_, by simpa using R.rep⟩
      simp only [vecResize, vecResizeEx, R.size, Nat.add_zero, if_true, Out.ret.injEq] at e
      rw [← e]
    · cases hroom : Spec.room P a.bytes (a.text.length + m + 1) with
      | none =>
        exfalso
        have h1 := resizeRealloc_none R.rep hF hroom
        unfold vecResize at e
        rw [vecResizeEx_eq, R.size, if_neg (by omega), if_neg (by omega), Out.ret_bind', h1, Out.ret_bind',
          if_pos (show failed stInsufficient = true from rfl), Out.ret.injEq] at e
        rw [← e] at hs
        exact hs (show failed stInsufficient = true from rfl)
      | some c =>
        obtain ⟨junk, s', b', sl', _, h2, h3⟩ := resize_grow R.rep (by simp only [hl]; omega) hF hroom none
        have h4 : vecResize t.s (a.text.length + m + 1) = .ret (stSuccess, s') := h2
        rw [e, Out.ret.injEq] at h4
        exact ⟨s', b', sl', _, _, by rw [h4], h3⟩
  obtain ⟨s', b', sl', junk, c, rfl, R'⟩ := key
  refine ⟨b', R'.data, ?_⟩
  rw [R'.read (by simp; omega)]
  simp only [List.append_assoc]
  rw [List.drop_append_of_le_length (by omega), List.take_append_of_le_length (by simp; omega)]

theorem appendEx_same {k m : Nat} (R : SRep P t a b sl) (hf : SFits (a.text.length + m + 1))
    (hk : k + m < 18446744073709551616) :
    strAppendExSame t k m = strAppendEx t ⟨a.text ++ [some 0#8], a.text.length + 1⟩ k m := by
  have hs := hf
  unfold SFits at hs
  have hsz := R.size
  have hsub : sub64 (a.text.length + 1) 1 = a.text.length := by rw [sub64_eq (by omega) (by omega)]; omega
  have hadd : add64 (a.text.length + 1) m = a.text.length + m + 1 := by rw [add64_eq (by omega)]; omega
  unfold strAppendExSame strAppendEx strAppendExSrc
  simp only [hsz, hadd, hsub, add64_eq hk]
  clear hsub hadd
  rw [if_neg (show ¬ a.text.length + 1 = 0 by omega), if_neg (show ¬ a.text.length + 1 = 0 by omega)]
  by_cases hr : k + m ≥ a.text.length + 1
  · rw [if_pos hr, if_pos hr]
  rw [if_neg hr, if_neg hr]
  cases e : vecResize t.s (a.text.length + m + 1) with
  | ub w => rfl
  | ret r =>
    rw [Out.ret_bind', Out.ret_bind']
    by_cases hfl : failed r.1 = true
    · rw [if_pos hfl, if_pos hfl]
    rw [if_neg hfl, if_neg hfl]
    obtain ⟨b', hd, hrd⟩ := resize_reads R hf e hfl (k := k) (by omega)
    have h1 : vecMemcpy r.2.v a.text.length ((ownData ⟨r.2, t.fixed⟩).offset k) m =
        vecMemcpy r.2.v a.text.length ((Src.ext (a.text ++ [some 0#8])).offset k) m := by
      simp only [ownData, hd, Src.offset, vecMemcpy, withData, Nat.zero_add]
      rw [memcpyIn_self (by omega) hrd (by simp; omega)]
      have h2 : readRange ((a.text.drop k).take m) 0 m =
          readRange ((a.text ++ [some 0#8]).drop k) 0 m := by
        rw [readRange_val (by simp; omega), readRange_val (by simp; omega), List.drop_zero, List.drop_zero,
          List.drop_append_of_le_length (by omega), List.take_append_of_le_length (by simp; omega), List.take_take,
          Nat.min_self]
      simp only [memcpyIn, h2]
    rw [h1]

/-! ## Insertions -/

/-- Inserting a part of the vector, in terms of where it lies. -/
theorem insertRange_self {α : Type} {P : Params} {s : VS α} {a : LState α} {b : Block α} {slack : List (Cell α)}
    (R : Rep P s a b slack) {i j n : Nat} (hn : 1 ≤ n) (hi : i + n ≤ a.elems.length) (hj : j ≤ a.elems.length) :
    ((a.elems.length + n ≤ a.cap ∨ P.allocator = none) → (i + n ≤ j ∨ i = j) →
      vecInsertRange s j (.self b.id i) n = vecInsertRange s j (.ext ((a.elems.drop i).take n)) n) ∧
    (a.elems.length + n ≤ a.cap → j + n ≤ i →
      vecInsertRange s j (.self b.id i) n = vecInsertRange s j (.ext ((a.elems.drop (i - n)).take n)) n) ∧
    (a.elems.length + n ≤ a.cap → i ≠ j → i < j + n → j < i + n →
      vecInsertRange s j (.self b.id i) n = .ub .overlap) := by
  have hl := R.small
  have hrm := R.room
  rw [R.cells, List.length_append] at hrm
  refine ⟨fun hroom hpos => ?_, fun hroom hpos => ?_, fun hroom h1 h2 h3 => ?_⟩
  · obtain ⟨st, hst, e⟩ := insert_still R hn hj (by omega) hroom
    rw [e _ rfl, e _ rfl]
    by_cases hf : failed st = true
    · rw [if_pos hf, if_pos hf]
    · have hcap : a.elems.length + n ≤ a.cap := Decidable.not_not.1 fun hc => hf (hst.2 hc)
      rw [if_neg hf, if_neg hf,
        memcpyIn_self (b := ⟨b.id, _⟩) (by omega) ((gap_read hj hi (by omega)).1 hpos)
          (by rw [List.length_take, List.length_drop]; omega)]
  · obtain ⟨st, hst, e⟩ := insert_still R hn hj (by omega) (Or.inl hroom)
    rw [e _ rfl, e _ rfl, memcpyIn_self (b := ⟨b.id, _⟩) (by omega) ((gap_read hj hi (by omega)).2 hpos)
      (by rw [List.length_take, List.length_drop]; omega)]
  · obtain ⟨st, hst, e⟩ := insert_still R hn hj (by omega) (Or.inl hroom)
    rw [e _ rfl, if_neg (fun hf => hst.1 hf (by omega))]
    simp only [memcpyIn, if_true]
    rw [if_pos ⟨h2, h3, h1⟩]
    rfl

/-- Nothing is inserted: the status only. -/
theorem insertRange_none {α : Type} (s : VS α) (j : Nat) (src : Src α) :
    vecInsertRange s j src 0 = .ret (stInvalidArgument, s) := by
  unfold vecInsertRange
  rw [if_pos (Or.inr rfl)]

/-- What an external source of an insertion contains behind the inserted elements is irrelevant. -/
theorem insertRange_ext {α : Type} (s : VS α) (j n : Nat) {xs ys : List (Cell α)} (hx : n ≤ xs.length)
    (hy : n ≤ ys.length) (h : xs.take n = ys.take n) :
    vecInsertRange s j (.ext xs) n = vecInsertRange s j (.ext ys) n := by
  have : readRange xs 0 n = readRange ys 0 n := by
    rw [readRange_val (by omega), readRange_val (by omega), List.drop_zero, List.drop_zero, h]
  unfold vecInsertRange
  simp only [memcpyIn, this, Src.isNull]
  rfl

/-- `ZyanStringInsert` inside the string. -/
theorem insertSrc_eq (R : SRep P t a b sl) {j n : Nat} (hj : j ≤ a.text.length) (hn : n ≤ a.text.length)
    (src : Src Byte) : strInsertSrc t j src (n + 1) = (vecInsertRange t.s j src n).bind fun r =>
      if failed r.1 then .ret (r.1, { t with s := r.2 }) else .ret (stSuccess, { t with s := r.2 }) := by
  have hsm := R.rep.small
  simp only [List.length_append, List.length_cons, List.length_nil] at hsm
  have hsub : sub64 (n + 1) 1 = n := by rw [sub64_eq (by omega) (by omega)]; omega
  have hsz := R.size
  unfold strInsertSrc
  rw [if_neg (show ¬ n + 1 = 0 by omega), if_neg (show ¬ j = t.s.v.size by omega),
    if_neg (show ¬ j ≥ t.s.v.size by omega), hsub]

/-- `ZyanStringInsertEx` inside the string. -/
theorem insertExSrc_eq (R : SRep P t a b sl) {j n k m : Nat} (hj : j ≤ a.text.length) (hn : n ≤ a.text.length)
    (hk : k + m ≤ n) (src : Src Byte) :
    strInsertExSrc t j src (n + 1) k m = (vecInsertRange t.s j (src.offset k) m).bind fun r =>
      if failed r.1 then .ret (r.1, { t with s := r.2 }) else .ret (stSuccess, { t with s := r.2 }) := by
  have hsm := R.rep.small
  simp only [List.length_append, List.length_cons, List.length_nil] at hsm
  have hsz := R.size
  unfold strInsertExSrc
  rw [if_neg (show ¬ n + 1 = 0 by omega), if_neg (show ¬ j = t.s.v.size by omega),
    if_neg (show ¬ j ≥ t.s.v.size by omega), add64_eq (show k + m < 18446744073709551616 by omega),
    if_neg (show ¬ k + m ≥ n + 1 by omega)]

/-- A part of the text, as a part of the bytes of the string. -/
theorem text_part {a : SState} {i n : Nat} (hi : i + n ≤ a.text.length) :
    ((a.text ++ [some 0#8]).drop i).take n = (a.text.drop i).take n := by
  rw [List.drop_append_of_le_length (by omega), List.take_append_of_le_length (by rw [List.length_drop]; omega)]

/-! ## The string as its own view -/

theorem ownData_eq (R : SRep P t a b sl) : ownData t = .self b.id 0 := by
  unfold ownData
  rw [R.rep.data]

/-- The append of the string itself after the resize: twice the text is copied, from the start to the middle. -/
theorem same_overlap {v : Vec Byte} {b' : Block Byte} {n : Nat} (hd : v.data = some b') (hn : 1 ≤ n) :
    vecMemcpy v n (.self b'.id 0) (n + n) = .ub .overlap := by
  simp only [vecMemcpy, hd, withData, memcpyIn, if_true]
  rw [if_pos ⟨by omega, by omega, by omega⟩]
  rfl

/-- The append of a string to itself, when it is not refused. -/
theorem appendSame_ub (R : SRep P t a b sl) (hf : SFits (a.text.length + a.text.length + 1)) (hn : 1 ≤ a.text.length)
    (h : a.text.length + a.text.length + 1 ≤ a.bytes ∨ P.allocator.isSome) : strAppendSame t = .ub .overlap := by
  have hs := hf
  unfold SFits at hs
  have hsz := R.size
  have hl : (a.text ++ [some 0#8]).length = a.text.length + 1 := by simp
  have hsub : sub64 (a.text.length + 1) 1 = a.text.length := by rw [sub64_eq (by omega) (by omega)]; omega
  have hadd : sub64 (add64 (a.text.length + 1) (a.text.length + 1)) 1 = a.text.length + a.text.length + 1 := by
    rw [add64_eq (by omega), sub64_eq (by omega) (by omega)]; omega
  have hsub2 : sub64 (a.text.length + a.text.length + 1) 1 = a.text.length + a.text.length := by
    rw [sub64_eq (by omega) (by omega)]; omega
  have hroom : ∃ c, Spec.room P a.bytes (a.text.length + a.text.length + 1) = some c := by
    unfold Spec.room
    by_cases h1 : a.text.length + a.text.length + 1 ≤ a.bytes
    · exact ⟨_, if_pos h1⟩
    · exact ⟨_, by rw [if_neg h1, if_pos (h.resolve_left h1)]⟩
  obtain ⟨c, hroom⟩ := hroom
  obtain ⟨junk, s', b', sl', h1, h2, h3⟩ := resize_grow R.rep (by simp only [hl]; omega) ((fits_iff R.one _).2 hf) hroom none
  have h4 : vecResize t.s (a.text.length + a.text.length + 1) = .ret (stSuccess, s') := h2
  have hsz' : s'.v.size = a.text.length + a.text.length + 1 := by
    rw [h3.size]
    simp only [newElems, List.length_append, List.length_cons, List.length_nil] at h1 ⊢
    omega
  unfold strAppendSame
  simp only [hsz, hadd, h4, Out.ret_bind', failed_success, Bool.false_eq_true, if_false, hsub, hsz', hsub2]
  rw [if_neg (show ¬ a.text.length + 1 = 0 by omega)]
  simp only [ownData, h3.data, same_overlap h3.data hn, Out.ub_bind']

/-- The append of a string to itself or of a copy, when it is refused. -/
theorem appendSame_refused (R : SRep P t a b sl) (hf : SFits (a.text.length + a.text.length + 1))
    (hn : 1 ≤ a.text.length) (h : a.bytes < a.text.length + a.text.length + 1) (ha : P.allocator = none) :
    strAppendSame t = .ret (stInsufficient, t) ∧
    ∀ src, strAppendSrc t src (a.text.length + 1) = .ret (stInsufficient, t) := by
  have hs := hf
  unfold SFits at hs
  have hsz := R.size
  have hroom : Spec.room P a.bytes (a.text.length + a.text.length + 1) = none := by
    unfold Spec.room
    rw [if_neg (by omega), if_neg (by simp [ha])]
  have hadd : sub64 (add64 (a.text.length + 1) (a.text.length + 1)) 1 = a.text.length + a.text.length + 1 := by
    rw [add64_eq (by omega), sub64_eq (by omega) (by omega)]; omega
  have h1 := resizeRealloc_none R.rep ((fits_iff R.one _).2 hf) hroom
  have h2 : vecResize t.s (a.text.length + a.text.length + 1) = .ret (stInsufficient, t.s) := by
    clear hadd
    unfold vecResize
    rw [vecResizeEx_eq, hsz, if_neg (by omega), if_neg (by omega), Out.ret_bind', h1, Out.ret_bind',
      if_pos (show failed stInsufficient = true from rfl)]
  constructor
  · unfold strAppendSame
    simp only [hsz, hadd, h2, Out.ret_bind']
    rw [if_neg (show ¬ a.text.length + 1 = 0 by omega), if_pos (show failed stInsufficient = true from rfl)]
  · intro src
    unfold strAppendSrc
    simp only [hsz, hadd, h2, Out.ret_bind']
    rw [if_neg (show ¬ a.text.length + 1 = 0 by omega), if_pos (show failed stInsufficient = true from rfl)]

/-- The append of an empty string to itself. -/
theorem appendSame_empty (R : SRep P t a b sl) (he : a.text = []) :
    strAppendSame t = strAppendSrc t (.self b.id 0) 1 := by
  have hsz : t.s.v.size = 1 := by rw [R.size, he]; rfl
  have hadd : sub64 (add64 1 1) 1 = 1 := by decide
  have h2 : vecResize t.s 1 = .ret (stSuccess, t.s) := by
    unfold vecResize vecResizeEx
    rw [if_pos hsz.symm]
  unfold strAppendSame strAppendSrc
  simp only [hsz, hadd, h2, Out.ret_bind', ownData_eq R]

end Zy
