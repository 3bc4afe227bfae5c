import Verif.Props.Vector
import Verif.Lemmas.VectorNeg

/-!
# Where the vector violates its properties: every case, not one witness

`C04_negation`, `C07_negation`, `C14_negation` and `C15_negation` in `Props/Vector` show one run on which
the code disagrees with the property. The theorems here describe what the code does on *every* input on
which the positive theorem was not able to say anything.
-/

namespace Zy

open Spec

variable {α : Type}

/-! ## C04 -/

/-- C04 fails for every full vector with an allocator: when the growth needed by a push is refused, the
capacity is no longer the number of slots owned, and the next push (whatever the allocator would answer)
writes outside of the block. -/
theorem C04_negation_all {P : Params} {s : VS α} (h : Reach P s) {al : Nat}
    (hal : P.allocator = some al) (hfull : s.v.size = s.v.cap) (hfit : Fits P (s.v.size + 1))
    {st : Status} (hst : failed st = true) (x y : Cell α) :
    ∃ s', vecPushBack (refuseNext s st) (.ext [x]) = .ret (st, s') ∧
      vecGetCapacity s < vecGetCapacity s' ∧ s'.v.data = s.v.data ∧
      vecPushBack s' (.ext [y]) = .ub .oob := by
  obtain ⟨b, slack, R⟩ := h.rep
  have h63 : s.v.size < 9223372036854775808 := R.size ▸ R.len63
  have hadd : add64 s.v.size 1 = s.v.size + 1 := add64_eq (by omega)
  have hcap := R.cap
  have hsz := R.size
  have hge := Nat.le_mul_of_pos_right (s.v.size + 1) R.growth1
  have hgr := refused_growFor R hst (by simp [hal]) (need := s.v.size + 1) (by omega) hfit
  have hl : b.cells.length = s.v.size := by rw [R.dyn (by simp [hal]), ← hcap, hfull]
  rw [hal] at hgr
  have hgr' : growFor (refuseNext s st) (s.v.size + 1) =
    .ret (st, afterRefusal s st al ((s.v.size + 1) * P.growth)) := hgr
  refine ⟨afterRefusal s st al ((s.v.size + 1) * P.growth), ?_, ?_, rfl, ?_⟩
  · have hs : (refuseNext s st).v.size = s.v.size := rfl
    simp only [vecPushBack, Src.isNull, hs, hadd, hgr']
    simp [hst]
  · show s.v.cap < (s.v.size + 1) * P.growth; omega
  · have hs : (afterRefusal s st al ((s.v.size + 1) * P.growth)).v.size = s.v.size := rfl
    have hc : (afterRefusal s st al ((s.v.size + 1) * P.growth)).v.cap = (s.v.size + 1) * P.growth :=
      rfl
    have hd : (afterRefusal s st al ((s.v.size + 1) * P.growth)).v.data = some b := R.data
    have hno : growFor (afterRefusal s st al ((s.v.size + 1) * P.growth)) (s.v.size + 1) =
        .ret (stSuccess, afterRefusal s st al ((s.v.size + 1) * P.growth)) := by
      simp only [growFor, shouldGrow, hc]
      rw [if_neg (by simp; omega)]
    simp only [vecPushBack, Src.isNull, hs, hadd, hno]
    have hoob : ¬ s.v.size + 1 ≤ s.v.size := by omega
    simp [hs, hd, withData, memcpyIn, readRange, writeRange, hl, hoob]

example : ∃ s s', vecPushBack exS0 (.ext [some 10]) = .ret (stSuccess, s) ∧
    vecPushBack (refuseNext s stNoMemory) (.ext [some 1]) = .ret (stNoMemory, s') ∧
    vecPushBack s' (.ext [some 2]) = .ub .oob := by
  have h1 := Reach.step (op := .push (some 10)) exS0_reach (by show _ < _; decide) rfl
  obtain ⟨s', e1, _, _, e2⟩ := C04_negation_all h1 (al := 0) rfl (by decide) (by show _ < _; decide)
    (st := stNoMemory) rfl (some 1) (some 2)
  exact ⟨_, s', rfl, e1, e2⟩

/-! ## C07 -/

/-- C07 fails for every deletion whose `index + count` wraps to a value inside of the vector: although the
range does not lie inside of the vector, the request is not rejected. Either the call accesses memory
outside of the block, or it returns and has changed the size. -/
theorem C07_negation_all {P : Params} {s : VS α} (h : Reach P s) (i n : Nat)
    (hi : i < 18446744073709551616) (hn : n < 18446744073709551616) (hn0 : n ≠ 0)
    (hwrap : 18446744073709551616 ≤ i + n) (hin : i + n - 18446744073709551616 ≤ s.v.size) :
    vecDeleteRange s i n = .ub .oob ∨
    ∃ st s', vecDeleteRange s i n = .ret (st, s') ∧
      vecGetSize s' = (s.v.size + 18446744073709551616 - n) % 18446744073709551616 ∧
      vecGetSize s' ≠ vecGetSize s := by
  obtain ⟨b, slack, R⟩ := h.rep
  have h63 : s.v.size < 9223372036854775808 := R.size ▸ R.len63
  rcases deleteRange_wrapped R i n hi hn hn0 hwrap hin with h | ⟨st, s', e, hsz, _⟩
  · exact Or.inl h
  · refine Or.inr ⟨st, s', e, hsz, ?_⟩
    unfold vecGetSize
    rw [hsz]; omega

/-- C07, the rest of the wrapping deletions: they are rejected and change nothing. -/
theorem C07_delete_wrapped_rejected (s : VS α) (i n : Nat)
    (hi : i < 18446744073709551616) (hn : n < 18446744073709551616) (hn0 : n ≠ 0)
    (hwrap : 18446744073709551616 ≤ i + n) (hout : s.v.size < i + n - 18446744073709551616) :
    vecDeleteRange s i n = .ret (stOutOfRange, s) := by
  have hadd : add64 i n = i + n - 18446744073709551616 := by
    unfold add64; omega
  unfold vecDeleteRange
  rw [if_neg hn0, if_pos (by omega)]

example : vecDeleteRange exS 18446744073709551615 1 = .ub .oob ∨
    ∃ st s', vecDeleteRange exS 18446744073709551615 1 = .ret (st, s') ∧
      vecGetSize s' = 2 ∧ vecGetSize s' ≠ vecGetSize exS :=
  C07_negation_all exS_reach 18446744073709551615 1 (by omega) (by omega) (by omega) (by omega)
    (by decide)
example : vecDeleteRange exS 18446744073709551615 1 = .ub .oob := rfl
example : ∃ s', vecDelete exS0 18446744073709551615 = .ret (stSuccess, s') ∧
    vecGetSize s' = 18446744073709551615 := ⟨_, rfl, rfl⟩
/-- A "deletion" starting inside of the vector that makes it one element longer. -/
example : ∃ s', vecDeleteRange exS 3 18446744073709551615 = .ret (stSuccess, s') ∧ exS.v.size = 3 ∧
    contents s' = .ret [some 10, some 20, some 30, some 30] := ⟨_, rfl, rfl, rfl⟩
example : vecDeleteRange exS 18446744073709551615 6 = .ret (stOutOfRange, exS) :=
  C07_delete_wrapped_rejected exS _ _ (by omega) (by omega) (by omega) (by omega) (by decide)

/-! ## C14 -/

/-- C14 fails for every growing resize for which the byte size computed with wrapping arithmetic is less
than what `n` elements need: without initializer the call reports success and size `n`, but not all the
elements exist; with an initializer it writes outside of the block. -/
theorem C14_negation_all {P : Params} {s : VS α} (h : Reach P s) (hdyn : P.allocator.isSome) (n : Nat)
    (hgrow : s.v.cap < n)
    (hshort : P.esz * (n * P.growth % 18446744073709551616) % 18446744073709551616 < n * P.esz) :
    (∃ s', vecResize s n = .ret (stSuccess, s') ∧ vecGetSize s' = n ∧ contents s' = .ub .oob) ∧
    ∀ x, vecResizeEx s n (.ext [x]) = .ub .oob := by
  obtain ⟨b, slack, R⟩ := h.rep
  obtain ⟨s1, b1, e, hsz, hd, hl⟩ := reallocate_short R hdyn hgrow hshort
  have hle : s.v.size ≤ s.v.cap := by rw [R.size, R.cap]; exact R.len
  have hif : (shouldGrow n s.v.cap || shouldShrink n s.v.cap s.v.shrink) = true := by
    simp [shouldGrow, hgrow]
  have hne : n ≠ s.v.size := by omega
  have hnl : ¬ n < s.v.size := by omega
  refine ⟨⟨⟨{ s1.v with size := n }, s1.w⟩, ?_, rfl, ?_⟩, ?_⟩
  · simp only [vecResize, vecResizeEx, hne, hnl, if_false, Out.ret_bind', hif, if_true, e, Src.isNull,
      failed_success]
    rfl
  · simp only [contents, hd, withData, readRange]
    rw [if_neg (by omega)]
  · intro x
    simp only [vecResizeEx, hne, hnl, if_false, Out.ret_bind', hif, if_true, e, Src.isNull,
      failed_success, hd, withData]
    have hsz' : n > s1.v.size := by omega
    have ho := fillLoop_oob x (k := n - s1.v.size) (i := s1.v.size) (b := b1) (by omega) (by omega)
      (by omega)
    simp [hsz', ho]

example : (∃ s', vecResize exS0 9223372036854775808 = .ret (stSuccess, s') ∧
      vecGetSize s' = 9223372036854775808 ∧ contents s' = .ub .oob) ∧
    ∀ x, vecResizeEx exS0 9223372036854775808 (.ext [x]) = .ub .oob :=
  C14_negation_all exS0_reach rfl _ (by decide) (by decide)

/-! ## C15 -/

/-- C15 fails for every constructor that fails at an index inside of the vector: the call returns the
constructor's status and the same size, what the constructor left in the slot has become an element, and
the last element is gone, without the destructor having been called for it. -/
theorem C15_negation_all {P : Params} {s : VS α} (h : Reach P s) {es : List (Cell α)}
    (he : contents s = .ret es) (i : Nat) (f : Cell α → Status × Cell α) (hi : i < es.length)
    (hfit : Fits P (es.length + 1)) (hroom : P.allocator.isSome ∨ es.length + 1 ≤ s.v.cap)
    (hbad : ∀ x, failed (f x).1 = true) :
    ∃ s' x, vecEmplaceEx s i (some f) = .ret ((f x).1, s') ∧
      contents s' = .ret (es.take i ++ [(f x).2] ++ (es.drop i).dropLast) ∧
      destroyedOf s'.w.trace = destroyedOf s.w.trace := by
  obtain ⟨b, slack, R⟩ := h.rep
  rw [R.contents] at he
  injection he with he
  subst he
  have hlt := (hfit.mul_growth R.growth255 R.esz1).2.2
  have hadd : add64 (absOf s).elems.length 1 = (absOf s).elems.length + 1 := add64_eq hlt
  have hr : ∃ c, Spec.room P (absOf s).cap ((absOf s).elems.length + 1) = some c := by
    unfold Spec.room
    split
    · exact ⟨_, rfl⟩
    · rcases hroom with hh | hh
      · rw [if_pos hh]; exact ⟨_, rfl⟩
      · rw [R.cap] at hh; omega
  obtain ⟨c, hr⟩ := hr
  obtain ⟨hc, s', b', sl, e, R'⟩ := growFor_some R hfit (by omega) hr
  obtain ⟨junk, hj, hsh⟩ := shift_ok R' (i := i) (n := 1) (by simp; omega) hc hlt
  obtain ⟨x, rfl⟩ : ∃ x, junk = [x] := List.length_eq_one_iff.1 hj
  have hsz : s'.v.size = (absOf s).elems.length := R'.size
  have hdead := R'.dead
  have hdead0 := R.dead
  generalize hes : (absOf s).elems = es at *
  have hpre : (es.take i).length = i := by simp; omega
  have hget : (es.take i ++ [x] ++ es.drop i ++ sl.drop 1)[i]? = some x := by
    rw [List.append_assoc, List.append_assoc, List.getElem?_append_right (by omega), hpre]
    simp
  have hset : ∀ y, (es.take i ++ [x] ++ es.drop i ++ sl.drop 1).set i y =
      es.take i ++ [y] ++ es.drop i ++ sl.drop 1 := by
    intro y
    rw [List.append_assoc, List.append_assoc, List.set_append_right _ _ (by omega), hpre]
    simp
  have hni : ¬ i > es.length := by omega
  refine ⟨⟨{ s'.v with data := some ⟨b'.id, es.take i ++ [(f x).2] ++ es.drop i ++ sl.drop 1⟩ }, s'.w⟩,
    x, ?_, ?_, ?_⟩
  · simp only [vecEmplaceEx, hadd, R.size, hes, e, hni, if_false, Out.ret_bind', failed_success, hsh,
      withData, hget, hset, hbad, if_true]
    rfl
  · simp only [contents, withData, readRange, hsz]
    rw [if_pos (by simp; omega)]
    congr 1
    have hdl : es.drop i = (es.drop i).dropLast ++ [(es.drop i).getLast (by simp; omega)] :=
      (List.dropLast_concat_getLast _).symm
    rw [List.drop_zero]
    conv => lhs; rw [hdl]
    rw [← List.append_assoc, List.append_assoc]
    rw [List.take_append_of_le_length (by simp; omega), List.take_of_length_le (by simp; omega)]
  · rw [hdead0]; exact hdead

example : ∃ s' x, vecEmplaceEx exS 1 (some fun _ => (stFailed, some 0)) = .ret (stFailed, s') ∧
    contents s' = .ret ([some 10] ++ [x] ++ [some 20]) := by
  obtain ⟨s', x, e, h, _⟩ := C15_negation_all exS_reach (es := [some 10, some 20, some 30]) rfl 1
    (fun _ => (stFailed, some 0)) (by decide) (by show _ < _; decide) (Or.inl rfl)
    (fun _ => failed_failed)
  exact ⟨s', some 0, e, h⟩

end Zy
