import Verif.Lemmas.VectorAlias
import Verif.Props.Vector

/-!
# C118: elements that lie in the vector itself

`ZyanVectorPushBack`, `ZyanVectorInsertRange`, `ZyanVectorSet` and `ZyanVectorResizeEx` take a pointer to
the new elements. Nothing forbids a pointer into the vector, for example the one returned by
`ZyanVectorGet`. Below `.self b.id i` is the address of slot `i` of the vector's memory block `b`, and
`.ext xs` is the address of a separate copy of the elements `xs`. A pointer into the vector is safe if the
call does the same for both.

`memcpy` from a slot to the very same slot is taken as harmless.
-/

namespace Zy

open Spec

variable {α : Type}

/-- The block and the contents of a reachable vector. -/
private theorem alias_rep {P : Params} {s : VS α} {b : Block α} {es : List (Cell α)} (h : Reach P s)
    (he : contents s = .ret es) (hb : s.v.data = some b) :
    ∃ a sl, Rep P s a b sl ∧ a.elems = es ∧ a.cap = s.v.cap := by
  obtain ⟨b', sl, R⟩ := h.rep
  have hbb : b' = b := Option.some.inj (R.data.symm.trans hb)
  subst hbb
  exact ⟨_, sl, R, Out.ret.inj (R.contents.symm.trans he), R.cap.symm⟩

private theorem one_elem {l : List (Cell α)} {i : Nat} {x : Cell α} (h : l[i]? = some x) :
    i + 1 ≤ l.length ∧ (l.drop i).take 1 = [x] := by
  obtain ⟨hi, hx⟩ := List.getElem?_eq_some_iff.1 h
  exact ⟨hi, by rw [List.drop_eq_getElem_cons hi, List.take_succ_cons, List.take_zero, hx]⟩

/-! ## Setting an element -/

/-- C118: an element may be overwritten with any element of the vector. -/
theorem C118_set {P : Params} {s : VS α} (h : Reach P s) {es : List (Cell α)} {b : Block α} {i : Nat}
    {x : Cell α} (he : contents s = .ret es) (hb : s.v.data = some b) (hx : es[i]? = some x) (j : Nat) :
    vecSet s j (.self b.id i) = vecSet s j (.ext [x]) := by
  obtain ⟨a, sl, R, rfl, hc⟩ := alias_rep h he hb
  obtain ⟨hi, ht⟩ := one_elem hx
  have hr : readRange b.cells i 1 = .ret [x] := by rw [R.read hi, ht]
  unfold vecSet
  simp only [Src.isNull, Bool.false_eq_true, if_false]
  by_cases hj : j ≥ s.v.size
  · rw [if_pos hj, if_pos hj]
  rw [if_neg hj, if_neg hj]
  have hj' : j < a.elems.length := by rw [← R.size]; omega
  obtain ⟨s1, e1, R1⟩ := runDtors_ok R (pre := a.elems.take j) (mid := (a.elems.drop j).take 1)
    (post := a.elems.drop (j + 1)) (by
      rw [← List.drop_drop, List.append_assoc, List.take_append_drop, List.take_append_drop])
    (lo := j) (hi := j + 1) (by simp; omega) (by simp; omega)
  rw [e1, Out.ret_bind', Out.ret_bind']
  simp only [R1.data, withData]
  rw [memcpyIn_self (xs := [x]) (by omega) hr rfl]

/-! ## Appending an element -/

/-- C118: an element of the vector can be appended if there is room for it, or if the vector lies in a
buffer of the caller. Missing: a full vector with an allocator (next theorem). -/
theorem C118_push_partial {P : Params} {s : VS α} (h : Reach P s) {es : List (Cell α)} {b : Block α}
    {i : Nat} {x : Cell α} (he : contents s = .ret es) (hb : s.v.data = some b) (hx : es[i]? = some x)
    (hroom : es.length < s.v.cap ∨ P.allocator = none) :
    vecPushBack s (.self b.id i) = vecPushBack s (.ext [x]) := by
  obtain ⟨a, sl, R, rfl, hc⟩ := alias_rep h he hb
  obtain ⟨hi, ht⟩ := one_elem hx
  have hr : readRange b.cells i 1 = .ret [x] := by rw [R.read hi, ht]
  have hl := R.small
  have hadd : add64 s.v.size 1 = a.elems.length + 1 := by rw [R.size, add64_eq (by omega)]
  obtain ⟨st, e, _⟩ := growFor_still R (need := a.elems.length + 1) (by omega)
    (hroom.imp_left (by omega))
  unfold vecPushBack
  simp only [Src.isNull, Bool.false_eq_true, if_false, hadd, e, Out.ret_bind', R.data, withData]
  rw [memcpyIn_self (xs := [x]) (by rw [R.size]; omega) hr rfl]

/-- The values a vector of three elements, one of them appended again, has. -/
example : ∃ s', vecPushBack exS (.self 1 0) = .ret (stSuccess, s') ∧
    contents s' = .ret [some 10, some 20, some 30, some 10] := ⟨_, rfl, rfl⟩

/-- C118: appending an element of a full vector that has an allocator reads the memory that the growth has
just released. -/
theorem C118_push_negation {P : Params} {s : VS α} (h : Reach P s) {es : List (Cell α)} {b : Block α}
    {i : Nat} (he : contents s = .ret es) (hb : s.v.data = some b) (hdyn : P.allocator.isSome)
    (hfull : es.length = s.v.cap) (hf : Fits P (es.length + 1)) :
    vecPushBack s (.self b.id i) = .ub .uaf := by
  obtain ⟨a, sl, R, rfl, hc⟩ := alias_rep h he hb
  exact push_moves R hdyn hf (by omega)

/-! ## Inserting elements -/

/-- C118: a range of the vector can be inserted into it if there is room (or if the vector lies in a
buffer of the caller) and the range ends before the place of insertion, or starts exactly there. Missing:
all other positions, and vectors that must grow (next three theorems). -/
theorem C118_insert_partial {P : Params} {s : VS α} (h : Reach P s) {es : List (Cell α)} {b : Block α}
    {i j n : Nat} (he : contents s = .ret es) (hb : s.v.data = some b) (hn : 1 ≤ n)
    (hi : i + n ≤ es.length) (hroom : es.length + n ≤ s.v.cap ∨ P.allocator = none)
    (hpos : i + n ≤ j ∨ i = j) :
    vecInsertRange s j (.self b.id i) n = vecInsertRange s j (.ext ((es.drop i).take n)) n := by
  obtain ⟨a, sl, R, rfl, hc⟩ := alias_rep h he hb
  have hl := R.small
  by_cases hj : j ≤ a.elems.length
  · rw [← hc] at hroom
    obtain ⟨st, hst, e⟩ := insert_still R hn hj (by omega) hroom
    rw [e _ rfl, e _ rfl]
    by_cases hf : failed st = true
    · rw [if_pos hf, if_pos hf]
    · have hcap : a.elems.length + n ≤ a.cap := Decidable.not_not.1 fun hc => hf (hst.2 hc)
      have hrm := R.room
      rw [R.cells, List.length_append] at hrm
      rw [if_neg hf, if_neg hf,
        memcpyIn_self (b := ⟨b.id, _⟩) (by omega) ((gap_read hj hi (by omega)).1 hpos)
          (by rw [List.length_take, List.length_drop]; omega)]
  · unfold vecInsertRange
    have hgt : j > s.v.size := by rw [R.size]; omega
    have hz : ¬ n = 0 := by omega
    simp only [Src.isNull, Bool.false_eq_true, hz, or_self, if_false, hgt, if_true]

/-- C118: a range that starts at least `n` slots behind the place of insertion is not what is inserted: the
elements have moved by then, and the `n` elements before the range are inserted in its place. -/
theorem C118_insert_shifted_negation {P : Params} {s : VS α} (h : Reach P s) {es : List (Cell α)}
    {b : Block α} {i j n : Nat} (he : contents s = .ret es) (hb : s.v.data = some b) (hn : 1 ≤ n)
    (hi : i + n ≤ es.length) (hroom : es.length + n ≤ s.v.cap) (hpos : j + n ≤ i) :
    vecInsertRange s j (.self b.id i) n = vecInsertRange s j (.ext ((es.drop (i - n)).take n)) n := by
  obtain ⟨a, sl, R, rfl, hc⟩ := alias_rep h he hb
  have hl := R.small
  have hj : j ≤ a.elems.length := by omega
  obtain ⟨st, hst, e⟩ := insert_still R hn hj (by omega) (Or.inl (by omega))
  have hrm := R.room
  rw [R.cells, List.length_append] at hrm
  rw [e _ rfl, e _ rfl, memcpyIn_self (b := ⟨b.id, _⟩) (by omega) ((gap_read hj hi (by omega)).2 hpos)
    (by rw [List.length_take, List.length_drop]; omega)]

/-- C118: a range that overlaps the gap without being the gap is copied with `memcpy` onto a part of
itself, which is undefined. -/
theorem C118_insert_overlap_negation {P : Params} {s : VS α} (h : Reach P s) {es : List (Cell α)}
    {b : Block α} {i j n : Nat} (he : contents s = .ret es) (hb : s.v.data = some b) (hn : 1 ≤ n)
    (hi : i + n ≤ es.length) (hj : j ≤ es.length) (hroom : es.length + n ≤ s.v.cap)
    (hpos : i ≠ j ∧ i < j + n ∧ j < i + n) :
    vecInsertRange s j (.self b.id i) n = .ub .overlap := by
  obtain ⟨a, sl, R, rfl, hc⟩ := alias_rep h he hb
  have hl := R.small
  obtain ⟨st, hst, e⟩ := insert_still R hn hj (by omega) (Or.inl (by omega))
  rw [e _ rfl, if_neg (fun hf => hst.1 hf (by omega))]
  simp only [memcpyIn, if_true]
  rw [if_pos ⟨hpos.2.1, hpos.2.2, hpos.1⟩]
  rfl

/-- C118: inserting a range of the vector into a vector that must grow reads the memory that the growth has
just released. -/
theorem C118_insert_grow_negation {P : Params} {s : VS α} (h : Reach P s) {es : List (Cell α)}
    {b : Block α} {i j n : Nat} (he : contents s = .ret es) (hb : s.v.data = some b)
    (hdyn : P.allocator.isSome) (hn : 1 ≤ n) (hj : j ≤ es.length) (hfull : s.v.cap < es.length + n)
    (hf : Fits P (es.length + n)) :
    vecInsertRange s j (.self b.id i) n = .ub .uaf := by
  obtain ⟨a, sl, R, rfl, hc⟩ := alias_rep h he hb
  exact insert_moves R hdyn hn hj hf (by omega)

/-- The three elements of the example vector, with room for one more: its element 0 inserted at 2, its
element 2 inserted at 0 (element 1 arrives instead), and too many elements. -/
example : (vecInsertRange exS 2 (.self 1 0) 1).bind (fun r => contents r.2) =
    .ret [some 10, some 20, some 10, some 30] := by decide +kernel
example : (vecInsertRange exS 0 (.self 1 2) 1).bind (fun r => contents r.2) =
    .ret [some 20, some 10, some 20, some 30] := by decide +kernel
example : vecInsertRange exS 0 (.self 1 0) 2 = .ub .uaf := rfl

/-! ## Resizing -/

/-- C118: the new elements of a resized vector can be copies of an element of the vector, unless the
vector has an allocator and the call changes its capacity. Missing: those calls (next theorem). -/
theorem C118_resize_partial {P : Params} {s : VS α} (h : Reach P s) {es : List (Cell α)} {b : Block α}
    {i n : Nat} {x : Cell α} (he : contents s = .ret es) (hb : s.v.data = some b) (hx : es[i]? = some x)
    (hn : n * 255 < 2 ^ 64)
    (hkeep : n ≤ es.length ∨ P.allocator = none ∨
      (n ≤ s.v.cap ∧ (P.thr = 0 ∨ s.v.cap ≤ n * P.thr))) :
    vecResizeEx s n (.self b.id i) = vecResizeEx s n (.ext [x]) := by
  obtain ⟨a, sl, R, rfl, hc⟩ := alias_rep h he hb
  rw [← hc] at hkeep
  exact resize_still R hx hkeep hn

/-- C118: a resize that makes a vector with an allocator longer and changes its capacity reads the memory
it has just released. -/
theorem C118_resize_negation {P : Params} {s : VS α} (h : Reach P s) {es : List (Cell α)} {b : Block α}
    {i n : Nat} (he : contents s = .ret es) (hb : s.v.data = some b) (hdyn : P.allocator.isSome)
    (hn : es.length < n) (hf : Fits P n)
    (hmove : s.v.cap < n ∨ (P.thr ≠ 0 ∧ n * P.thr < s.v.cap)) :
    vecResizeEx s n (.self b.id i) = .ub .uaf := by
  obtain ⟨a, sl, R, rfl, hc⟩ := alias_rep h he hb
  rw [← hc] at hmove
  exact resize_moves R hdyn hf hn hmove

/-- Four elements fit the example vector, five do not. -/
example : ∃ s', vecResizeEx exS 4 (.self 1 2) = .ret (stSuccess, s') ∧
    contents s' = .ret [some 10, some 20, some 30, some 30] := ⟨_, rfl, rfl⟩
example : vecResizeEx exS 5 (.self 1 2) = .ub .uaf := rfl

/-- The hypotheses of the theorems above hold for the example vectors. -/
example : Reach exP exS ∧ contents exS = .ret [some 10, some 20, some 30] ∧
    exS.v.data.map Block.id = some 1 ∧ exS.v.cap = 4 ∧ exP.allocator.isSome :=
  ⟨exS_reach, rfl, rfl, rfl, rfl⟩

end Zy
