import Verif.Lemmas.VectorOrder
import Verif.Props.Examples

/-!
# Property theorems: bringing the elements of a vector into another order (C179)

`Reach P s` are the vectors a program can obtain, `contents` is the list of elements (both in
`Verif.Spec.VectorRun`); `exchanges` (in `Verif.Spec.VectorOrder`) exchanges elements of a list.
-/

namespace Zy

open Spec

variable {α : Type}

/-- C179, any exchanges of valid positions on a vector with spare capacity: all succeed, the elements are those that
the exchanges of the list give, so none is lost or doubled; size, capacity and the environment (allocator calls,
destructor calls) stay as they are. Missing: vectors without spare capacity, see `C179_full_negation`. -/
theorem C179_reorder_partial {P : Params} {s : VS α} (h : Reach P s) {es : List (Cell α)} (he : contents s = .ret es)
    (ps : List (Nat × Nat)) (hp : Positions es.length ps) (hsp : vecGetSize s < vecGetCapacity s) :
    ∃ s', swapAll s ps = .ret (stSuccess, s') ∧ contents s' = .ret (exchanges es ps) ∧ (exchanges es ps).Perm es ∧
      vecGetCapacity s' = vecGetCapacity s ∧ s'.w = s.w := by
  obtain ⟨s1, h1, _, h2, _, h3, h4⟩ := swapAll_ok ps h he hp hsp
  exact ⟨s1, h1, h2, exchanges_perm ps es, h3, h4⟩

/-- C179, every order can be produced: for each rearrangement of the elements there are exchanges, fewer than elements,
that lead to it. Missing: vectors without spare capacity, see `C179_full_negation`. -/
theorem C179_every_order_partial {P : Params} {s : VS α} (h : Reach P s) {es : List (Cell α)}
    (he : contents s = .ret es) {ys : List (Cell α)} (hy : es.Perm ys) (hsp : vecGetSize s < vecGetCapacity s) :
    ∃ ps s', ps.length ≤ es.length - 1 ∧ swapAll s ps = .ret (stSuccess, s') ∧ contents s' = .ret ys := by
  obtain ⟨ps, h1, h2, h3⟩ := exchanges_reach ys es [] hy
  simp only [List.nil_append] at h2 h3
  obtain ⟨s1, e1, _, e2, _⟩ := swapAll_ok ps h he h2 hsp
  exact ⟨ps, s1, h1, e1, by rw [e2, h3]⟩

/-- C179, reversing in place. Missing: vectors without spare capacity, see `C179_full_negation`. -/
theorem C179_reverse_partial {P : Params} {s : VS α} (h : Reach P s) {es : List (Cell α)}
    (he : contents s = .ret es) (hsp : vecGetSize s < vecGetCapacity s) :
    ∃ s', reverseInPlace s = .ret (stSuccess, s') ∧ contents s' = .ret es.reverse ∧
      vecGetCapacity s' = vecGetCapacity s ∧ s'.w = s.w := by
  have hz : vecGetSize s = es.length := contents_length h he
  unfold reverseInPlace
  rw [hz]
  obtain ⟨s1, h1, _, h2, _, h3, h4⟩ := swapAll_ok ((List.range (es.length / 2)).map fun i => (i, es.length - 1 - i))
    h he (by
      intro p hp
      obtain ⟨i, hi, rfl⟩ := List.mem_map.1 hp
      rw [List.mem_range] at hi
      simp only
      omega) hsp
  exact ⟨s1, h1, by rw [h2, exchanges_reverse], h3, h4⟩

/-- C179, sorting in place, for every comparison of a total preorder: the result is ascending and has the same
elements; size, capacity and environment stay as they are. Missing: vectors without spare capacity, see
`C179_sort_full`. -/
theorem C179_sort_partial {P : Params} {s : VS α} (h : Reach P s) {es : List (Cell α)} (he : contents s = .ret es)
    {cmp : Cell α → Cell α → Int} (hc : Comparator cmp) (hsp : vecGetSize s < vecGetCapacity s) :
    ∃ s' l, sortInPlace cmp s = .ret (stSuccess, s') ∧ contents s' = .ret l ∧ Ascending cmp l ∧ l.Perm es ∧
      vecGetCapacity s' = vecGetCapacity s ∧ s'.w = s.w := by
  have hz : vecGetSize s = es.length := contents_length h he
  unfold sortInPlace
  rw [hz]
  obtain ⟨s1, l, h1, _, h2, h3, h4, _, h5, h6⟩ := sortLoop_ok hc es.length h (d := []) (r := es) he rfl hsp
    List.Pairwise.nil (by simp)
  exact ⟨s1, l, h1, h2, h3, h4, h5, h6⟩

/-- C179 is false for every vector without spare capacity: the first exchange is refused with
`INSUFFICIENT_BUFFER_SIZE`, even of a dynamic vector whose allocator would grant more memory. Nothing is changed. In
particular no full vector with two or more elements is reversed. -/
theorem C179_full_negation {P : Params} {s : VS α} (h : Reach P s) {es : List (Cell α)} (he : contents s = .ret es)
    (hfull : vecGetSize s = vecGetCapacity s) :
    (∀ ps, ps ≠ [] → Positions es.length ps → swapAll s ps = .ret (stInsufficient, s)) ∧
    (2 ≤ es.length → reverseInPlace s = .ret (stInsufficient, s)) := by
  have hz : s.v.size = es.length := contents_length h he
  have key : ∀ ps, ps ≠ [] → Positions es.length ps → swapAll s ps = .ret (stInsufficient, s) := by
    intro ps hne hp
    cases ps with
    | nil => exact absurd rfl hne
    | cons p ps =>
      have h1 := hp p (by simp)
      unfold swapAll
      rw [C12_swap_full p.1 p.2 (by omega) (by omega) hfull]
      simp only [Out.ret_bind']
      exact if_pos (by decide)
  refine ⟨key, fun h2 => ?_⟩
  unfold reverseInPlace
  apply key
  · intro h0
    have := congrArg List.length h0
    simp [vecGetSize, hz] at this
    omega
  · intro p hp
    obtain ⟨i, hi, rfl⟩ := List.mem_map.1 hp
    rw [List.mem_range] at hi
    simp only [vecGetSize, hz] at hi ⊢
    omega

/-- C179, sorting a vector without spare capacity: it fails and changes nothing if the vector is not sorted, and
succeeds if there is nothing to do. -/
theorem C179_sort_full {P : Params} {s : VS α} (h : Reach P s) {es : List (Cell α)} (he : contents s = .ret es)
    {cmp : Cell α → Cell α → Int} (hc : Comparator cmp) (hfull : vecGetSize s = vecGetCapacity s)
    (hns : ¬ Ascending cmp es) : sortInPlace cmp s = .ret (stInsufficient, s) := by
  have hz : vecGetSize s = es.length := contents_length h he
  unfold sortInPlace
  rw [hz]
  rcases sortLoop_full hc h he hfull es.length 0 (by omega) with h1 | ⟨_, h2⟩
  · exact h1
  · refine absurd ?_ hns
    unfold Ascending
    rw [List.pairwise_iff_getElem]
    intro i j hi hj hij
    exact h2 i j hi hj (by omega) hij

/-! ## Examples -/

example : ∃ s', swapAll exS [(0, 2), (1, 0)] = .ret (stSuccess, s') ∧
    contents s' = .ret [some 20, some 30, some 10] := ⟨_, rfl, rfl⟩

example : ∃ s', reverseInPlace exS = .ret (stSuccess, s') ∧ contents s' = .ret [some 30, some 20, some 10] := by
  obtain ⟨s', h1, h2, _⟩ := C179_reverse_partial exS_reach (es := [some 10, some 20, some 30]) rfl (by decide)
  exact ⟨s', h1, h2⟩

/-- The vector of the examples, reversed and sorted again. -/
example : ((reverseInPlace exS).bind fun r => sortInPlace exNumCmp r.2).bind (fun r => contents r.2) =
    .ret [some 10, some 20, some 30] := by decide

example : ∃ s' l, sortInPlace exNumCmp exS = .ret (stSuccess, s') ∧ contents s' = .ret l ∧ Ascending exNumCmp l ∧
    l.Perm [some 10, some 20, some 30] := by
  obtain ⟨s', l, h1, h2, h3, h4, _⟩ := C179_sort_partial exS_reach (es := [some 10, some 20, some 30]) rfl exNumCmp_ok
    (by decide)
  exact ⟨s', l, h1, h2, h3, h4⟩

example : ∃ ps s', ps.length ≤ 2 ∧ swapAll exS ps = .ret (stSuccess, s') ∧
    contents s' = .ret [some 30, some 10, some 20] :=
  C179_every_order_partial exS_reach (es := [some 10, some 20, some 30]) rfl (by decide) (by decide)

/-- The vector of the examples with a fourth element: it is full, and not sorted. -/
def exFullV : VS Nat :=
  ⟨{ allocator := some 0, growth := 2, shrink := 4, size := 4, cap := 4, esz := 8, hasDtor := true,
     data := some ⟨1, [some 10, some 20, some 30, some 5]⟩ },
   ⟨fun _ => stSuccess, 2, 2, [.alloc 0 0 8 1, .realloc 0 0 1 8 4]⟩⟩

theorem exFullV_reach : Reach exP exFullV :=
  Reach.step (op := .push (some 5)) exS_reach (by show _ < _; decide) rfl

example : sortInPlace exNumCmp exFullV = .ret (stInsufficient, exFullV) :=
  C179_sort_full exFullV_reach (es := [some 10, some 20, some 30, some 5]) rfl exNumCmp_ok rfl
    (by unfold Ascending; decide)

example : reverseInPlace exFullV = .ret (stInsufficient, exFullV) :=
  (C179_full_negation exFullV_reach (es := [some 10, some 20, some 30, some 5]) rfl rfl).2 (by decide)

end Zy
