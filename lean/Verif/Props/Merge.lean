import Verif.Lemmas.Merge
import Verif.Props.Examples

/-!
# Property theorems: merging sorted vectors (C199)
-/

namespace Zy

open Spec

variable {α : Type}

/-- **C199**: merging two sorted vectors into a third one appends all their elements in ascending order, equal ones of the
first vector before those of the second one and otherwise in their order. There must be room for them. No element is
destroyed. -/
theorem C199_merge {P Pa Pb : Params} {s a b : VS α} (h : Reach P s) (ha : Reach Pa a) (hb : Reach Pb b)
    {pre xs ys : List (Cell α)} (hs : contents s = .ret pre) (hx : contents a = .ret xs) (hy : contents b = .ret ys)
    {cmp : Cell α → Cell α → Int} (hc : Comparator cmp) (ax : Ascending cmp xs) (ay : Ascending cmp ys)
    (hr : RoomFor P (vecGetCapacity s) (pre.length + (xs.length + ys.length))) {n : Nat} (hn : xs.length + ys.length ≤ n) :
    ∃ s' l, mergeVec cmp a b n 0 0 s = .ret (stSuccess, s') ∧ contents s' = .ret (pre ++ l) ∧ MergedFrom cmp xs ys l ∧
      vecGetSize s' = pre.length + (xs.length + ys.length) ∧ destroyedOf s'.w.trace = destroyedOf s.w.trace := by
  obtain ⟨bl, slack, R⟩ := h.rep
  obtain ⟨ba, sla, Ra⟩ := ha.rep
  obtain ⟨bb, slb, Rb⟩ := hb.rep
  obtain rfl := Out.ret.inj (R.contents.symm.trans hs)
  obtain rfl := Out.ret.inj (Ra.contents.symm.trans hx)
  obtain rfl := Out.ret.inj (Rb.contents.symm.trans hy)
  obtain ⟨s', e, h', g, d⟩ := mergeVec_ok ha hb cmp n 0 0 h hr (by simpa using hn) (by simp)
  obtain ⟨bl', slack', R'⟩ := h'.rep
  rw [List.drop_zero, List.drop_zero] at g
  have M := mergeList_spec hc ax ay
  refine ⟨s', _, e, by rw [R'.contents, g], M, ?_, d⟩
  show s'.v.size = _
  rw [R'.size, g, List.length_append, M.same.length_eq, List.length_append]

/-- **C199**: a vector in a caller buffer that is too small takes the first elements that fit, and the program fails with
"insufficient buffer". -/
theorem C199_full {P Pa Pb : Params} {s a b : VS α} (h : Reach P s) (ha : Reach Pa a) (hb : Reach Pb b)
    {pre xs ys : List (Cell α)} (hs : contents s = .ret pre) (hx : contents a = .ret xs) (hy : contents b = .ret ys)
    {cmp : Cell α → Cell α → Int} (hc : Comparator cmp) (ax : Ascending cmp xs) (ay : Ascending cmp ys)
    (hP : P.allocator = none) (hf : Fits P (pre.length + (xs.length + ys.length)))
    (hfull : vecGetCapacity s < pre.length + (xs.length + ys.length)) {n : Nat} (hn : xs.length + ys.length ≤ n) :
    ∃ s' l, mergeVec cmp a b n 0 0 s = .ret (stInsufficient, s') ∧
      contents s' = .ret (pre ++ l.take (vecGetCapacity s - pre.length)) ∧ MergedFrom cmp xs ys l ∧
      vecGetSize s' = vecGetCapacity s ∧ destroyedOf s'.w.trace = destroyedOf s.w.trace := by
  obtain ⟨bl, slack, R⟩ := h.rep
  obtain ⟨ba, sla, Ra⟩ := ha.rep
  obtain ⟨bb, slb, Rb⟩ := hb.rep
  obtain rfl := Out.ret.inj (R.contents.symm.trans hs)
  obtain rfl := Out.ret.inj (Ra.contents.symm.trans hx)
  obtain rfl := Out.ret.inj (Rb.contents.symm.trans hy)
  have M := mergeList_spec hc ax ay
  have hlen : (mergeList cmp (absOf a).elems (absOf b).elems).length = (absOf a).elems.length + (absOf b).elems.length := by
    rw [M.same.length_eq, List.length_append]
  have hcap : vecGetCapacity s = (absOf s).cap := R.cap
  have hle : (absOf s).elems.length ≤ (absOf s).cap := by
    have := R.len
    omega
  rw [hcap] at hfull ⊢
  obtain ⟨s', e, h', g, d, _⟩ := pushList_full hP hf (mergeList cmp (absOf a).elems (absOf b).elems) h (by omega) hle
    (by omega)
  obtain ⟨bl', slack', R'⟩ := h'.rep
  refine ⟨s', _, ?_, by rw [R'.contents, g], M, ?_, d⟩
  · rw [mergeVec_push ha hb cmp n 0 0 s (by simpa using hn)]
    exact e
  · show s'.v.size = _
    rw [R'.size, g, List.length_append, List.length_take]
    omega

/-- **C199**: there is only one way to do this: two lists that are merged from the same ones and have no two different
elements that compare as equal are the same. -/
theorem C199_unique {β : Type} {cmp : β → β → Int} (hc : Comparator cmp) (hd : ∀ x y, cmp x y = 0 → x = y)
    {xs ys l l' : List β} (h : MergedFrom cmp xs ys l) (h' : MergedFrom cmp xs ys l') : l = l' :=
  (h.same.trans h'.same.symm).eq_of_pairwise (fun x y _ _ h1 h2 => hd x y (by
    have := (hc.flip y x).1 h2
    omega)) h.ascending h'.ascending

/-- **C199**: merging with an empty vector is copying. -/
theorem C199_copy {P Pa Pb : Params} {s a b : VS α} (h : Reach P s) (ha : Reach Pa a) (hb : Reach Pb b)
    {pre xs : List (Cell α)} (hs : contents s = .ret pre) (hx : contents a = .ret xs) (hy : contents b = .ret [])
    (cmp : Cell α → Cell α → Int) (hr : RoomFor P (vecGetCapacity s) (pre.length + xs.length)) {n : Nat}
    (hn : xs.length ≤ n) :
    ∃ s', mergeVec cmp a b n 0 0 s = .ret (stSuccess, s') ∧ contents s' = .ret (pre ++ xs) ∧
      ∃ s'', mergeVec cmp b a n 0 0 s = .ret (stSuccess, s'') ∧ contents s'' = .ret (pre ++ xs) := by
  obtain ⟨bl, slack, R⟩ := h.rep
  obtain ⟨ba, sla, Ra⟩ := ha.rep
  obtain ⟨bb, slb, Rb⟩ := hb.rep
  obtain rfl := Out.ret.inj (R.contents.symm.trans hs)
  obtain rfl := Out.ret.inj (Ra.contents.symm.trans hx)
  have hb0 := Out.ret.inj (Rb.contents.symm.trans hy)
  obtain ⟨s', e, h', g, _⟩ := mergeVec_ok ha hb cmp n 0 0 h hr (by rw [hb0]; simpa using hn) (by rw [hb0]; simp)
  obtain ⟨s'', e', h'', g', _⟩ := mergeVec_ok hb ha cmp n 0 0 h hr (by rw [hb0]; simpa using hn) (by rw [hb0]; simp)
  obtain ⟨bl', slack', R'⟩ := h'.rep
  obtain ⟨bl'', slack'', R''⟩ := h''.rep
  rw [hb0] at g g'
  refine ⟨s', e, ?_, s'', e', ?_⟩
  · rw [R'.contents, g]
    simp [mergeList]
  · rw [R''.contents, g']
    simp [mergeList]

/-! ## Concrete examples meeting the hypotheses -/

/-- Merging 10, 20, 30 with itself into a vector that has these elements already. -/
example : ∃ s' l, mergeVec exNumCmp exS exS 6 0 0 exS = .ret (stSuccess, s') ∧
    contents s' = .ret ([some 10, some 20, some 30] ++ l) ∧
    MergedFrom exNumCmp [some 10, some 20, some 30] [some 10, some 20, some 30] l := by
  obtain ⟨s', l, h1, h2, h3, _⟩ := C199_merge exS_reach exS_reach exS_reach rfl rfl rfl exNumCmp_ok
    (by unfold Ascending; decide) (by unfold Ascending; decide) ⟨by show _ < _; decide, Or.inl rfl⟩ (n := 6) (by decide)
  exact ⟨s', l, h1, h2, h3⟩

example : (mergeVec exNumCmp exS exS 6 0 0 exS).bind (fun r => contents r.2) =
    .ret [some 10, some 20, some 30, some 10, some 10, some 20, some 20, some 30, some 30] := by decide

example : ∃ s' l, mergeVec exNumCmp exS exFixed 9 0 0 exFixed = .ret (stInsufficient, s') ∧
    contents s' = .ret ([some 10] ++ l.take 1) ∧ MergedFrom exNumCmp [some 10, some 20, some 30] [some 10] l := by
  obtain ⟨s', l, h1, h2, h3, _⟩ := C199_full exFixed_reach exS_reach exFixed_reach rfl rfl rfl exNumCmp_ok
    (by unfold Ascending; decide) (by unfold Ascending; decide) rfl (by show _ < _; decide) (by decide) (n := 9) (by decide)
  exact ⟨s', l, h1, h2, h3⟩

/-- Merging vectors with the elements 10, 20, 30 and 10: a fixed vector of two slots with one element takes one more. -/
example : (mergeVec exNumCmp exS exFixed 9 0 0 exFixed).bind (fun r => .ret (r.1, contents r.2)) =
    .ret (stInsufficient, .ret [some 10, some 10]) := by decide

example : MergedFrom exNumCmp [some 1, some 3] [some 2, some 3] [some 1, some 2, some 3, some 3] := by
  have := mergeList_spec exNumCmp_ok (xs := [some 1, some 3]) (ys := [some 2, some 3]) (by unfold Ascending; decide)
    (by unfold Ascending; decide)
  rwa [show mergeList exNumCmp [some 1, some 3] [some 2, some 3] = [some 1, some 2, some 3, some 3] from by
    simp [mergeList, exNumCmp]] at this

end Zy
