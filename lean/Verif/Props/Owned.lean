import Verif.Lemmas.Owned

/-!
# Properties: a vector of strings owns its strings
-/

namespace Zy

open Spec

/-- **C183**. A vector whose destructor is `ZyanStringDestroy`, and a program that puts new strings into it and changes
the vector and its strings in any way: nothing undefined happens, the vector is the row of texts that it should be,
and the strings that exist are exactly the elements of the vector, each of them once and in memory of its own.

Partial: the program does not duplicate the vector and does not make it larger with `ZyanVectorResize`; see
`C183_duplicate_negation` and `C183_grown_negation`. -/
theorem C183_owns_partial {P : Params} (hP : P.dtor = true) {s : VS Nat} (h : Reach P s) (he : contents s = .ret [])
    {u : World Byte} (hw : Fresh u) (hr : Reliable u) {cs : List Order} (hc : Row.AcceptsAll P ⟨[], s.v.cap⟩ cs) :
    ∃ sts o r, Shop.run ⟨s, ⟨[], u⟩⟩ cs = .ret (sts, o) ∧ Row.Lives P ⟨[], s.v.cap⟩ cs sts r ∧ o.shows r ∧
      Separate o.d.places o.d.w.trace := by
  obtain ⟨sts, o, r, ids, S, e, L, I⟩ := orders_ok hP cs (shop_start h he hw hr) hc
  exact ⟨sts, o, r, e, L, I.shows, I.desk.tidy.sep⟩

/-- **C183**, the end: when the vector is destroyed, all memory of the strings and of the vector is given back.
Partial as `C183_owns_partial`. -/
theorem C183_destroy_partial {P : Params} (hP : P.dtor = true) {s : VS Nat} (h : Reach P s) (he : contents s = .ret [])
    {u : World Byte} (hw : Fresh u) (hr : Reliable u) {cs : List Order} (hc : Row.AcceptsAll P ⟨[], s.v.cap⟩ cs)
    {sts : List Status} {o : Shop} (e : Shop.run ⟨s, ⟨[], u⟩⟩ cs = .ret (sts, o)) :
    ∃ o', vecDestroyO o = .ret (stSuccess, o') ∧ heapOf o'.d.w.trace = some .empty ∧
      (P.allocator.isSome → replay o'.s.w.trace = some none) := by
  obtain ⟨sts', o1, r, ids, S, e', L, I⟩ := orders_ok hP cs (shop_start h he hw hr) hc
  rw [e] at e'
  cases e'
  obtain ⟨s', d', S', e2, -, hrep, I', hno⟩ := I.destroy hP
  exact ⟨_, e2, heap_empty I' hno, hrep⟩

/-- **C183** does not hold of copies: `ZyanVectorDuplicateEx` copies the destructor but not the strings. Whenever
a vector with strings was duplicated, destroying both of them is undefined. -/
theorem C183_duplicate_negation {P : Params} (hP : P.dtor = true) {s : VS Nat} (h : Reach P s)
    (he : contents s = .ret []) {u : World Byte} (hw : Fresh u) (hr : Reliable u) {cs : List Order}
    (hc : Row.AcceptsAll P ⟨[], s.v.cap⟩ cs) {sts : List Status} {o : Shop}
    (e : Shop.run ⟨s, ⟨[], u⟩⟩ cs = .ret (sts, o)) (hne : o.s.v.size ≠ 0)
    {w : World Nat} (hw' : Fresh w) (hr' : Reliable w) {cap a growth thr : Nat} (hg : 1 ≤ growth ∧ growth ≤ 255)
    (ht : thr ≤ 255) (hcap : max 1 cap * P.esz < 18446744073709551616) :
    ∃ v w', vecDuplicateEx w o.s.v cap (some a) growth thr = .ret (stSuccess, some v, w') ∧
      (vecDestroyO o).bind (fun q => vecDestroyO ⟨⟨v, w'⟩, q.2.d⟩) = .ub .uaf := by
  obtain ⟨sts', o1, r, ids, S, e', L, I⟩ := orders_ok hP cs (shop_start h he hw hr) hc
  rw [e] at e'
  cases e'
  obtain ⟨dead, b, slack, R⟩ := I.rep
  obtain ⟨s', d', S', e2, -, hrep, I', hno⟩ := I.destroy hP
  obtain ⟨v, w', b', sl', ed, R', -⟩ := duplicate_rep (P := ⟨some a, growth, thr, P.esz, P.dtor⟩) R hw' hr'
    ⟨rfl, hg.2, ht, rfl, rfl⟩ hg.1 hcap
  refine ⟨v, w', ed, ?_⟩
  rw [e2]
  cases ids with
  | nil => exact absurd R.size hne
  | cons k ks => exact destroy_stale (P := ⟨some a, growth, thr, P.esz, P.dtor⟩) hP R' I' hno (k := k) (es := ks.map some) rfl

/-- **C183** does not hold of vectors that grow by themselves: after `ZyanVectorResize` to a larger size, the new
elements are not strings, and destroying the vector is undefined whatever is done before. -/
theorem C183_grown_negation {P : Params} (hP : P.dtor = true) {s : VS Nat} (h : Reach P s)
    (he : contents s = .ret []) {u : World Byte} (hw : Fresh u) (hr : Reliable u) {cs : List Order}
    (hc : Row.AcceptsAll P ⟨[], s.v.cap⟩ cs) {sts : List Status} {o : Shop}
    (e : Shop.run ⟨s, ⟨[], u⟩⟩ cs = .ret (sts, o)) {n : Nat} (hn : o.s.v.size < n) (hf : Fits P n)
    (hroom : n ≤ o.s.v.cap ∨ P.allocator.isSome) :
    ∃ o' why, vecResizeExO o n .null = .ret (stSuccess, o') ∧ vecDestroyO o' = .ub why ∧ (why = .uaf ∨ why = .indet) := by
  obtain ⟨sts', o1, r, ids, S, e', L, I⟩ := orders_ok hP cs (shop_start h he hw hr) hc
  rw [e] at e'
  cases e'
  obtain ⟨dead, b, slack, R⟩ := I.rep
  have hs : o.s.v.size = ids.length := by rw [R.size]; simp
  rw [hs] at hn
  obtain ⟨junk, st, s', a', b', slack', hj, hst, hop, R'⟩ := op_ok R (.resize n none) hf
  have hj' : junk.length = n - ids.length := by simpa [junkLen] using hj
  have hc' : o.s.v.cap = r.cap := R.cap
  obtain ⟨c, hr2⟩ : ∃ c, room P r.cap n = some c := by
    unfold room
    by_cases h1 : n ≤ r.cap
    · exact ⟨_, if_pos h1⟩
    · rw [if_neg h1]
      rcases hroom with h | h
      · rw [hc'] at h; exact absurd h h1
      · exact ⟨_, if_pos h⟩
  have hop' : vecResizeEx o.s n .null = .ret (st, s') := hop
  simp only [step, List.length_map] at hst
  rw [if_neg (by omega), hr2] at hst
  simp only at hst
  rw [if_neg (by omega)] at hst
  cases junk with
  | nil => simp at hj'; omega
  | cons c es =>
    cases hst
    obtain ⟨why, h1, h2⟩ := destroy_grown hP (d := o.d) R' I.desk I.owned
    refine ⟨⟨s', o.d⟩, why, ?_, h1, h2⟩
    rw [resizeO_eq hP R n, List.drop_eq_nil_of_le (by omega), hop']
    rfl

/-! ## Examples -/

/-- A vector of strings (64 bytes each) with the default allocator. -/
def stringsP : Params := ⟨some 0, 2, 4, 64, true⟩

/-- An empty vector. -/
def noStrings : VS Nat :=
  ⟨{ allocator := some 0, growth := 2, shrink := 4, size := 0, cap := 1, esz := 64, hasDtor := true,
     data := some ⟨0, [none]⟩ },
   { oracle := fun _ => stSuccess, calls := 1, nextBlk := 1, trace := [.alloc 0 0 64 1] }⟩

/-- A world in which nothing has happened. -/
def emptyU : World Byte := { oracle := fun _ => stSuccess, calls := 0, nextBlk := 0, trace := [] }

/-- Two strings are put in, then one more before them. The second of them is replaced, the last of them is changed, and
the first is deleted. -/
def stringsProgram : List Order :=
  [.move (.push [some 97#8]), .move (.push [some 98#8]), .move (.insert 0 [some 99#8]), .move (.set 1 [some 100#8]),
    .edit 2 (.append [some 101#8]), .move (.set 7 [some 102#8]), .move (.delete 0 1)]

example : Reach stringsP noStrings ∧ contents noStrings = .ret [] := by
  refine ⟨?_, by cbv⟩
  exact .init (w := { oracle := fun _ => stSuccess, calls := 0, nextBlk := 0, trace := [] }) (cap := 1) (a := 0)
    ⟨rfl, rfl⟩ (fun _ => by show failed stSuccess = false; decide) ⟨rfl, by decide, by decide⟩ (by decide) rfl

example : Fresh emptyU ∧ Reliable emptyU := ⟨⟨rfl, rfl⟩, fun _ => by show failed stSuccess = false; decide⟩

example : Row.AcceptsAll stringsP ⟨[], noStrings.v.cap⟩ stringsProgram := by
  have fits : ∀ n, n < 10 → Fits stringsP n := fun n h => by
    show n * 255 * 64 < _; omega
  have sfits : ∀ (x : Byte), SFits ([some x].length + 1) := fun x => by show (1 + 1) * 255 < _; decide
  refine .cons ⟨fits 1 (by decide), fun x h => by cases h; exact sfits _⟩ fun junk hj => ?_
  refine .cons ⟨fits 2 (by decide), fun x h => by cases h; exact sfits _⟩ fun junk hj => ?_
  refine .cons ⟨fits 3 (by decide), fun x h => by cases h; exact sfits _⟩ fun junk hj => ?_
  refine .cons ⟨trivial, fun x h => by cases h; exact sfits _⟩ fun junk hj => ?_
  refine .cons (fun y h => by cases h; show (1 + 1 + 1) * 255 < _; decide) fun junk hj => ?_
  refine .cons ⟨trivial, fun x h => by cases h; exact sfits _⟩ fun junk hj => ?_
  refine .cons ⟨by show 0 + 1 < _; decide, fun x h => by cases h⟩ fun junk hj => ?_
  exact .nil _

/-- Of five strings, the two in the vector are left. -/
example : ∃ sts o, Shop.run ⟨noStrings, ⟨[], emptyU⟩⟩ stringsProgram = .ret (sts, o) ∧
    sts = [stSuccess, stSuccess, stSuccess, stSuccess, stSuccess, stOutOfRange, stSuccess] ∧
    contents o.s = .ret [some 3, some 1] ∧ o.d.objs.map Option.isSome = [false, true, false, true, false] := by
  refine ⟨_, _, rfl, ?_, ?_, ?_⟩
  · cbv
  · cbv
  · cbv

end Zy
