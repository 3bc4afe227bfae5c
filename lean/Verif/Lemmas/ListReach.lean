import Verif.Lemmas.List

/-!
# Lemmas about the list model: traversal, all operations, histories
-/

namespace Zy

open Spec

variable {α : Type} {F : (Nat → Status) → Nat × Nat → Prop}

theorem seek_ok {s : LS α} (i : Nat) {ch : List (Nat × Cell α)} {p : Option Nat}
    (h : Seg s.mem p ch none) : seek s (firstOf ch none) i = .ret (ch[i]?.map Prod.fst) := by
  induction i generalizing ch p with
  | zero => cases ch <;> rfl
  | succ i ih =>
    cases ch with
    | nil => rfl
    | cons x c =>
      have e : firstOf (x :: c) none = some x.1 := rfl
      have hld : loadNext s (some x.1) = .ret (firstOf c none) := by
        simp [loadNext, deref_some h.1, useptr]
      simp [seek, e, listGetNext, hld, ih h.2]

theorem nodeAt_ok {K : Source} {dt : Bool} {s : LS α} {ch : List (Nat × Cell α)} {fs : List Nat}
    {d : Deque α} (R : LRep F K dt s ch fs d) (i : Nat) : nodeAt s i = .ret (ch[i]?.map Prod.fst) := by
  unfold nodeAt listGetHead
  rw [R.ends.head]
  exact seek_ok i R.core.seg

theorem forward_seg {s : LS α} {ch : List (Nat × Cell α)} (hs : Seg s.mem none ch none)
    (hh : s.l.head = firstOf ch none) (k : Nat) (hk : s.l.size = ch.length + k) :
    forward s = .ret (ch.map Prod.snd) := by
  have key : ∀ (c : List (Nat × Cell α)) (p : Option Nat), Seg s.mem p c none →
      walk s (listGetNext s) (firstOf c none) (c.length + k) = .ret (c.map Prod.snd) := by
    intro c
    induction c with
    | nil => intro p _; cases k <;> simp [walk, firstOf]
    | cons x c ih =>
      intro p h
      have e : firstOf (x :: c) none = some x.1 := rfl
      have hld : loadNext s (some x.1) = .ret (firstOf c none) := by
        simp [loadNext, deref_some h.1, useptr]
      rw [List.length_cons, show c.length + 1 + k = c.length + k + 1 by omega]
      simp [walk, e, listNodeData, readSrc, deref_some h.1, listGetNext, hld, ih _ h.2]
  unfold forward listGetHead listGetSize
  rw [hh, hk]
  exact key ch none hs

theorem forward_ok {K : Source} {dt : Bool} {s : LS α} {ch : List (Nat × Cell α)} {fs : List Nat}
    {d : Deque α} (R : LRep F K dt s ch fs d) : forward s = .ret d.elems := by
  rw [R.elems]
  exact forward_seg R.core.seg R.ends.head 0 R.ends.size

theorem backward_seg {s : LS α} {ch : List (Nat × Cell α)} (hs : Seg s.mem none ch none)
    (E : Ends s.l ch) : backward s = .ret (ch.map Prod.snd).reverse := by
  have key : ∀ (k : Nat) (c : List (Nat × Cell α)) (q : Option Nat), c.length = k →
      Seg s.mem none c q →
      walk s (listGetPrev s) (lastOf none c) k = .ret (c.map Prod.snd).reverse := by
    intro k
    induction k with
    | zero =>
      intro c q hk _
      have : c = [] := List.length_eq_zero_iff.1 hk
      subst this; rfl
    | succ k ih =>
      intro c q hk h
      rcases last_cases c with rfl | ⟨c', x, rfl⟩
      · simp at hk
      · rw [seg_append] at h
        obtain ⟨h1, h2, _⟩ := h
        have hld : loadPrev s (some x.1) = .ret (lastOf none c') := by
          simp [loadPrev, deref_some h2, useptr]
        have := ih c' _ (by simpa using hk) h1
        simp [walk, lastOf_concat, listNodeData, readSrc, deref_some h2, listGetPrev, hld, this]
  unfold backward listGetTail listGetSize
  rw [E.tail, E.size]
  exact key _ ch none rfl hs

theorem backward_ok {K : Source} {dt : Bool} {s : LS α} {ch : List (Nat × Cell α)} {fs : List Nat}
    {d : Deque α} (R : LRep F K dt s ch fs d) : backward s = .ret d.elems.reverse := by
  rw [R.elems]; exact backward_seg R.core.seg R.ends

theorem setData_ok {K : Source} {dt : Bool} {s : LS α} {c1 c2 : List (Nat × Cell α)}
    {x : Nat × Cell α} {fs : List Nat} {d : Deque α} (R : LRep F K dt s (c1 ++ x :: c2) fs d)
    (v : Cell α) :
    ∃ s', listSetNodeData s (some x.1) (.ext v) = .ret (stSuccess, s') ∧
      LRep F K dt s' (c1 ++ (x.1, v) :: c2) fs
        ⟨(c1 ++ (x.1, v) :: c2).map Prod.snd, d.asked, d.dead ++ buried dt [x.2]⟩ := by
  have hs := R.core.seg
  rw [seg_append] at hs
  obtain ⟨h1, h2, h3⟩ := hs
  obtain ⟨s1, g1, g1l, g1m, C1⟩ := destroyData_ok R.core h2
  have h2' : s1.mem x.1 = some ⟨some (lastOf none c1), some (firstOf c2 none), x.2⟩ := by
    rw [g1m]; exact h2
  have hn := R.core.nodup
  simp only [List.append_nil, List.map_append, List.map_cons] at hn
  have hn1 := (List.nodup_append.1 hn).1
  have hx1 : ∀ a ∈ c1.map Prod.fst, a ≠ x.1 := fun a ha =>
    (List.nodup_append.1 hn1).2.2 a ha x.1 (by simp)
  have hx2 : ∀ a ∈ c2.map Prod.fst, a ≠ x.1 := fun a ha e =>
    (List.nodup_cons.1 (List.nodup_append.1 hn1).2.1).1 (e ▸ ha)
  have hxf : x.1 ∉ fs := fun h => (List.nodup_append.1 hn).2.2 x.1 (by simp) x.1 h rfl
  have hmap : (c1 ++ (x.1, v) :: c2).map Prod.fst = (c1 ++ x :: c2).map Prod.fst := by simp
  refine ⟨s1.put x.1 (some ⟨some (lastOf none c1), some (firstOf c2 none), v⟩), ?_,
    ⟨?_, ?_, C1.dt, C1.dead, free_put C1.free hxf, C1.frees, ?_⟩, ⟨?_, ?_, ?_, ?_⟩, rfl⟩
  · simp [listSetNodeData, LSrc.isNull, g1, copyData, readSrc, deref_some h2']
  · rw [seg_append]
    refine ⟨seg_frame (fun a ha => by rw [put_ne _ _ (hx1 a ha), g1m]) h1, put_same _ _ _,
      seg_frame (fun a ha => by rw [put_ne _ _ (hx2 a ha), g1m]) h3⟩
  · rw [hmap]; exact C1.nodup
  · rw [hmap]; exact src_perm C1.src (List.Perm.refl _) (some_put h2')
  · show s1.l.head = _
    rw [g1l, R.ends.head, firstOf_append, firstOf_append]; rfl
  · show s1.l.tail = _
    rw [g1l, R.ends.tail, lastOf_append, lastOf_append]; rfl
  · show s1.l.size = _
    rw [g1l, R.ends.size]; simp
  · have := R.ends.lt; simpa using this

theorem fits_len {K : Source} {dt : Bool} {s : LS α} {ch : List (Nat × Cell α)} {fs : List Nat}
    {d : Deque α} (R : LRep F K dt s ch fs d)
    (h : OneMore K d.elems.length) : ch.length + 1 < 18446744073709551616 := by
  have hlen : d.elems.length = ch.length := by rw [R.elems, List.length_map]
  exact grow_lt R.core (hlen ▸ h)

theorem gives_at {ch : List (Nat × Cell α)} {i : Nat} {x : Nat × Cell α} (h : ch[i]? = some x) :
    Gives ch (listNodeData (some x.1)) x.2 :=
  Or.inr ⟨x.1, rfl, List.mem_of_getElem? h⟩

/-- Every operation does what the queue does. -/
theorem listOp_ok {K : Source} {dt : Bool} (hF : FreesOK F K) {s : LS α} {ch : List (Nat × Cell α)} {fs : List Nat}
    {d : Deque α} (R : LRep F K dt s ch fs d) (op : LOp α) (hf : LFits K d op) :
    ∃ junk s' ch' fs', junk.length = ljunk d op ∧
      listOp s op = .ret ((lstep K dt junk d op).1, s') ∧
      LRep F K dt s' ch' fs' (lstep K dt junk d op).2 := by
  have hel : ∀ i : Nat, d.elems[i]? = ch[i]?.map Prod.snd := by
    intro i; rw [R.elems, List.getElem?_map]
  cases op with
  | pushBack x =>
    obtain ⟨s', ch', fs', h1, h2⟩ := pushBack_ok R (src := .ext x) (Or.inl rfl) (fits_len R hf)
    exact ⟨[], s', ch', fs', rfl, h1, h2⟩
  | pushFront x =>
    obtain ⟨s', ch', fs', h1, h2⟩ := pushFront_ok R (src := .ext x) (Or.inl rfl) (fits_len R hf)
    exact ⟨[], s', ch', fs', rfl, h1, h2⟩
  | pushBackOf i =>
    simp only [listOp, nodeAt_ok R, Out.ret_bind', lstep, hel]
    cases hi : ch[i]? with
    | none => exact ⟨[], s, ch, fs, rfl, rfl, R⟩
    | some x =>
      obtain ⟨s', ch', fs', h1, h2⟩ := pushBack_ok R (gives_at hi) (fits_len R hf)
      exact ⟨[], s', ch', fs', rfl, h1, h2⟩
  | pushFrontOf i =>
    simp only [listOp, nodeAt_ok R, Out.ret_bind', lstep, hel]
    cases hi : ch[i]? with
    | none => exact ⟨[], s, ch, fs, rfl, rfl, R⟩
    | some x =>
      obtain ⟨s', ch', fs', h1, h2⟩ := pushFront_ok R (gives_at hi) (fits_len R hf)
      exact ⟨[], s', ch', fs', rfl, h1, h2⟩
  | emplaceBack c =>
    obtain ⟨j, s', ch', fs', h1, h2⟩ := emplaceBack_ok R c (fits_len R hf)
    exact ⟨[j], s', ch', fs', rfl, h1, h2⟩
  | emplaceFront c =>
    obtain ⟨j, s', ch', fs', h1, h2⟩ := emplaceFront_ok R c (fits_len R hf)
    exact ⟨[j], s', ch', fs', rfl, h1, h2⟩
  | popBack =>
    rcases last_cases ch with rfl | ⟨c, x, rfl⟩
    · have hd : d.elems = [] := R.elems
      have ht : s.l.tail = none := R.ends.tail
      refine ⟨[], s, [], fs, rfl, ?_, ?_⟩
      · simp [listOp, listPopBack, ht, lstep, hd]
      · simpa [lstep, hd] using R
    · obtain ⟨s', fs', h1, h2⟩ := popBack_ok hF R
      have hd : d.elems = c.map Prod.snd ++ [x.2] := by rw [R.elems]; simp
      refine ⟨[], s', c, fs', rfl, ?_, ?_⟩
      · simp [listOp, lstep, hd, h1]
      · simpa [lstep, hd] using h2
  | popFront =>
    cases ch with
    | nil =>
      have hd : d.elems = [] := R.elems
      have ht : s.l.head = none := R.ends.head
      refine ⟨[], s, [], fs, rfl, ?_, ?_⟩
      · simp [listOp, listPopFront, ht, lstep, hd]
      · simpa [lstep, hd] using R
    | cons x c =>
      obtain ⟨s', fs', h1, h2⟩ := popFront_ok hF R
      have hd : d.elems = x.2 :: c.map Prod.snd := by rw [R.elems]; simp
      refine ⟨[], s', c, fs', rfl, ?_, ?_⟩
      · simp [listOp, lstep, hd, h1]
      · simpa [lstep, hd] using h2
  | set i v =>
    simp only [listOp, nodeAt_ok R, Out.ret_bind', lstep, hel]
    cases hi : ch[i]? with
    | none => exact ⟨[], s, ch, fs, rfl, rfl, R⟩
    | some x =>
      obtain ⟨hlt, hxi⟩ := List.getElem?_eq_some_iff.1 hi
      have hsplit : ch = ch.take i ++ x :: ch.drop (i + 1) := by
        rw [← hxi, List.getElem_cons_drop, List.take_append_drop]
      have R' := R
      rw [hsplit] at R'
      obtain ⟨s', h1, h2⟩ := setData_ok R' v
      refine ⟨[], s', ch.take i ++ (x.1, v) :: ch.drop (i + 1), fs, rfl, h1, ?_⟩
      have he : d.elems.set i v =
          (ch.take i ++ (x.1, v) :: ch.drop (i + 1)).map Prod.snd := by
        rw [R.elems, List.map_append, List.map_cons, List.map_take, List.map_drop,
          List.set_eq_take_append_cons_drop, if_pos (by simpa using hlt)]
      simp only [Option.map_some, he]
      exact h2
  | clear =>
    obtain ⟨junk, s', ch', fs', h1, h2, h3⟩ := lresize_ok hF R 0 none (by decide)
    refine ⟨[], s', ch', fs', rfl, ?_, ?_⟩
    · simpa [lstep, listOp, listClear, linit] using h2
    · simpa [lstep] using h3
  | resize n init =>
    obtain ⟨junk, s', ch', fs', h1, h2, h3⟩ := lresize_ok hF R n init hf
    exact ⟨junk, s', ch', fs', h1, h2, h3⟩

/-- Every history does what the queue does. -/
theorem runList_ok {K : Source} {dt : Bool} (hF : FreesOK F K) (ops : List (LOp α)) {s : LS α}
    {ch : List (Nat × Cell α)} {fs : List Nat} {d : Deque α} (R : LRep F K dt s ch fs d)
    (hf : LAllFit K dt d ops) :
    ∃ sts s' ch' fs' d', runList s ops = .ret (sts, s') ∧ LRuns K dt d ops sts d' ∧
      LRep F K dt s' ch' fs' d' := by
  induction ops generalizing s ch fs d with
  | nil => exact ⟨[], s, ch, fs, d, rfl, .nil d, R⟩
  | cons op ops ih =>
    cases hf with
    | cons h t =>
      obtain ⟨junk, s1, ch1, fs1, hj, h1, R1⟩ := listOp_ok hF R op h
      obtain ⟨sts, s', ch', fs', d', h2, h3, R'⟩ := ih R1 (t junk hj)
      refine ⟨(lstep K dt junk d op).1 :: sts, s', ch', fs', d', ?_, .cons junk hj rfl h3, R'⟩
      simp only [runList, h1, Out.ret_bind', h2]

/-- A freshly initialised list represents the empty queue. -/
theorem created_rep {K : Source} {dt : Bool} {s : LS α} (h : Created K dt s)
    (hw : F s.w.freeSt (s.l.esz, s.l.capacity)) : LRep F K dt s [] [] emptyDeque := by
  cases h with
  | dynamic h0 _ he h =>
    obtain ⟨h1, h2, h3⟩ := h0
    unfold listInitEx at h
    split at h
    · cases h
    · obtain ⟨rfl, h⟩ := Prod.mk.inj h
      cases h
      refine ⟨⟨trivial, by simp, rfl, by rw [h3]; rfl, rfl, hw, _, rfl, rfl, rfl, h1, he,
        fun _ _ => rfl, [], by rw [h3]; rfl, by simp⟩, ⟨rfl, rfl, rfl, by simp⟩, rfl⟩
  | @fixed esz b cap bytes dtor w st l h0 hc hb h =>
    obtain ⟨h1, h2, h3⟩ := h0
    unfold listInitBuffer at h
    split at h
    · cases h
    · obtain ⟨rfl, h⟩ := Prod.mk.inj h
      cases h
      refine ⟨⟨trivial, by simp, rfl, by rw [h3]; rfl, rfl, hw, rfl, rfl, hc, ?_, by simp, by simp,
        by rw [h3]; intro e he; cases he⟩, ⟨rfl, rfl, rfl, by simp⟩, rfl⟩
      intro k hk
      show (bufferMem bytes esz (k * (16 + esz))).isSome
      unfold bufferMem
      rw [if_pos]
      · rfl
      · refine ⟨Nat.mul_mod_left _ _, ?_⟩
        have := Nat.le_trans (Nat.mul_le_mul_right (16 + esz) (Nat.succ_le_of_lt hk))
          (Nat.div_mul_le_self cap (16 + esz))
        rw [Nat.succ_mul] at this
        omega

end Zy
