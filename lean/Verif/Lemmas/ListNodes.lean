import Verif.Lemmas.ListReach
import Verif.Lemmas.Tends
import Verif.Spec.ListNodes
import Verif.Lemmas.ListProps

/-! # Lemmas: where the nodes of a list are -/

namespace Zy

open Spec

variable {α : Type} {F : (Nat → Status) → Nat × Nat → Prop}

/-! ## Chains before and after a call -/

/-- What becomes of the nodes of a chain. -/
def Carry (ch : List (Nat × Cell α)) (st : Status) (op : LOp α) (ch' : List (Nat × Cell α)) : Prop :=
  ∀ k x, ch[k]? = some x →
    (∀ k', track ch.length (!failed st) k op = some k' →
      ch'[k']?.map Prod.fst = some x.1 ∧ ((∀ v, op ≠ .set k v) → ch'[k']? = some x)) ∧
    (track ch.length (!failed st) k op = none → x.1 ∉ ch'.map Prod.fst)

theorem carry_append {ch t : List (Nat × Cell α)} {st : Status} {op : LOp α}
    (h : ∀ k, k < ch.length → track ch.length (!failed st) k op = some k) : Carry ch st op (ch ++ t) := by
  intro k x hx
  have hk := (List.getElem?_eq_some_iff.1 hx).1
  have e : (ch ++ t)[k]? = some x := by rw [List.getElem?_append_left hk, hx]
  rw [h k hk]
  refine ⟨fun k' hk' => ?_, nofun⟩
  cases hk'
  exact ⟨by rw [e]; rfl, fun _ => e⟩

theorem carry_same {ch : List (Nat × Cell α)} {st : Status} {op : LOp α}
    (h : ∀ k, k < ch.length → track ch.length (!failed st) k op = some k) : Carry ch st op ch := by
  have := carry_append (t := []) h
  rwa [List.append_nil] at this

theorem carry_cons {ch : List (Nat × Cell α)} {y : Nat × Cell α} {st : Status} {op : LOp α}
    (h : ∀ k, track ch.length (!failed st) k op = some (k + 1)) : Carry ch st op (y :: ch) := by
  intro k x hx
  rw [h k]
  refine ⟨fun k' hk' => ?_, nofun⟩
  cases hk'
  have e : (y :: ch)[k + 1]? = some x := by rw [List.getElem?_cons_succ, hx]
  exact ⟨by rw [e]; rfl, fun _ => e⟩

/-! ## The calls -/

theorem pushBack_at {K : Source} {dt : Bool} {s : LS α} {ch : List (Nat × Cell α)} {fs : List Nat}
    {d : Deque α} (R : LRep F K dt s ch fs d) {src : LSrc α} {x : Cell α} (hg : Gives ch src x)
    (hl : ch.length + 1 < 18446744073709551616) :
    ∃ s' ch' fs', listPushBack s src = .ret ((addBack K d x).1, s') ∧
      LRep F K dt s' ch' fs' (addBack K d x).2 ∧ ∃ t, ch' = ch ++ t := by
  obtain ⟨hA, hB⟩ := alloc_ok R
  unfold listPushBack addBack
  rw [hg.notNull, if_neg Bool.false_ne_true]
  cases hf : failed (answerOf K d) with
  | true =>
    obtain ⟨s', h1, h2, h3, h4⟩ := hA hf
    exact ⟨s', ch, fs, by simp [h1, hf], by simpa using refused_ok R h2 h4, [], by simp⟩
  | false =>
    obtain ⟨p, nd, fs', s1, h1, h2, h3, h4⟩ := hB hf
    obtain ⟨s', h5, h6⟩ := insertBack_ok R h3 h4 h2 hl x
    refine ⟨s', ch ++ [(p, x)], fs', ?_, by simpa using h6, _, rfl⟩
    have hc := copyData_eq hg (core_pend (nd' := ⟨some s1.l.tail, some none, nd.data⟩) h4 h2).seg
      (put_same _ _ _)
    simp [h1, initBack_eq h2, hc, h5]

theorem pushFront_at {K : Source} {dt : Bool} {s : LS α} {ch : List (Nat × Cell α)} {fs : List Nat}
    {d : Deque α} (R : LRep F K dt s ch fs d) {src : LSrc α} {x : Cell α} (hg : Gives ch src x)
    (hl : ch.length + 1 < 18446744073709551616) :
    ∃ s' ch' fs', listPushFront s src = .ret ((addFront K d x).1, s') ∧
      LRep F K dt s' ch' fs' (addFront K d x).2 ∧
      ((failed (addFront K d x).1 = true ∧ ch' = ch) ∨ (failed (addFront K d x).1 = false ∧ ∃ y, ch' = y :: ch)) := by
  obtain ⟨hA, hB⟩ := alloc_ok R
  unfold listPushFront addFront
  rw [hg.notNull, if_neg Bool.false_ne_true]
  cases hf : failed (answerOf K d) with
  | true =>
    obtain ⟨s', h1, h2, h3, h4⟩ := hA hf
    exact ⟨s', ch, fs, by simp [h1, hf], by simpa using refused_ok R h2 h4, .inl ⟨by simp [hf], rfl⟩⟩
  | false =>
    obtain ⟨p, nd, fs', s1, h1, h2, h3, h4⟩ := hB hf
    obtain ⟨s', h5, h6⟩ := insertFront_ok R h3 h4 h2 hl x
    refine ⟨s', (p, x) :: ch, fs', ?_, by simpa using h6, .inr ⟨by simp, _, rfl⟩⟩
    have hc := copyData_eq hg (core_pend (nd' := ⟨some none, some s1.l.head, nd.data⟩) h4 h2).seg
      (put_same _ _ _)
    simp [h1, initFront_eq h2, hc, h5]

theorem emplaceBack_at {K : Source} {dt : Bool} {s : LS α} {ch : List (Nat × Cell α)} {fs : List Nat}
    {d : Deque α} (R : LRep F K dt s ch fs d) (c : Ctor α)
    (hl : ch.length + 1 < 18446744073709551616) :
    ∃ j s' ch' fs', listEmplaceBack s c = .ret ((addBack K d (constructed c j)).1, s') ∧
      LRep F K dt s' ch' fs' (addBack K d (constructed c j)).2 ∧ ∃ t, ch' = ch ++ t := by
  obtain ⟨hA, hB⟩ := alloc_ok R
  unfold listEmplaceBack addBack
  cases hf : failed (answerOf K d) with
  | true =>
    obtain ⟨s', h1, h2, h3, h4⟩ := hA hf
    exact ⟨none, s', ch, fs, by simp [h1, hf], by simpa using refused_ok R h2 h4, [], by simp⟩
  | false =>
    obtain ⟨p, nd, fs', s1, h1, h2, h3, h4⟩ := hB hf
    obtain ⟨s', h5, h6⟩ := insertBack_ok R h3 h4 h2 hl (constructed c nd.data)
    refine ⟨nd.data, s', ch ++ [(p, _)], fs', ?_, by simpa using h6, _, rfl⟩
    simp [h1, initBack_eq h2, construct_eq (put_same _ _ _), h5]

theorem emplaceFront_at {K : Source} {dt : Bool} {s : LS α} {ch : List (Nat × Cell α)}
    {fs : List Nat} {d : Deque α} (R : LRep F K dt s ch fs d) (c : Ctor α)
    (hl : ch.length + 1 < 18446744073709551616) :
    ∃ j s' ch' fs', listEmplaceFront s c = .ret ((addFront K d (constructed c j)).1, s') ∧
      LRep F K dt s' ch' fs' (addFront K d (constructed c j)).2 ∧
      ((failed (addFront K d (constructed c j)).1 = true ∧ ch' = ch) ∨
        (failed (addFront K d (constructed c j)).1 = false ∧ ∃ y, ch' = y :: ch)) := by
  obtain ⟨hA, hB⟩ := alloc_ok R
  unfold listEmplaceFront addFront
  cases hf : failed (answerOf K d) with
  | true =>
    obtain ⟨s', h1, h2, h3, h4⟩ := hA hf
    exact ⟨none, s', ch, fs, by simp [h1, hf], by simpa using refused_ok R h2 h4, .inl ⟨by simp [hf], rfl⟩⟩
  | false =>
    obtain ⟨p, nd, fs', s1, h1, h2, h3, h4⟩ := hB hf
    obtain ⟨s', h5, h6⟩ := insertFront_ok R h3 h4 h2 hl (constructed c nd.data)
    refine ⟨nd.data, s', (p, _) :: ch, fs', ?_, by simpa using h6, .inr ⟨by simp, _, rfl⟩⟩
    simp [h1, initFront_eq h2, construct_eq (put_same _ _ _), h5]

theorem growLoop_at {K : Source} {dt : Bool} (init : Option (Cell α)) (k : Nat) {s : LS α}
    {ch : List (Nat × Cell α)} {fs : List Nat} {d : Deque α} (R : LRep F K dt s ch fs d)
    (hl : ch.length + k < 18446744073709551616) :
    ∃ junk s' ch' fs', junk.length = k ∧
      growLoop (linit init) s k = .ret ((addMany K d (fresh init k junk)).1, s') ∧
      LRep F K dt s' ch' fs' (addMany K d (fresh init k junk)).2 ∧ ∃ t, ch' = ch ++ t := by
  induction k generalizing s ch fs d with
  | zero =>
    refine ⟨[], s, ch, fs, rfl, ?_, ?_, [], by simp⟩ <;> cases init <;> simp [fresh, addMany, growLoop, R]
  | succ k ih =>
    obtain ⟨hA, hB⟩ := alloc_ok R
    have hfresh : ∀ j (junk : List (Cell α)), fresh init (k + 1) (j :: junk) =
        init.getD j :: fresh init k junk := by
      intro j junk; cases init <;> simp [fresh, List.replicate_succ]
    cases hf : failed (answerOf K d) with
    | true =>
      obtain ⟨s', h1, h2, h3, h4⟩ := hA hf
      refine ⟨List.replicate (k + 1) none, s', ch, fs, by simp, ?_, ?_, [], by simp⟩
      · rw [List.replicate_succ, hfresh]; simp [addMany, addBack, hf, growLoop, h1]
      · rw [List.replicate_succ, hfresh]; simpa [addMany, addBack, hf] using refused_ok R h2 h4
    | false =>
      obtain ⟨p, nd, fs', s1, h1, h2, h3, h4⟩ := hB hf
      obtain ⟨s2, h5, h6⟩ := insertBack_ok R h3 h4 h2 (by omega)
        (init.getD nd.data)
      obtain ⟨junk, s', ch', fs'', hj, h7, h8, t, ht⟩ := ih h6 (by
        simp only [List.length_append, List.length_cons, List.length_nil]; omega)
      refine ⟨nd.data :: junk, s', ch', fs'', by simp [hj], ?_, ?_, _, by rw [ht, List.append_assoc]⟩
      · rw [hfresh]
        have e : (if (linit init).isNull = true then
              Out.ret (s1.put p (some ⟨some s1.l.tail, some none, nd.data⟩))
            else copyData (s1.put p (some ⟨some s1.l.tail, some none, nd.data⟩)) (some p)
              (linit init)) =
            .ret (s1.put p (some ⟨some s1.l.tail, some none,
              (init.getD nd.data)⟩)) := by
          cases init with
          | none => simp [linit, LSrc.isNull]
          | some x =>
            have hc := copyData_eq (src := .ext x) (Or.inl rfl)
              (core_pend (nd' := ⟨some s1.l.tail, some none, nd.data⟩) h4 h2).seg (put_same _ _ _)
            simp [linit, LSrc.isNull, hc]
        simp only [growLoop, h1, Out.ret_bind', failed_success, Bool.false_eq_true, if_false,
          initBack_eq h2, e, h5, h7, addMany, addBack, hf]
      · rw [hfresh]
        simpa [addMany, addBack, hf] using h8

theorem lresize_at {K : Source} {dt : Bool} (hF : FreesOK F K) {s : LS α} {ch : List (Nat × Cell α)} {fs : List Nat}
    {d : Deque α} (R : LRep F K dt s ch fs d) (n : Nat) (init : Option (Cell α))
    (hn : n < 18446744073709551616) :
    ∃ junk s' ch' fs', junk.length = n - d.elems.length ∧
      listResizeEx s n (linit init) = .ret ((lstep K dt junk d (.resize n init)).1, s') ∧
      LRep F K dt s' ch' fs' (lstep K dt junk d (.resize n init)).2 ∧
      (n ≤ ch.length → ch' = ch.take n) ∧ (ch.length < n → ∃ t, ch' = ch ++ t) := by
  have E := R.ends
  have hlen : d.elems.length = ch.length := by rw [R.elems, List.length_map]
  by_cases h0 : n = 0
  · subst h0
    refine ⟨[], ?_⟩
    simp only [lstep, if_true]
    by_cases he : ch = []
    · subst he
      have hd : d.elems = [] := R.elems
      refine ⟨s, [], fs, by simp, ?_, ?_, fun _ => rfl, fun h => absurd h (Nat.not_lt_zero _)⟩
      · simp [listResizeEx, E.size]
      · rw [hd]
        have : buried dt ([] : List (Cell α)) = [] := by cases dt <;> rfl
        rw [this, List.append_nil]
        exact ⟨R.core, E, rfl⟩
    · obtain ⟨s', h1, h2, h3⟩ := freeAll_ok hF R
      refine ⟨{ s' with l := { s'.l with size := 0, head := none, tail := none, firstUnused := none } },
        [], [], by simp, ?_, ⟨h3, ⟨rfl, rfl, rfl, by simp⟩, rfl⟩, fun _ => rfl, fun h => absurd h (Nat.not_lt_zero _)⟩
      have : 0 ≠ s.l.size := by
        rw [E.size]; intro h; exact he (List.length_eq_zero_iff.1 h.symm)
      simp [listResizeEx, this, h1]
  · by_cases hle : n ≤ ch.length
    · refine ⟨[], ?_⟩
      simp only [lstep, h0, if_false, hlen, hle, if_true]
      by_cases heq : n = ch.length
      · have hd : d.elems.drop n = [] := List.drop_eq_nil_of_le (by omega)
        have ht : d.elems.take n = d.elems := List.take_of_length_le (by omega)
        have hb : buried dt ([] : List (Cell α)) = [] := by cases dt <;> rfl
        rw [hd, ht, List.reverse_nil, hb, List.append_nil]
        exact ⟨s, ch, fs, by simp; omega, by simp [listResizeEx, E.size, heq], R,
          fun _ => by rw [List.take_of_length_le (by omega)], fun h => by omega⟩
      · have hsplit : ch.take n ++ ch.drop n = ch := List.take_append_drop n ch
        obtain ⟨s', fs', fu, h1, h2, h3⟩ := shrinkLoop_ok hF (ch := ch.take n) (ch.drop n)
          (by rw [hsplit]; exact R.core) (by rw [hsplit]; exact E.tail)
        refine ⟨{ s' with l := { s'.l with size := n } }, ch.take n, fs', by simp; omega, ?_,
          ⟨?_, ⟨?_, ?_, ?_, ?_⟩, ?_⟩, fun _ => rfl, fun h => by omega⟩
        · rw [List.length_drop] at h1
          have e : s.l.size = ch.length := E.size
          unfold listResizeEx
          rw [e, if_neg heq, if_neg h0, if_neg (by omega), h1]
          rfl
        · have := core_l (l' := { s'.l with size := n }) h3 rfl rfl rfl rfl rfl
          rw [R.elems, ← List.map_drop]; exact this
        · show s'.l.head = _
          rw [h2]; show s.l.head = _
          rw [E.head]
          conv => lhs; rw [← hsplit]
          rw [firstOf_append]
          cases hc : ch.take n with
          | nil =>
            rw [List.take_eq_nil_iff] at hc
            rcases hc with hc | hc
            · exact absurd hc h0
            · rw [hc] at hle; simp at hle; omega
          | cons y c => rfl
        · show s'.l.tail = _; rw [h2]
        · show n = _; rw [List.length_take]; omega
        · have := E.lt; rw [List.length_take]; omega
        · rw [R.elems, List.map_take]
    · obtain ⟨junk, s', ch', fs', hj, h1, h2, h3⟩ := growLoop_at init (n - ch.length) R (by
        have := E.lt; omega)
      refine ⟨junk, s', ch', fs', by rw [hlen]; exact hj, ?_, ?_, fun h => absurd h hle, fun _ => h3⟩
      · have e : s.l.size = ch.length := E.size
        simp only [lstep, h0, if_false, hlen, hle]
        unfold listResizeEx
        rw [e, if_neg (by omega), if_neg h0, if_pos (by omega), h1]
      · simp only [lstep, h0, if_false, hlen, hle]; exact h2

/-- An address occurs once. -/
theorem once_of_nodup {c1 c2 : List (Nat × Cell α)} {fs : List Nat} (h : ((c1 ++ c2).map Prod.fst ++ [] ++ fs).Nodup)
    {x : Nat × Cell α} (hx : x ∈ c2) : x.1 ∉ c1.map Prod.fst := by
  rw [List.append_nil, List.map_append] at h
  have h1 := (List.nodup_append.1 h).1
  exact fun hm => (List.nodup_append.1 h1).2.2 x.1 hm x.1 (List.mem_map_of_mem hx) rfl

theorem carry_popBack {c : List (Nat × Cell α)} {y : Nat × Cell α} {fs : List Nat} {st : Status}
    (hn : ((c ++ [y]).map Prod.fst ++ [] ++ fs).Nodup) : Carry (c ++ [y]) st .popBack c := by
  intro k x hx
  have hk := (List.getElem?_eq_some_iff.1 hx).1
  rw [List.length_append, List.length_singleton] at hk
  simp only [track, List.length_append, List.length_singleton]
  by_cases h : k = c.length
  · subst h
    rw [if_pos rfl]
    refine ⟨nofun, fun _ => ?_⟩
    rw [List.getElem?_concat_length] at hx
    cases hx
    exact once_of_nodup hn (by simp)
  · rw [if_neg (by omega)]
    refine ⟨fun k' hk' => ?_, nofun⟩
    cases hk'
    rw [List.getElem?_append_left (by omega)] at hx
    exact ⟨by rw [hx]; rfl, fun _ => hx⟩

theorem carry_popFront {c : List (Nat × Cell α)} {y : Nat × Cell α} {fs : List Nat} {st : Status}
    (hn : ((y :: c).map Prod.fst ++ [] ++ fs).Nodup) : Carry (y :: c) st .popFront c := by
  intro k x hx
  simp only [track]
  cases k with
  | zero =>
    rw [if_pos rfl]
    refine ⟨nofun, fun _ => ?_⟩
    rw [List.getElem?_cons_zero] at hx
    cases hx
    rw [List.append_nil, List.map_cons, List.cons_append] at hn
    exact fun hm => (List.nodup_cons.1 hn).1 (List.mem_append_left _ hm)
  | succ k =>
    rw [if_neg (by omega)]
    refine ⟨fun k' hk' => ?_, nofun⟩
    cases hk'
    rw [List.getElem?_cons_succ] at hx
    exact ⟨by rw [Nat.add_sub_cancel, hx]; rfl, fun _ => hx⟩

theorem carry_set {ch : List (Nat × Cell α)} {i : Nat} {v : Cell α} {y : Nat × Cell α} {st : Status}
    (hi : ch[i]? = some y) : Carry ch st (.set i v) (ch.take i ++ (y.1, v) :: ch.drop (i + 1)) := by
  intro k x hx
  refine ⟨fun k' hk' => ?_, nofun⟩
  cases hk'
  have hlt := (List.getElem?_eq_some_iff.1 hi).1
  have e : ch.take i ++ (y.1, v) :: ch.drop (i + 1) = ch.set i (y.1, v) := by
    rw [List.set_eq_take_append_cons_drop, if_pos hlt]
  rw [e]
  by_cases h : i = k
  · subst h
    rw [hi] at hx
    cases hx
    rw [List.getElem?_set_self hlt]
    exact ⟨rfl, fun hne => absurd rfl (hne v)⟩
  · rw [List.getElem?_set_ne h, hx]
    exact ⟨rfl, fun _ => rfl⟩

theorem carry_resize {ch ch' : List (Nat × Cell α)} {n : Nat} {init : Option (Cell α)} {fs : List Nat} {st : Status}
    (hn : (ch.map Prod.fst ++ [] ++ fs).Nodup) (h1 : n ≤ ch.length → ch' = ch.take n)
    (h2 : ch.length < n → ∃ t, ch' = ch ++ t) : Carry ch st (.resize n init) ch' := by
  by_cases hle : n ≤ ch.length
  · rw [h1 hle]
    intro k x hx
    simp only [track]
    by_cases h : n ≤ k
    · rw [if_pos h]
      refine ⟨nofun, fun _ => ?_⟩
      rw [← List.take_append_drop n ch] at hn
      refine once_of_nodup hn (List.mem_of_getElem? (i := k - n) ?_)
      rw [List.getElem?_drop, Nat.add_sub_cancel' h, hx]
    · rw [if_neg h]
      refine ⟨fun k' hk' => ?_, nofun⟩
      cases hk'
      rw [List.getElem?_take_of_lt (by omega), hx]
      exact ⟨rfl, fun _ => rfl⟩
  · obtain ⟨t, rfl⟩ := h2 (by omega)
    exact carry_append fun k hk => by simp only [track]; rw [if_neg (by omega)]

/-- Every operation does what the queue does, and the nodes stay where they are. -/
theorem listOp_at {K : Source} {dt : Bool} (hF : FreesOK F K) {s : LS α} {ch : List (Nat × Cell α)} {fs : List Nat}
    {d : Deque α} (R : LRep F K dt s ch fs d) (op : LOp α) (hf : LFits K d op) :
    ∃ junk s' ch' fs', junk.length = ljunk d op ∧
      listOp s op = .ret ((lstep K dt junk d op).1, s') ∧
      LRep F K dt s' ch' fs' (lstep K dt junk d op).2 ∧ Carry ch (lstep K dt junk d op).1 op ch' := by
  have front : ∀ {op : LOp α} {st : Status} {ch' : List (Nat × Cell α)},
      (∀ k, track ch.length (!failed st) k op = some (if !failed st then k + 1 else k)) →
      ((failed st = true ∧ ch' = ch) ∨ (failed st = false ∧ ∃ y, ch' = y :: ch)) → Carry ch st op ch' := by
    intro op st ch' ht h
    rcases h with ⟨h1, rfl⟩ | ⟨h1, y, rfl⟩
    · exact carry_same fun k _ => by rw [ht, h1]; rfl
    · exact carry_cons fun k => by rw [ht, h1]; rfl
  have hel : ∀ i : Nat, d.elems[i]? = ch[i]?.map Prod.snd := by
    intro i; rw [R.elems, List.getElem?_map]
  cases op with
  | pushBack x =>
    obtain ⟨s', ch', fs', h1, h2, h3⟩ := pushBack_at R (src := .ext x) (Or.inl rfl) (fits_len R hf)
    obtain ⟨t, rfl⟩ := h3
    exact ⟨[], s', _, fs', rfl, h1, h2, carry_append fun _ _ => rfl⟩
  | pushFront x =>
    obtain ⟨s', ch', fs', h1, h2, h3⟩ := pushFront_at R (src := .ext x) (Or.inl rfl) (fits_len R hf)
    exact ⟨[], s', ch', fs', rfl, h1, h2, front (fun _ => rfl) h3⟩
  | pushBackOf i =>
    simp only [listOp, nodeAt_ok R, Out.ret_bind', lstep, hel]
    cases hi : ch[i]? with
    | none => exact ⟨[], s, ch, fs, rfl, rfl, R, carry_same fun _ _ => rfl⟩
    | some x =>
      obtain ⟨s', ch', fs', h1, h2, h3⟩ := pushBack_at R (gives_at hi) (fits_len R hf)
      obtain ⟨t, rfl⟩ := h3
      exact ⟨[], s', _, fs', rfl, h1, h2, carry_append fun _ _ => rfl⟩
  | pushFrontOf i =>
    simp only [listOp, nodeAt_ok R, Out.ret_bind', lstep, hel]
    cases hi : ch[i]? with
    | none => exact ⟨[], s, ch, fs, rfl, rfl, R, front (fun _ => rfl) (.inl ⟨(by decide : failed stInvalidArgument = true), rfl⟩)⟩
    | some x =>
      obtain ⟨s', ch', fs', h1, h2, h3⟩ := pushFront_at R (gives_at hi) (fits_len R hf)
      exact ⟨[], s', ch', fs', rfl, h1, h2, front (fun _ => rfl) h3⟩
  | emplaceBack c =>
    obtain ⟨j, s', ch', fs', h1, h2, h3⟩ := emplaceBack_at R c (fits_len R hf)
    obtain ⟨t, rfl⟩ := h3
    exact ⟨[j], s', _, fs', rfl, h1, h2, carry_append fun _ _ => rfl⟩
  | emplaceFront c =>
    obtain ⟨j, s', ch', fs', h1, h2, h3⟩ := emplaceFront_at R c (fits_len R hf)
    exact ⟨[j], s', ch', fs', rfl, h1, h2, front (fun _ => rfl) h3⟩
  | popBack =>
    rcases last_cases ch with rfl | ⟨c, x, rfl⟩
    · have hd : d.elems = [] := R.elems
      have ht : s.l.tail = none := R.ends.tail
      refine ⟨[], s, [], fs, rfl, ?_, ?_, fun k x hx => by simp at hx⟩
      · simp [listOp, listPopBack, ht, lstep, hd]
      · simpa [lstep, hd] using R
    · obtain ⟨s', fs', h1, h2⟩ := popBack_ok hF R
      have hd : d.elems = c.map Prod.snd ++ [x.2] := by rw [R.elems]; simp
      refine ⟨[], s', c, fs', rfl, ?_, ?_, carry_popBack R.core.nodup⟩
      · simp [listOp, lstep, hd, h1]
      · simpa [lstep, hd] using h2
  | popFront =>
    cases ch with
    | nil =>
      have hd : d.elems = [] := R.elems
      have ht : s.l.head = none := R.ends.head
      refine ⟨[], s, [], fs, rfl, ?_, ?_, fun k x hx => by simp at hx⟩
      · simp [listOp, listPopFront, ht, lstep, hd]
      · simpa [lstep, hd] using R
    | cons x c =>
      obtain ⟨s', fs', h1, h2⟩ := popFront_ok hF R
      have hd : d.elems = x.2 :: c.map Prod.snd := by rw [R.elems]; simp
      refine ⟨[], s', c, fs', rfl, ?_, ?_, carry_popFront R.core.nodup⟩
      · simp [listOp, lstep, hd, h1]
      · simpa [lstep, hd] using h2
  | set i v =>
    simp only [listOp, nodeAt_ok R, Out.ret_bind', lstep, hel]
    cases hi : ch[i]? with
    | none => exact ⟨[], s, ch, fs, rfl, rfl, R, carry_same fun _ _ => rfl⟩
    | some x =>
      obtain ⟨hlt, hxi⟩ := List.getElem?_eq_some_iff.1 hi
      have hsplit : ch = ch.take i ++ x :: ch.drop (i + 1) := by
        rw [← hxi, List.getElem_cons_drop, List.take_append_drop]
      have R' := R
      rw [hsplit] at R'
      obtain ⟨s', h1, h2⟩ := setData_ok R' v
      refine ⟨[], s', ch.take i ++ (x.1, v) :: ch.drop (i + 1), fs, rfl, h1, ?_, carry_set hi⟩
      have he : d.elems.set i v =
          (ch.take i ++ (x.1, v) :: ch.drop (i + 1)).map Prod.snd := by
        rw [R.elems, List.map_append, List.map_cons, List.map_take, List.map_drop,
          List.set_eq_take_append_cons_drop, if_pos (by simpa using hlt)]
      simp only [Option.map_some, he]
      exact h2
  | clear =>
    obtain ⟨junk, s', ch', fs', h1, h2, h3, h4, _⟩ := lresize_at hF R 0 none (by decide)
    refine ⟨[], s', ch', fs', rfl, ?_, ?_, ?_⟩
    · simpa [lstep, listOp, listClear, linit] using h2
    · simpa [lstep] using h3
    · rw [h4 (Nat.zero_le _)]
      exact fun k x _ => ⟨nofun, fun _ => by simp⟩
  | resize n init =>
    obtain ⟨junk, s', ch', fs', h1, h2, h3, h4, h5⟩ := lresize_at hF R n init hf
    exact ⟨junk, s', ch', fs', h1, h2, h3, carry_resize R.core.nodup h4 h5⟩


/-! ## Memory that is gone -/

/-- Every accessible node is live according to the trace. -/
def AllLive (s : LS α) : Prop := ∀ L, liveNodes s.w.trace = some L → ∀ b, (s.mem b).isSome → ∃ x ∈ L, x.2.1 = b

/-- From `s` to `r` nothing that was given back became accessible again, and nothing accessible is unaccounted for. -/
def NoRevive (s r : LS α) : Prop :=
  (AllLive s → AllLive r) ∧ s.w.nextBlk ≤ r.w.nextBlk ∧ ∀ b, b < s.w.nextBlk → s.mem b = none → r.mem b = none

theorem NoRevive.refl (s : LS α) : NoRevive s s := ⟨id, Nat.le_refl _, fun _ _ h => h⟩

theorem NoRevive.trans {s r q : LS α} (h : NoRevive s r) (h' : NoRevive r q) : NoRevive s q :=
  ⟨fun x => h'.1 (h.1 x), Nat.le_trans h.2.1 h'.2.1,
    fun b hb hn => h'.2.2 b (Nat.lt_of_lt_of_le hb h.2.1) (h.2.2 b hb hn)⟩

theorem noRevive_l (s : LS α) (l : ZList) : NoRevive s { s with l := l } := ⟨id, Nat.le_refl _, fun _ _ h => h⟩

theorem noRevive_put {s : LS α} {p : Option Nat} {r : Nat × LNode α} (h : deref s p = .ret r) (n : LNode α) :
    NoRevive s (s.put r.1 (some n)) := by
  have hm : (s.mem r.1).isSome := by
    unfold deref at h
    split at h
    · cases h
    · split at h
      · cases h
      · rename_i _ a _ n' hn
        cases h
        rw [hn]
        rfl
  have key : ∀ b, ((s.put r.1 (some n)).mem b).isSome = (s.mem b).isSome := by
    intro b
    simp only [LS.put]
    split
    · rename_i e
      rw [e, hm]
      rfl
    · rfl
  refine ⟨fun h L hL b hb => h L hL b (by rw [← key]; exact hb), Nat.le_refl _, fun b _ hn => ?_⟩
  have := key b
  rw [hn] at this
  simpa using this

theorem allLive_log {s : LS α} (e : Event α) (h : AllLive s)
    (he : ∀ L, liveNodes (s.w.trace ++ [e]) = some L → liveNodes s.w.trace = some L) : AllLive (s.log e) :=
  fun L hL => h L (he L hL)

theorem noRevive_quiet {s : LS α} {e : Event α} (h : (∃ x, e = .destroy x) ∨ ∃ a, e = .refused a) :
    NoRevive s (s.log e) := by
  refine ⟨fun hs => allLive_log e hs fun L hL => ?_, Nat.le_refl _, fun _ _ h => h⟩
  rw [liveNodes_append] at hL
  cases ht : liveNodes s.w.trace with
  | none => rcases h with ⟨x, rfl⟩ | ⟨a, rfl⟩ <;> simp [ht, nodesStep] at hL
  | some M => rcases h with ⟨x, rfl⟩ | ⟨a, rfl⟩ <;> simpa [ht, nodesStep] using hL

theorem noRevive_calls (s : LS α) (c f : Nat) : NoRevive s { s with w := { s.w with calls := c, frees := f } } :=
  ⟨id, Nat.le_refl _, fun _ _ h => h⟩

theorem storeNext_noRevive (s : LS α) (p v : Option Nat) : Ensures (storeNext s p v) (NoRevive s) :=
  Ensures.bind (Q := fun r => deref s p = .ret r) (fun _ h => h) fun _ h => ensures_ret (noRevive_put h _)

theorem storePrev_noRevive (s : LS α) (p v : Option Nat) : Ensures (storePrev s p v) (NoRevive s) :=
  Ensures.bind (Q := fun r => deref s p = .ret r) (fun _ h => h) fun _ h => ensures_ret (noRevive_put h _)

theorem copyData_noRevive (s : LS α) (p : Option Nat) (x : LSrc α) : Ensures (copyData s p x) (NoRevive s) :=
  (ensures_any _).bind fun _ _ =>
    Ensures.bind (Q := fun r => deref s p = .ret r) (fun _ h => h) fun _ h => ensures_ret (noRevive_put h _)

theorem destroyData_noRevive (s : LS α) (p : Option Nat) : Ensures (destroyData s p) (NoRevive s) :=
  ensures_ite (fun _ => (ensures_any _).bind fun _ _ => ensures_ret (noRevive_quiet (.inl ⟨_, rfl⟩))) fun _ =>
    ensures_ret (.refl s)

theorem nodeAllocate_noRevive (s : LS α) (a : Nat) : NoRevive s (nodeAllocate s a).2.2 := by
  unfold nodeAllocate
  dsimp only
  split
  · exact (noRevive_calls s _ _).trans (noRevive_quiet (.inr ⟨_, rfl⟩))
  · refine ⟨fun h L hL b hb => ?_, Nat.le_succ _, fun b hb hn => ?_⟩
    · simp only [LS.log, LS.put] at hL hb
      rw [liveNodes_append] at hL
      cases ht : liveNodes s.w.trace with
      | none => simp [ht, nodesStep] at hL
      | some M =>
        rw [ht] at hL
        simp only [nodesStep] at hL
        split at hL
        · cases hL
        · cases hL
          by_cases e : b = s.w.nextBlk
          · exact ⟨_, List.mem_cons_self, e.symm⟩
          · rw [if_neg e] at hb
            obtain ⟨x, hx, hxb⟩ := h M ht b hb
            exact ⟨x, List.mem_cons_of_mem _ hx, hxb⟩
    · simp only [LS.log, LS.put]
      rw [if_neg (by omega)]
      exact hn

theorem nodeDeallocate_noRevive (s : LS α) (a : Nat) (p : Option Nat) :
    Ensures (nodeDeallocate s a p) fun r => NoRevive s r.2 := by
  refine (ensures_any _).bind fun r _ => ensures_ite (fun _ => ensures_ret ?_) fun _ => ensures_ret ?_
  · exact (noRevive_calls s _ _).trans (noRevive_quiet (.inr ⟨_, rfl⟩))
  · refine ⟨fun h L hL b hb => ?_, Nat.le_refl _, fun b _ hn => ?_⟩
    · simp only [LS.log, LS.put] at hL hb
      rw [liveNodes_append] at hL
      cases ht : liveNodes s.w.trace with
      | none => simp [ht, nodesStep] at hL
      | some M =>
        rw [ht] at hL
        simp only [nodesStep] at hL
        split at hL
        · cases hL
          by_cases e : b = r.1
          · rw [if_pos e] at hb
            cases hb
          · rw [if_neg e] at hb
            obtain ⟨x, hx, hxb⟩ := h M ht b hb
            refine ⟨x, (List.mem_erase_of_ne fun e' => e ?_).2 hx, hxb⟩
            rw [← hxb, e']
        · cases hL
    · simp only [LS.log, LS.put]
      split
      · rfl
      · exact hn

theorem listAllocateNode_noRevive (s : LS α) : Ensures (listAllocateNode s) fun r => NoRevive s r.2.2 := by
  unfold listAllocateNode
  split
  · exact ensures_ite (fun _ => ensures_ret (nodeAllocate_noRevive _ _)) fun _ =>
      ensures_ret (nodeAllocate_noRevive _ _)
  · exact ensures_ite (fun _ => (ensures_any _).bind fun _ _ => ensures_ret (noRevive_l s _)) fun _ =>
      ensures_ite (fun _ => ensures_ret (.refl s)) fun _ => ensures_ret (.refl s)

theorem listDeallocateNode_noRevive (s : LS α) (p : Option Nat) :
    Ensures (listDeallocateNode s p) fun r => NoRevive s r.2 := by
  unfold listDeallocateNode
  split
  · exact (nodeDeallocate_noRevive s _ p).bind fun _ h =>
      ensures_ite (fun _ => ensures_ret h) fun _ => ensures_ret h
  · exact (storeNext_noRevive s _ _).bind fun r h => ensures_ret (h.trans (noRevive_l r _))

theorem initBack_noRevive (s : LS α) (p : Option Nat) : Ensures (initBack s p) (NoRevive s) :=
  (storePrev_noRevive s _ _).bind fun _ h => (storeNext_noRevive _ _ _).imp fun _ h' => h.trans h'

theorem initFront_noRevive (s : LS α) (p : Option Nat) : Ensures (initFront s p) (NoRevive s) :=
  (storePrev_noRevive s _ _).bind fun _ h => (storeNext_noRevive _ _ _).imp fun _ h' => h.trans h'

theorem linkBack_noRevive (s : LS α) (p : Option Nat) : Ensures (linkBack s p) (NoRevive s) :=
  Ensures.bind (Q := NoRevive s) (ensures_ite (fun _ => ensures_ret (noRevive_l s _)) fun _ =>
    (storeNext_noRevive s _ _).bind fun r h => ensures_ret (h.trans (noRevive_l r _)))
    fun r h => ensures_ret (h.trans (noRevive_l r _))

theorem linkFront_noRevive (s : LS α) (p : Option Nat) : Ensures (linkFront s p) (NoRevive s) :=
  Ensures.bind (Q := NoRevive s) (ensures_ite (fun _ => ensures_ret (noRevive_l s _)) fun _ =>
    (storePrev_noRevive s _ _).bind fun r h => ensures_ret (h.trans (noRevive_l r _)))
    fun r h => ensures_ret (h.trans (noRevive_l r _))

theorem construct_noRevive (s : LS α) (p : Option Nat) (c : Ctor α) : Ensures (construct s p c) (NoRevive s) := by
  unfold construct
  split
  · exact ensures_ret (.refl s)
  · exact Ensures.bind (Q := fun r => deref s p = .ret r) (fun _ h => h) fun _ h => ensures_ret (noRevive_put h _)

theorem unlinkTail_noRevive (s : LS α) (p : Option Nat) : Ensures (unlinkTail s p) (NoRevive s) :=
  (ensures_any _).bind fun _ _ => ensures_ite (fun _ => (storeNext_noRevive _ _ _).imp fun _ h =>
    (noRevive_l s _).trans h) fun _ => ensures_ret (noRevive_l s _)

theorem unlinkHead_noRevive (s : LS α) (p : Option Nat) : Ensures (unlinkHead s p) (NoRevive s) :=
  (ensures_any _).bind fun _ _ => ensures_ite (fun _ => (storePrev_noRevive _ _ _).imp fun _ h =>
    (noRevive_l s _).trans h) fun _ => ensures_ret (noRevive_l s _)

theorem listPushBack_noRevive (s : LS α) (x : LSrc α) : Ensures (listPushBack s x) fun r => NoRevive s r.2 :=
  ensures_ite (fun _ => ensures_ret (.refl s)) fun _ => (listAllocateNode_noRevive s).bind fun _ h =>
    ensures_ite (fun _ => ensures_ret h) fun _ => (initBack_noRevive _ _).bind fun _ h1 =>
      (copyData_noRevive _ _ _).bind fun _ h2 => (linkBack_noRevive _ _).bind fun _ h3 =>
        ensures_ret (((h.trans h1).trans h2).trans h3)

theorem listPushFront_noRevive (s : LS α) (x : LSrc α) : Ensures (listPushFront s x) fun r => NoRevive s r.2 :=
  ensures_ite (fun _ => ensures_ret (.refl s)) fun _ => (listAllocateNode_noRevive s).bind fun _ h =>
    ensures_ite (fun _ => ensures_ret h) fun _ => (initFront_noRevive _ _).bind fun _ h1 =>
      (copyData_noRevive _ _ _).bind fun _ h2 => (linkFront_noRevive _ _).bind fun _ h3 =>
        ensures_ret (((h.trans h1).trans h2).trans h3)

theorem listEmplaceBack_noRevive (s : LS α) (c : Ctor α) : Ensures (listEmplaceBack s c) fun r => NoRevive s r.2 :=
  (listAllocateNode_noRevive s).bind fun _ h =>
    ensures_ite (fun _ => ensures_ret h) fun _ => (initBack_noRevive _ _).bind fun _ h1 =>
      (construct_noRevive _ _ _).bind fun _ h2 => (linkBack_noRevive _ _).bind fun _ h3 =>
        ensures_ret (((h.trans h1).trans h2).trans h3)

theorem listEmplaceFront_noRevive (s : LS α) (c : Ctor α) : Ensures (listEmplaceFront s c) fun r => NoRevive s r.2 :=
  (listAllocateNode_noRevive s).bind fun _ h =>
    ensures_ite (fun _ => ensures_ret h) fun _ => (initFront_noRevive _ _).bind fun _ h1 =>
      (construct_noRevive _ _ _).bind fun _ h2 => (linkFront_noRevive _ _).bind fun _ h3 =>
        ensures_ret (((h.trans h1).trans h2).trans h3)

theorem listPopBack_noRevive (s : LS α) : Ensures (listPopBack s) fun r => NoRevive s r.2 := by
  refine ensures_ite (fun _ => ensures_ret (.refl s)) fun _ => (destroyData_noRevive s _).bind fun r h1 =>
    (unlinkTail_noRevive r _).bind fun q h2 => (listDeallocateNode_noRevive _ _).imp fun p h3 =>
    (h1.trans h2).trans (NoRevive.trans ?_ h3)
  split <;> exact noRevive_l q _

theorem listPopFront_noRevive (s : LS α) : Ensures (listPopFront s) fun r => NoRevive s r.2 := by
  refine ensures_ite (fun _ => ensures_ret (.refl s)) fun _ => (destroyData_noRevive s _).bind fun r h1 =>
    (unlinkHead_noRevive r _).bind fun q h2 => (listDeallocateNode_noRevive _ _).imp fun p h3 =>
    (h1.trans h2).trans (NoRevive.trans ?_ h3)
  split <;> exact noRevive_l q _

theorem listSetNodeData_noRevive (s : LS α) (p : Option Nat) (x : LSrc α) :
    Ensures (listSetNodeData s p x) fun r => NoRevive s r.2 :=
  ensures_ite (fun _ => ensures_ret (.refl s)) fun _ => (destroyData_noRevive s _).bind fun _ h1 =>
    (copyData_noRevive _ _ _).bind fun _ h2 => ensures_ret (h1.trans h2)

theorem growLoop_noRevive (init : LSrc α) : ∀ (k : Nat) (s : LS α),
    Ensures (growLoop init s k) fun r => NoRevive s r.2
  | 0, s => ensures_ret (.refl s)
  | k + 1, s => (listAllocateNode_noRevive s).bind fun _ h =>
    ensures_ite (fun _ => ensures_ret h) fun _ => (initBack_noRevive _ _).bind fun q h1 =>
      Ensures.bind (Q := NoRevive q) (ensures_ite (fun _ => ensures_ret (.refl q)) fun _ => copyData_noRevive _ _ _)
        fun _ h2 => (linkBack_noRevive _ _).bind fun _ h3 => (growLoop_noRevive init k _).imp fun _ h4 =>
          (((h.trans h1).trans h2).trans h3).trans h4

theorem shrinkLoop_noRevive : ∀ (k : Nat) (s : LS α), Ensures (shrinkLoop s k) fun r => NoRevive s r.2
  | 0, s => ensures_ret (.refl s)
  | k + 1, s => (destroyData_noRevive s _).bind fun _ h1 => (unlinkTail_noRevive _ _).bind fun _ h2 =>
      (listDeallocateNode_noRevive _ _).bind fun _ h3 => ensures_ite
        (fun _ => ensures_ret ((h1.trans h2).trans h3)) fun _ =>
          (shrinkLoop_noRevive k _).imp fun _ h4 => ((h1.trans h2).trans h3).trans h4

theorem freeLoop_noRevive : ∀ (k : Nat) (s : LS α) (p : Option Nat),
    Ensures (freeLoop s p k) fun r => NoRevive s r.2
  | 0, s, p => ensures_ite (fun _ => ensures_ub) fun _ => ensures_ret (.refl s)
  | k + 1, s, p => by
    refine ensures_ite (fun _ => (destroyData_noRevive s _).bind fun r h1 => (ensures_any _).bind fun n _ => ?_)
      fun _ => ensures_ret (.refl s)
    split
    · exact (nodeDeallocate_noRevive _ _ _).bind fun _ h2 => ensures_ite (fun _ => ensures_ret (h1.trans h2))
        fun _ => (freeLoop_noRevive k _ _).imp fun _ h3 => (h1.trans h2).trans h3
    · exact (freeLoop_noRevive k _ _).imp fun _ h3 => h1.trans h3

theorem listResizeEx_noRevive (s : LS α) (n : Nat) (x : LSrc α) :
    Ensures (listResizeEx s n x) fun r => NoRevive s r.2 := by
  refine ensures_ite (fun _ => ensures_ret (.refl s)) fun _ => ensures_ite (fun _ => ?_) fun _ =>
    ensures_ite (fun _ => growLoop_noRevive _ _ _) fun _ => ?_
  · refine (freeLoop_noRevive _ _ _).bind fun r h => ?_
    split
    · exact ensures_ret h
    · exact ensures_ret (h.trans (noRevive_l r.2 _))
  · refine (shrinkLoop_noRevive _ _).bind fun r h => ?_
    split
    · exact ensures_ret h
    · exact ensures_ret (h.trans (noRevive_l r.2 _))

theorem listOp_noRevive (s : LS α) (op : LOp α) : Ensures (listOp s op) fun r => NoRevive s r.2 := by
  cases op with
  | pushBack x => exact listPushBack_noRevive s _
  | pushFront x => exact listPushFront_noRevive s _
  | pushBackOf i => exact (ensures_any _).bind fun _ _ => listPushBack_noRevive s _
  | pushFrontOf i => exact (ensures_any _).bind fun _ _ => listPushFront_noRevive s _
  | emplaceBack c => exact listEmplaceBack_noRevive s c
  | emplaceFront c => exact listEmplaceFront_noRevive s c
  | popBack => exact listPopBack_noRevive s
  | popFront => exact listPopFront_noRevive s
  | set i x => exact (ensures_any _).bind fun _ _ => listSetNodeData_noRevive s _ _
  | clear => exact listResizeEx_noRevive s _ _
  | resize n init => exact listResizeEx_noRevive s _ _

theorem runList_noRevive : ∀ (ops : List (LOp α)) (s : LS α), Ensures (runList s ops) fun r => NoRevive s r.2
  | [], s => ensures_ret (.refl s)
  | op :: ops, s => (listOp_noRevive s op).bind fun _ h => (runList_noRevive ops _).bind fun _ h' =>
      ensures_ret (h.trans h')

theorem created_allLive {answer : Nat → Status} {dt : Bool} {s : LS α} (h : Created (.dynamic answer) dt s) :
    AllLive s := by
  cases h with
  | dynamic => exact fun _ _ _ hb => by cases hb

/-! ## Nodes of a caller buffer -/

theorem storeNext_l (s : LS α) (p v : Option Nat) : Ensures (storeNext s p v) fun r => r.l = s.l :=
  (ensures_any _).bind fun _ _ => ensures_ret rfl

theorem storePrev_l (s : LS α) (p v : Option Nat) : Ensures (storePrev s p v) fun r => r.l = s.l :=
  (ensures_any _).bind fun _ _ => ensures_ret rfl

theorem destroyData_hdr (s : LS α) (p : Option Nat) : Ensures (destroyData s p) fun r => r.l = s.l :=
  ensures_ite (fun _ => (ensures_any _).bind fun _ _ => ensures_ret rfl) fun _ => ensures_ret rfl

theorem unlinkTail_buffer (s : LS α) (p : Option Nat) :
    Ensures (unlinkTail s p) fun r => r.l.allocator = s.l.allocator :=
  (ensures_any _).bind fun _ _ => ensures_ite (fun _ => (storeNext_l _ _ _).imp fun _ h => by rw [h]) fun _ =>
    ensures_ret rfl

theorem unlinkHead_buffer (s : LS α) (p : Option Nat) :
    Ensures (unlinkHead s p) fun r => r.l.allocator = s.l.allocator :=
  (ensures_any _).bind fun _ _ => ensures_ite (fun _ => (storePrev_l _ _ _).imp fun _ h => by rw [h]) fun _ =>
    ensures_ret rfl

theorem deallocate_buffer (s : LS α) (p : Option Nat) (h : s.l.allocator = none) :
    Ensures (listDeallocateNode s p) fun r => r.2.l.allocator = none ∧ r.2.l.firstUnused = p := by
  unfold listDeallocateNode
  rw [h]
  exact (storeNext_l _ _ _).bind fun _ h' => ensures_ret ⟨by rw [h']; exact h, rfl⟩

theorem deallocate_buffer_size (s : LS α) (p : Option Nat) (n : Nat) (h : s.l.allocator = none) :
    Ensures (listDeallocateNode { s with l := { s.l with size := n } } p) fun r =>
      r.2.l.allocator = none ∧ r.2.l.firstUnused = p := deallocate_buffer _ p h

theorem popBack_buffer (s : LS α) (h : s.l.allocator = none) (ht : s.l.tail.isNone = false) :
    Ensures (listPopBack s) fun r => r.2.l.allocator = none ∧ r.2.l.firstUnused = s.l.tail := by
  refine ensures_ite (fun e => by rw [ht] at e; cases e) fun _ => (destroyData_hdr _ _).bind fun q h1 => (unlinkTail_buffer _ _).bind fun q' h2 => deallocate_buffer_size _ _ _ ?_
  split <;> exact h2.trans (by rw [h1]; exact h)

theorem popFront_buffer (s : LS α) (h : s.l.allocator = none) (ht : s.l.head.isNone = false) :
    Ensures (listPopFront s) fun r => r.2.l.allocator = none ∧ r.2.l.firstUnused = s.l.head := by
  refine ensures_ite (fun e => by rw [ht] at e; cases e) fun _ => (destroyData_hdr _ _).bind fun q h1 => (unlinkHead_buffer _ _).bind fun q' h2 => deallocate_buffer_size _ _ _ ?_
  split <;> exact h2.trans (by rw [h1]; exact h)

theorem allocate_buffer (s : LS α) (a : Nat) (h : s.l.allocator = none) (hu : s.l.firstUnused = some a) :
    Ensures (listAllocateNode s) fun r => r.1 = stSuccess ∧ r.2.1 = some a := by
  unfold listAllocateNode
  rw [h, hu]
  exact (ensures_any _).bind fun _ _ => ensures_ret ⟨rfl, rfl⟩

theorem linkBack_end (s : LS α) (p : Option Nat) : Ensures (linkBack s p) fun r => r.l.tail = p :=
  Ensures.bind (Q := fun r => r.l.tail = p) (ensures_ite (fun _ => ensures_ret rfl) fun _ =>
    (ensures_any _).bind fun _ _ => ensures_ret rfl) fun _ h => ensures_ret h

theorem linkFront_end (s : LS α) (p : Option Nat) : Ensures (linkFront s p) fun r => r.l.head = p :=
  Ensures.bind (Q := fun r => r.l.head = p) (ensures_ite (fun _ => ensures_ret rfl) fun _ =>
    (ensures_any _).bind fun _ _ => ensures_ret rfl) fun _ h => ensures_ret h

theorem pushBack_buffer (s : LS α) (a : Nat) (x : Cell α) (h : s.l.allocator = none)
    (hu : s.l.firstUnused = some a) :
    Ensures (listPushBack s (.ext x)) fun r => r.1 = stSuccess ∧ r.2.l.tail = some a :=
  (allocate_buffer s a h hu).bind fun r ⟨h1, h2⟩ => ensures_ite
    (fun e => by rw [h1] at e; exact absurd e (by decide)) fun _ => by
    rw [h2]
    exact (ensures_any _).bind fun _ _ => (ensures_any _).bind fun _ _ => (linkBack_end _ _).bind fun _ h3 =>
      ensures_ret ⟨rfl, h3⟩

theorem pushFront_buffer (s : LS α) (a : Nat) (x : Cell α) (h : s.l.allocator = none)
    (hu : s.l.firstUnused = some a) :
    Ensures (listPushFront s (.ext x)) fun r => r.1 = stSuccess ∧ r.2.l.head = some a :=
  (allocate_buffer s a h hu).bind fun r ⟨h1, h2⟩ => ensures_ite
    (fun e => by rw [h1] at e; exact absurd e (by decide)) fun _ => by
    rw [h2]
    exact (ensures_any _).bind fun _ _ => (ensures_any _).bind fun _ _ => (linkFront_end _ _).bind fun _ h3 =>
      ensures_ret ⟨rfl, h3⟩

/-! ## Histories -/

theorem allFit_split {K : Source} {dt : Bool} {ys : List (LOp α)} : ∀ {xs : List (LOp α)} {d d' : Deque α}
    {sts : List Status}, LAllFit K dt d (xs ++ ys) → LRuns K dt d xs sts d' → LAllFit K dt d' ys := by
  intro xs
  induction xs with
  | nil => intro d d' sts h hr; cases hr; exact h
  | cons x xs ih =>
    intro d d' sts h hr
    cases hr with
    | cons junk hj hs ht =>
      cases h with
      | cons h1 h2 =>
        have := h2 junk hj
        rw [hs] at this
        exact ih this ht

theorem allFit_prefix {K : Source} {dt : Bool} {ys : List (LOp α)} : ∀ {xs : List (LOp α)} {d : Deque α},
    LAllFit K dt d (xs ++ ys) → LAllFit K dt d xs := by
  intro xs
  induction xs with
  | nil => intro d h; exact .nil d
  | cons x xs ih =>
    intro d h
    cases h with
    | cons h1 h2 => exact .cons h1 fun j hj => ih (h2 j hj)

/-- The state before and after a call late in a history. -/
theorem late_call {K : Source} {dt : Bool} {s0 s s' : LS α} (h : Created K dt s0) {ops : List (LOp α)} {op : LOp α}
    (hf : LAllFit K dt emptyDeque (ops ++ [op])) {sts : List Status} (hr : runList s0 ops = .ret (sts, s))
    {st : Status} (hs : listOp s op = .ret (st, s')) :
    ∃ ch fs d ch' fs' d', LRep (FreeFor K s0.l) K dt s ch fs d ∧ LRep (FreeFor K s0.l) K dt s' ch' fs' d' ∧
      Carry ch st op ch' := by
  obtain ⟨sts1, s1, ch, fs, d, h1, h2, R⟩ :=
    runList_ok (freeFor_ok K s0.l) ops (created_ok h) (allFit_prefix hf)
  obtain ⟨rfl, rfl⟩ : sts1 = sts ∧ s1 = s := by rw [h1] at hr; cases hr; exact ⟨rfl, rfl⟩
  cases allFit_split hf h2 with
  | cons hop _ =>
    obtain ⟨junk, s2, ch', fs', _, h3, R', hc⟩ := listOp_at (freeFor_ok K s0.l) R op hop
    rw [hs] at h3
    cases h3
    exact ⟨ch, fs, d, ch', fs', _, R, R', hc⟩

theorem seg_data {mem : Nat → Option (LNode α)} : ∀ {ch : List (Nat × Cell α)} {pr nx : Option Nat},
    Seg mem pr ch nx → ∀ {k : Nat} {x : Nat × Cell α}, ch[k]? = some x → ∃ n, mem x.1 = some n ∧ n.data = x.2 := by
  intro ch
  induction ch with
  | nil => intro pr nx _ k x hx; simp at hx
  | cons y ch ih =>
    intro pr nx h k x hx
    cases k with
    | zero => cases hx; exact ⟨_, h.1, rfl⟩
    | succ k => exact ih h.2 hx

theorem get_of_mem {s : LS α} {a : Nat} {n : LNode α} (h : s.mem a = some n) : listGet s (some a) = .ret n.data := by
  simp only [listGet, listNodeData, readSrc, deref, h]
  rfl

theorem get_gone {s : LS α} {a : Nat} (h : s.mem a = none) : listGet s (some a) = .ub .uaf := by
  simp only [listGet, listNodeData, readSrc, deref, h]
  rfl

/-- A node of a dynamic list that is not in the chain is not accessible. -/
theorem gone_of_not_mem {answer : Nat → Status} {dt : Bool} {s : LS α} {ch : List (Nat × Cell α)} {fs : List Nat}
    {d : Deque α} (R : LRep F (.dynamic answer) dt s ch fs d) (hl : AllLive s) {a : Nat}
    (ha : a ∉ ch.map Prod.fst) : s.mem a = none := by
  obtain ⟨_, _, _, _, _, _, _, L, h7, h8⟩ := R.core.src
  cases hm : s.mem a with
  | none => rfl
  | some n =>
    obtain ⟨x, hx, hxa⟩ := hl L h7 a (by rw [hm]; rfl)
    have := h8.mem_iff.1 hx
    rw [List.append_nil, List.mem_map] at this
    obtain ⟨p, hp, rfl⟩ := this
    exact absurd (hxa ▸ hp) ha

end Zy
