import Verif.Lemmas.ListReach

/-!
# Lemmas for the list properties
-/

namespace Zy

open Spec

variable {α : Type} {F : (Nat → Status) → Nat × Nat → Prop}

/-- What is known about giving memory back: it works, if the list is dynamic. Element size and capacity
are those of `l`. -/
def FreeFor (K : Source) (l : ZList) (f : Nat → Status) (g : Nat × Nat) : Prop :=
  (∀ a, K = .dynamic a → ∀ k, failed (f k) = false) ∧ g = (l.esz, l.capacity)

theorem freeFor_ok (K : Source) (l : ZList) : FreesOK (FreeFor K l) K := fun _ _ h a e k => h.1 a e k

theorem created_ok {K : Source} {dt : Bool} {s : LS α} (h : Created K dt s) :
    LRep (FreeFor K s.l) K dt s [] [] emptyDeque := by
  refine created_rep h ⟨?_, rfl⟩
  cases h with
  | dynamic _ hf _ _ => intro _ _; exact hf
  | fixed _ _ _ _ => intro a e; cases e

/-! ## Links -/

theorem firstOf_head (ch : List (Nat × Cell α)) : firstOf ch none = (ch.map Prod.fst).head? := by
  cases ch <;> rfl

theorem lastOf_getLast (ch : List (Nat × Cell α)) : lastOf none ch = (ch.map Prod.fst).getLast? := by
  rcases last_cases ch with rfl | ⟨c, x, rfl⟩
  · rfl
  · rw [lastOf_concat]; simp

theorem seg_getElem {m : Nat → Option (LNode α)} (ch : List (Nat × Cell α)) {p : Option Nat}
    (h : Seg m p ch none) (i : Nat) (hi : i < ch.length) :
    m (ch[i]).1 = some ⟨some (if i = 0 then p else (ch.map Prod.fst)[i - 1]?),
      some (ch.map Prod.fst)[i + 1]?, (ch[i]).2⟩ := by
  induction ch generalizing p i with
  | nil => simp at hi
  | cons x c ih =>
    cases i with
    | zero =>
      have := h.1
      rw [firstOf_head] at this
      simp only [List.getElem_cons_zero, this, if_true, List.map_cons, List.getElem?_cons_succ,
        List.head?_eq_getElem?]
    | succ i =>
      have := ih h.2 i (by simpa using hi)
      simp only [List.getElem_cons_succ, this, List.map_cons, List.getElem?_cons_succ]
      cases i <;> simp

theorem linked_seg {s : LS α} {ch : List (Nat × Cell α)} (hs : Seg s.mem none ch none)
    (E : Ends s.l ch) (hn : (ch.map Prod.fst).Nodup) : LinkedBy s (ch.map Prod.fst) := by
  refine ⟨hn, by simp [listGetSize, E.size], ?_, ?_, ?_⟩
  · rw [← firstOf_head]; exact E.head
  · rw [← lastOf_getLast]; exact E.tail
  · intro i hi
    rw [List.length_map] at hi
    refine ⟨_, by rw [List.getElem_map]; exact seg_getElem ch hs i hi, rfl, ?_⟩
    by_cases h0 : i = 0 <;> simp [h0]

theorem linked_of_rep {K : Source} {dt : Bool} {s : LS α} {ch : List (Nat × Cell α)} {fs : List Nat}
    {d : Deque α} (R : LRep F K dt s ch fs d) : LinkedBy s (ch.map Prod.fst) :=
  linked_seg R.core.seg R.ends (List.nodup_append.1 (List.nodup_append.1 R.core.nodup).1).1

theorem inBuffer_of_rep {n : Nat} {dt : Bool} {s : LS α} {ch : List (Nat × Cell α)} {fs : List Nat}
    {d : Deque α} (R : LRep F (.fixed n) dt s ch fs d) :
    InBuffer s.l.capacity (16 + s.l.esz) (ch.map Prod.fst) := by
  obtain ⟨h1, h2, h3, h4, h5, h6, h7⟩ := R.core.src
  have key : ∀ a ∈ ch.map Prod.fst, ∃ k, k < n ∧ a = k * (16 + s.l.esz) := by
    intro a ha
    obtain ⟨k, hk, e⟩ := h5 a (by
      rw [List.append_nil]; exact List.mem_append_left _ ha)
    exact ⟨k, by omega, e⟩
  refine ⟨?_, ?_⟩
  · intro a ha
    obtain ⟨k, hk, rfl⟩ := key a ha
    have := Nat.le_trans (Nat.mul_le_mul_right (16 + s.l.esz) (Nat.succ_le_of_lt (h2 ▸ hk)))
      (Nat.div_mul_le_self s.l.capacity (16 + s.l.esz))
    rw [Nat.succ_mul] at this
    exact this
  · intro a ha b hb hne
    obtain ⟨k, hk, rfl⟩ := key a ha
    obtain ⟨j, hj, rfl⟩ := key b hb
    rcases Nat.lt_trichotomy k j with h | h | h
    · left
      have := Nat.mul_le_mul_right (16 + s.l.esz) (Nat.succ_le_of_lt h)
      rw [Nat.succ_mul] at this; exact this
    · exact absurd (by rw [h]) hne
    · right
      have := Nat.mul_le_mul_right (16 + s.l.esz) (Nat.succ_le_of_lt h)
      rw [Nat.succ_mul] at this; exact this

/-- The addresses of a list in a buffer are multiples of the node size. -/
theorem grid_of_rep {n : Nat} {dt : Bool} {s : LS α} {ch : List (Nat × Cell α)} {fs : List Nat}
    {d : Deque α} (R : LRep F (.fixed n) dt s ch fs d) :
    ∀ a ∈ ch.map Prod.fst, ∃ k, a = k * (16 + s.l.esz) := by
  obtain ⟨h1, h2, h3, h4, h5, h6, h7⟩ := R.core.src
  intro a ha
  obtain ⟨k, _, e⟩ := h5 a (by rw [List.append_nil]; exact List.mem_append_left _ ha)
  exact ⟨k, e⟩

/-! ## Conservation of elements -/

theorem addBack_cases (K : Source) (s : Deque α) (x : Cell α) :
    ((addBack K s x).1 = answerOf K s ∧ failed (answerOf K s) = true ∧
      (addBack K s x).2 = { s with asked := s.asked + 1 }) ∨
    ((addBack K s x).1 = stSuccess ∧
      (addBack K s x).2 = { s with elems := s.elems ++ [x], asked := s.asked + 1 }) := by
  unfold addBack
  cases h : failed (answerOf K s) <;> simp

theorem addFront_cases (K : Source) (s : Deque α) (x : Cell α) :
    ((addFront K s x).1 = answerOf K s ∧ failed (answerOf K s) = true ∧
      (addFront K s x).2 = { s with asked := s.asked + 1 }) ∨
    ((addFront K s x).1 = stSuccess ∧
      (addFront K s x).2 = { s with elems := x :: s.elems, asked := s.asked + 1 }) := by
  unfold addFront
  cases h : failed (answerOf K s) <;> simp

theorem addMany_prefix (K : Source) (xs : List (Cell α)) (s : Deque α) :
    ∃ k, (addMany K s xs).2.elems = s.elems ++ xs.take k ∧ (addMany K s xs).2.dead = s.dead := by
  induction xs generalizing s with
  | nil => exact ⟨0, by simp [addMany]⟩
  | cons x xs ih =>
    simp only [addMany]
    rcases addBack_cases K s x with ⟨h1, h2, h3⟩ | ⟨h1, h2⟩
    · refine ⟨0, ?_⟩
      rw [h1, h2, if_pos rfl, h3]; simp
    · obtain ⟨k, h4, h5⟩ := ih (addBack K s x).2
      refine ⟨k + 1, ?_⟩
      rw [h1, failed_success, if_neg Bool.false_ne_true, h4, h5, h2]
      simp

theorem addBack_eq (K : Source) (s : Deque α) (x : Cell α) :
    (failed (answerOf K s) = true ∧ addBack K s x = (answerOf K s, { s with asked := s.asked + 1 })) ∨
    addBack K s x = (stSuccess, { s with elems := s.elems ++ [x], asked := s.asked + 1 }) := by
  unfold addBack
  cases h : failed (answerOf K s) <;> simp

theorem addFront_eq (K : Source) (s : Deque α) (x : Cell α) :
    (failed (answerOf K s) = true ∧
      addFront K s x = (answerOf K s, { s with asked := s.asked + 1 })) ∨
    addFront K s x = (stSuccess, { s with elems := x :: s.elems, asked := s.asked + 1 }) := by
  unfold addFront
  cases h : failed (answerOf K s) <;> simp

/-- One step of the queue neither loses nor duplicates an element. -/
theorem lstep_conserves (K : Source) (junk : List (Cell α)) (d d' : Deque α) (op : LOp α)
    (st : Status) (hr : lstep K true junk d op = (st, d')) :
    (d'.dead ++ d'.elems).Perm (d.dead ++ d.elems ++ lstored d.elems op st d'.elems) := by
  have hfr : ∀ x : Cell α, (d.dead ++ x :: d.elems).Perm (d.dead ++ d.elems ++ [x]) := by
    intro x
    rw [List.append_assoc]
    exact List.Perm.append_left _ (List.perm_append_comm (l₁ := [x]))
  have hB : ∀ x, addBack K d x = (st, d') → (d'.dead ++ d'.elems).Perm
      (d.dead ++ d.elems ++ if failed st = true then [] else [x]) := by
    intro x h
    rcases addBack_eq K d x with ⟨h1, h2⟩ | h2
    · obtain ⟨rfl, rfl⟩ := Prod.mk.inj (h2.symm.trans h)
      rw [if_pos h1]; simp
    · obtain ⟨rfl, rfl⟩ := Prod.mk.inj (h2.symm.trans h)
      rw [if_neg (by decide)]; simp
  have hFr : ∀ x, addFront K d x = (st, d') → (d'.dead ++ d'.elems).Perm
      (d.dead ++ d.elems ++ if failed st = true then [] else [x]) := by
    intro x h
    rcases addFront_eq K d x with ⟨h1, h2⟩ | h2
    · obtain ⟨rfl, rfl⟩ := Prod.mk.inj (h2.symm.trans h)
      rw [if_pos h1]; simp
    · obtain ⟨rfl, rfl⟩ := Prod.mk.inj (h2.symm.trans h)
      rw [if_neg (by decide)]; exact hfr x
  cases op with
  | pushBack x => exact hB x hr
  | pushFront x => exact hFr x hr
  | pushBackOf i =>
    simp only [lstep, lstored] at hr ⊢
    cases hi : d.elems[i]? with
    | none =>
      rw [hi] at hr
      obtain ⟨rfl, rfl⟩ := Prod.mk.inj hr
      simp
    | some x => rw [hi] at hr; exact hB x hr
  | pushFrontOf i =>
    simp only [lstep, lstored] at hr ⊢
    cases hi : d.elems[i]? with
    | none =>
      rw [hi] at hr
      obtain ⟨rfl, rfl⟩ := Prod.mk.inj hr
      simp
    | some x => rw [hi] at hr; exact hFr x hr
  | emplaceBack c =>
    simp only [lstep, lstored] at hr ⊢
    rcases addBack_eq K d (constructed c junk.head?.join) with ⟨h1, h2⟩ | h2
    · obtain ⟨rfl, rfl⟩ := Prod.mk.inj (h2.symm.trans hr)
      rw [if_pos h1]; simp
    · obtain ⟨rfl, rfl⟩ := Prod.mk.inj (h2.symm.trans hr)
      rw [if_neg (by decide)]; simp
  | emplaceFront c =>
    simp only [lstep, lstored] at hr ⊢
    rcases addFront_eq K d (constructed c junk.head?.join) with ⟨h1, h2⟩ | h2
    · obtain ⟨rfl, rfl⟩ := Prod.mk.inj (h2.symm.trans hr)
      rw [if_pos h1]; simp
    · obtain ⟨rfl, rfl⟩ := Prod.mk.inj (h2.symm.trans hr)
      rw [if_neg (by decide)]; exact hfr _
  | popBack =>
    simp only [lstep, lstored, List.append_nil] at hr ⊢
    split at hr
    · obtain ⟨rfl, rfl⟩ := Prod.mk.inj hr
      exact List.Perm.refl _
    · next h =>
      obtain ⟨rfl, rfl⟩ := Prod.mk.inj hr
      simp only [buried, if_true, List.append_assoc]
      refine List.Perm.append_left _ ?_
      have e := List.dropLast_concat_getLast h
      rw [List.getLast?_eq_some_getLast h]
      refine List.Perm.trans (List.perm_append_comm) ?_
      simp only [Option.toList]
      rw [e]
  | popFront =>
    simp only [lstep, lstored, List.append_nil] at hr ⊢
    split at hr
    · obtain ⟨rfl, rfl⟩ := Prod.mk.inj hr
      exact List.Perm.refl _
    · next x xs h =>
      obtain ⟨rfl, rfl⟩ := Prod.mk.inj hr
      simp [h, buried]
  | set i v =>
    simp only [lstep, lstored] at hr ⊢
    cases hi : d.elems[i]? with
    | none =>
      rw [hi] at hr
      obtain ⟨rfl, rfl⟩ := Prod.mk.inj hr
      rw [if_pos (by decide)]; simp
    | some old =>
      rw [hi] at hr
      obtain ⟨rfl, rfl⟩ := Prod.mk.inj hr
      rw [if_neg (by decide)]
      simp only [buried, if_true, List.append_assoc]
      refine List.Perm.append_left _ ?_
      obtain ⟨hlt, hxi⟩ := List.getElem?_eq_some_iff.1 hi
      have hsplit : d.elems = d.elems.take i ++ old :: d.elems.drop (i + 1) := by
        rw [← hxi, List.getElem_cons_drop, List.take_append_drop]
      have hset : d.elems.set i v = d.elems.take i ++ v :: d.elems.drop (i + 1) := by
        rw [List.set_eq_take_append_cons_drop, if_pos hlt]
      rw [hset]
      refine List.Perm.trans ?_ (List.Perm.append_right [v] (List.Perm.of_eq hsplit.symm))
      generalize d.elems.take i = a
      generalize d.elems.drop (i + 1) = b
      have e1 : ([old] ++ (a ++ v :: b)).Perm (old :: v :: (a ++ b)) :=
        List.Perm.cons _ List.perm_middle
      have e2 : (a ++ old :: b ++ [v]).Perm (old :: v :: (a ++ b)) := by
        refine (List.perm_append_comm (l₂ := [v])).trans ?_
        refine (List.Perm.cons v List.perm_middle).trans ?_
        exact List.Perm.swap _ _ _
      exact e1.trans e2.symm
  | clear =>
    simp only [lstep, lstored] at hr ⊢
    obtain ⟨rfl, rfl⟩ := Prod.mk.inj hr
    simp [buried]
  | resize n init =>
    simp only [lstep, lstored] at hr ⊢
    split at hr
    · obtain ⟨rfl, rfl⟩ := Prod.mk.inj hr
      simp [buried]
    · split at hr
      · obtain ⟨rfl, rfl⟩ := Prod.mk.inj hr
        have e : (d.elems.take n).drop d.elems.length = [] :=
          List.drop_eq_nil_of_le (by rw [List.length_take]; omega)
        simp only [e, List.append_nil, buried, if_true, List.append_assoc]
        refine List.Perm.append_left _ ?_
        refine List.Perm.trans ?_ (List.Perm.of_eq (List.take_append_drop n d.elems))
        exact (List.Perm.append_right _ (List.reverse_perm _)).trans List.perm_append_comm
      · obtain ⟨k, h1, h2⟩ := addMany_prefix K (fresh init (n - d.elems.length) junk) d
        rw [hr] at h1 h2
        simp only at h1 h2
        rw [h1, h2]; simp

/-- Over a whole history, elements are conserved. -/
theorem lrun_conserves {K : Source} (hF : FreesOK F K) (ops : List (LOp α)) {s : LS α}
    {ch : List (Nat × Cell α)} {fs : List Nat} {d : Deque α} (R : LRep F K true s ch fs d)
    (hf : LAllFit K true d ops) :
    ∃ sts s' ch' fs' d', runList s ops = .ret (sts, s') ∧ LRep F K true s' ch' fs' d' ∧
      (d'.dead ++ d'.elems).Perm (d.dead ++ d.elems ++ lstoredRun s ops) := by
  induction ops generalizing s ch fs d with
  | nil => exact ⟨[], s, ch, fs, d, rfl, R, by simp [lstoredRun]⟩
  | cons op ops ih =>
    cases hf with
    | cons h t =>
      obtain ⟨junk, s1, ch1, fs1, hj, h1, R1⟩ := listOp_ok hF R op h
      obtain ⟨sts, s', ch', fs', d', h2, R', h3⟩ := ih R1 (t junk hj)
      refine ⟨(lstep K true junk d op).1 :: sts, s', ch', fs', d',
        by simp only [runList, h1, Out.ret_bind', h2], R', ?_⟩
      simp only [lstoredRun, h1, forward_ok R, forward_ok R1]
      refine h3.trans ?_
      rw [← List.append_assoc]
      exact List.Perm.append_right _ (lstep_conserves K junk d _ op _ rfl)

theorem lstep_no_dtor (K : Source) (junk : List (Cell α)) (d : Deque α) (op : LOp α) :
    (lstep K false junk d op).2.dead = d.dead := by
  have hb : ∀ xs : List (Cell α), buried false xs = [] := fun _ => rfl
  have hB : ∀ x, (addBack K d x).2.dead = d.dead := by
    intro x; rcases addBack_cases K d x with ⟨_, _, h⟩ | ⟨_, h⟩ <;> rw [h]
  have hFr : ∀ x, (addFront K d x).2.dead = d.dead := by
    intro x; rcases addFront_cases K d x with ⟨_, _, h⟩ | ⟨_, h⟩ <;> rw [h]
  have hM : ∀ xs, (addMany K d xs).2.dead = d.dead := fun xs => (addMany_prefix K xs d).choose_spec.2
  cases op <;> simp only [lstep, hb, List.append_nil, hB, hFr] <;> (repeat' split) <;>
    simp [hB, hFr, hM]

theorem lruns_no_dtor {K : Source} {d d' : Deque α} {ops : List (LOp α)} {sts : List Status}
    (h : LRuns K false d ops sts d') : d'.dead = d.dead := by
  induction h with
  | nil => rfl
  | cons junk hj h t ih =>
    rw [ih]
    have := lstep_no_dtor K junk
    rename_i s s' s'' op ops st sts
    have e := this s op
    rw [h] at e; exact e

/-! ## Refused requests -/

theorem refused_push {K : Source} {dt : Bool} {s : LS α} {ch : List (Nat × Cell α)} {fs : List Nat}
    {d : Deque α} (R : LRep F K dt s ch fs d) (hf : failed (answerOf K d) = true) (x : Cell α)
    (c : Ctor α) :
    ∃ s', listPushBack s (.ext x) = .ret (answerOf K d, s') ∧
      listPushFront s (.ext x) = .ret (answerOf K d, s') ∧
      listEmplaceBack s c = .ret (answerOf K d, s') ∧
      listEmplaceFront s c = .ret (answerOf K d, s') ∧ s'.l = s.l ∧ s'.mem = s.mem := by
  obtain ⟨s', h1, h2, h3, _⟩ := (alloc_ok R).1 hf
  exact ⟨s', by simp [listPushBack, LSrc.isNull, h1, hf], by simp [listPushFront, LSrc.isNull, h1, hf],
    by simp [listEmplaceBack, h1, hf], by simp [listEmplaceFront, h1, hf], h2, h3⟩

/-! ## Histories that are short enough -/

theorem lstep_len (K : Source) (dt : Bool) (junk : List (Cell α)) (d : Deque α) (op : LOp α)
    (hj : junk.length = ljunk d op) :
    (lstep K dt junk d op).2.elems.length ≤ d.elems.length + lcost op := by
  have hB : ∀ x, (addBack K d x).2.elems.length ≤ d.elems.length + 1 := by
    intro x; rcases addBack_cases K d x with ⟨_, _, h⟩ | ⟨_, h⟩ <;> rw [h] <;> simp
  have hFr : ∀ x, (addFront K d x).2.elems.length ≤ d.elems.length + 1 := by
    intro x; rcases addFront_cases K d x with ⟨_, _, h⟩ | ⟨_, h⟩ <;> rw [h] <;> simp
  cases op with
  | pushBack x => exact hB x
  | pushFront x => exact hFr x
  | pushBackOf i => simp only [lstep, lcost]; split <;> first | exact hB _ | simp
  | pushFrontOf i => simp only [lstep, lcost]; split <;> first | exact hFr _ | simp
  | emplaceBack c => exact hB _
  | emplaceFront c => exact hFr _
  | popBack => simp only [lstep, lcost]; split <;> simp; omega
  | popFront => simp only [lstep, lcost]; split <;> simp_all; omega
  | set i x => simp only [lstep, lcost]; split <;> simp
  | clear => simp [lstep]
  | resize n init =>
    simp only [lstep, lcost]
    split
    · simp
    · split
      · simp; omega
      · obtain ⟨k, h1, _⟩ := addMany_prefix K (fresh init (n - d.elems.length) junk) d
        rw [h1]
        have : (fresh init (n - d.elems.length) junk).length = n - d.elems.length := by
          cases init <;> simp [fresh]; exact hj
        simp only [List.length_append, List.length_take]
        omega

theorem allFit_short (K : Source) (dt : Bool) (ops : List (LOp α)) (d : Deque α)
    (h : d.elems.length + (ops.map lcost).sum < 18446744073709551616) : LAllFit K dt d ops := by
  induction ops generalizing d with
  | nil => exact .nil d
  | cons op ops ih =>
    simp only [List.map_cons, List.sum_cons] at h
    refine .cons ?_ fun junk hj => ih _ ?_
    · cases op <;> simp only [LFits, OneMore, lcost] at h ⊢ <;>
        first | omega | (cases K <;> simp only []; omega)
    · have := lstep_len K dt junk d op hj
      omega

/-! ## Refused deallocations -/

/-- A list whose allocator answers differently from now on. -/
theorem rep_frees {K : Source} {dt : Bool} {s : LS α} {ch : List (Nat × Cell α)} {fs : List Nat}
    {d : Deque α} (R : LRep F K dt s ch fs d) (f : Nat → Status) :
    LRep (fun _ _ => True) K dt (s.withFrees f) ch fs d := by
  obtain ⟨C, E, h⟩ := R
  exact ⟨⟨C.seg, C.nodup, C.dt, C.dead, C.free, trivial, C.src⟩, E, h⟩

theorem dealloc_refused {answer : Nat → Status} {dt : Bool} {s : LS α} {ch : List (Nat × Cell α)}
    {p : Nat} {nd : LNode α} {fs : List Nat} {asked : Nat} {dead : List (Cell α)}
    (C : Core F (.dynamic answer) dt none s.l s.mem s.w ch [p] fs asked dead)
    (hm : s.mem p = some nd) (hr : failed (s.w.freeSt s.w.frees) = true) :
    ∃ s' : LS α, listDeallocateNode s (some p) = .ret (s.w.freeSt s.w.frees, s') ∧ s'.l = s.l ∧
      s'.mem = s.mem := by
  obtain ⟨a, h1, _⟩ := C.src
  refine ⟨LS.log { s with w := { s.w with frees := s.w.frees + 1 } } (.refused a), ?_, rfl, rfl⟩
  simp [listDeallocateNode, h1, nodeDeallocate, deref_some hm, hr]

theorem popBack_refused {answer : Nat → Status} {dt : Bool} {s : LS α}
    {ch : List (Nat × Cell α)} {x : Nat × Cell α} {fs : List Nat} {d : Deque α}
    (R : LRep F (.dynamic answer) dt s (ch ++ [x]) fs d)
    (hr : failed (s.w.freeSt s.w.frees) = true) :
    ∃ s' : LS α, listPopBack s = .ret (s.w.freeSt s.w.frees, s') ∧ Seg s'.mem none ch none ∧
      Ends s'.l ch := by
  obtain ⟨s2, nd, h1, h2, E, w1, w2, C⟩ := popBack_pre R
  obtain ⟨s', h3, h4, h5⟩ := dealloc_refused C h2 (by rw [w1, w2]; exact hr)
  refine ⟨s', by rw [h1, h3, w1, w2], by rw [h5]; exact C.seg, by rw [h4]; exact E⟩

theorem popFront_refused {answer : Nat → Status} {dt : Bool} {s : LS α}
    {ch : List (Nat × Cell α)} {x : Nat × Cell α} {fs : List Nat} {d : Deque α}
    (R : LRep F (.dynamic answer) dt s (x :: ch) fs d)
    (hr : failed (s.w.freeSt s.w.frees) = true) :
    ∃ s' : LS α, listPopFront s = .ret (s.w.freeSt s.w.frees, s') ∧ Seg s'.mem none ch none ∧
      Ends s'.l ch := by
  obtain ⟨s2, nd, h1, h2, E, w1, w2, C⟩ := popFront_pre R
  obtain ⟨s', h3, h4, h5⟩ := dealloc_refused C h2 (by rw [w1, w2]; exact hr)
  refine ⟨s', by rw [h1, h3, w1, w2], by rw [h5]; exact C.seg, by rw [h4]; exact E⟩

theorem shrink_refused {answer : Nat → Status} {dt : Bool} {s : LS α}
    {ch : List (Nat × Cell α)} {x : Nat × Cell α} {fs : List Nat} {d : Deque α}
    (R : LRep F (.dynamic answer) dt s (ch ++ [x]) fs d)
    (hr : failed (s.w.freeSt s.w.frees) = true) (n : Nat) (h0 : 0 < n) (hn : n ≤ ch.length)
    (init : LSrc α) :
    ∃ s' : LS α, listResizeEx s n init = .ret (s.w.freeSt s.w.frees, s') ∧
      Seg s'.mem none ch none ∧ s'.l.head = firstOf ch none ∧ s'.l.size = ch.length + 1 := by
  have E := R.ends
  have ht : s.l.tail = some x.1 := by rw [E.tail, lastOf_concat]
  have hx : s.mem x.1 = some ⟨some (lastOf none ch), some none, x.2⟩ := by
    have := R.core.seg; rw [seg_append] at this; exact this.2.1
  have hsz : s.l.size = ch.length + 1 := by rw [E.size]; simp
  obtain ⟨s1, h1, h1l, h1m, C1⟩ := destroyData_ok R.core hx
  obtain ⟨s2, nd, h2, h2l, h2w, h2m, C2⟩ := unlinkTail_ok C1
  obtain ⟨w1, w2⟩ := destroyData_frees h1
  obtain ⟨s', h3, h4, h5⟩ := dealloc_refused C2 h2m (by rw [h2w, w1, w2]; exact hr)
  refine ⟨s', ?_, by rw [h5]; exact C2.seg, ?_, ?_⟩
  · obtain ⟨k, hk⟩ : ∃ k, ch.length + 1 - n = k + 1 := ⟨ch.length - n, by omega⟩
    unfold listResizeEx
    rw [hsz, if_neg (by omega), if_neg (by omega), if_neg (by omega), hk]
    rw [h2w, w1, w2] at h3
    simp [shrinkLoop, ht, h1, h2, h3, hr]
  · rw [h4, h2l, h1l]
    show s.l.head = _
    rw [E.head, firstOf_append]
    cases ch with
    | nil => simp at hn; omega
    | cons y c => rfl
  · rw [h4, h2l, h1l]; exact hsz

theorem clear_refused {answer : Nat → Status} {dt : Bool} {s : LS α}
    {ch : List (Nat × Cell α)} {x y : Nat × Cell α} {fs : List Nat} {d : Deque α}
    (R : LRep F (.dynamic answer) dt s (x :: y :: ch) fs d)
    (hk : failed (s.w.freeSt s.w.frees) = false)
    (hr : failed (s.w.freeSt (s.w.frees + 1)) = true) :
    ∃ s' : LS α, listClear s = .ret (s.w.freeSt (s.w.frees + 1), s') ∧
      listDestroy s = .ret (s.w.freeSt (s.w.frees + 1), s') ∧ forward s' = .ub .uaf := by
  have E := R.ends
  obtain ⟨a, ha, _⟩ := R.core.src
  obtain ⟨s1, h1, h1l, h1m, C1⟩ := destroyData_ok R.core R.core.seg.1
  obtain ⟨v1, v2⟩ := destroyData_frees h1
  have hxy : y.1 ≠ x.1 := by
    have hn := R.core.nodup
    simp only [List.map_cons, List.cons_append, List.nodup_cons, List.mem_cons, not_or] at hn
    exact fun e => hn.1.1 e.symm
  have hx : s1.mem x.1 = _ := C1.seg.1
  have hy : s1.mem y.1 = _ := C1.seg.2.1
  let s2 : LS α := LS.log (LS.put { s1 with w := { s1.w with frees := s1.w.frees + 1 } } x.1 none)
    (.dealloc a x.1 (nodeSize s1.l) 1)
  have h2 : nodeDeallocate s1 a (some x.1) = .ret (s.w.freeSt s.w.frees, s2) := by
    simp [nodeDeallocate, deref_some hx, v1, v2, hk, s2]
  have hy2 : s2.mem y.1 = some ⟨some (some x.1), some (firstOf ch none), y.2⟩ := by
    show (if y.1 = x.1 then none else s1.mem y.1) = _
    rw [if_neg hxy]; exact hy
  have hx2 : s2.mem x.1 = none := by
    show (if x.1 = x.1 then none else s1.mem x.1) = _
    rw [if_pos rfl]
  have key : ∃ s3 : LS α, destroyData s2 (some y.1) = .ret s3 ∧ s3.l = s2.l ∧ s3.mem = s2.mem := by
    unfold destroyData
    split
    · exact ⟨s2.log (.destroy y.2), by simp [deref_some hy2], rfl, rfl⟩
    · exact ⟨s2, rfl, rfl, rfl⟩
  obtain ⟨s3, h3, h3l, h3m⟩ := key
  obtain ⟨u1, u2⟩ := destroyData_frees h3
  have e1 : s3.w.freeSt = s.w.freeSt := by rw [u1]; exact v1
  have e2 : s3.w.frees = s.w.frees + 1 := by rw [u2]; show s1.w.frees + 1 = _; rw [v2]
  have hy3 : s3.mem y.1 = some ⟨some (some x.1), some (firstOf ch none), y.2⟩ := by rw [h3m]; exact hy2
  have h4 : nodeDeallocate s3 a (some y.1) = .ret (s.w.freeSt (s.w.frees + 1),
      LS.log { s3 with w := { s3.w with frees := s3.w.frees + 1 } } (.refused a)) := by
    simp [nodeDeallocate, deref_some hy3, e1, e2, hr]
  have e : firstOf (x :: y :: ch) none = some x.1 := rfl
  have ha1 : s1.l.allocator = some a := by rw [h1l]; exact ha
  have ha3 : s3.l.allocator = some a := by rw [h3l]; exact ha1
  have hn1 : loadNext s1 (some x.1) = .ret (some y.1) := by
    simp only [loadNext, deref_some hx, Out.ret_bind', useptr]; rfl
  have hn3 : loadNext s3 (some y.1) = .ret (firstOf ch none) := by
    simp [loadNext, deref_some hy3, useptr]
  have hall : freeAll s = .ret (some (s.w.freeSt (s.w.frees + 1)),
      LS.log { s3 with w := { s3.w with frees := s3.w.frees + 1 } } (.refused a)) := by
    have hsz : s.l.size = ch.length + 1 + 1 := by rw [E.size]; rfl
    simp [freeAll, ha, E.head, e, hsz, freeLoop, h1, hn1, ha1, h2, hk, h3, hn3, ha3, h4, hr]
  refine ⟨LS.log { s3 with w := { s3.w with frees := s3.w.frees + 1 } } (.refused a), ?_, ?_, ?_⟩
  · have : (0 : Nat) ≠ s.l.size := by rw [E.size]; simp
    simp [listClear, listResizeEx, this, hall]
  · simp [listDestroy, hall]
  · have hh : s3.l.head = some x.1 := by rw [h3l]; show s1.l.head = _; rw [h1l, E.head]; rfl
    have hz : s3.l.size = ch.length + 1 + 1 := by rw [h3l]; show s1.l.size = _; rw [h1l, E.size]; rfl
    have hx3 : s3.mem x.1 = none := by rw [h3m]; exact hx2
    simp [forward, listGetHead, listGetSize, LS.log, hh, hz, walk, listNodeData, readSrc, deref, hx3]

end Zy
