import Verif.Lemmas.ListReach

/-!
# What a list call does in a memory that holds other nodes as well

If a call is defined in a memory with the nodes of one list, then it does the same in every larger memory and
leaves the additional nodes alone.
-/

namespace Zy

open Spec

variable {α β γ : Type}

/-- The state `s'` is the state `s` with the additional nodes `R`, all of which have addresses below `n₀`.
Both have logged the same events since their traces were `T` and `T'`; allocations among them gave
addresses from `n₀` on. -/
structure Fr (R : Nat → Option (LNode α)) (n₀ : Nat) (T T' : List (Event α)) (s s' : LS α) : Prop where
  l : s'.l = s.l
  w : s'.w = { s.w with trace := s'.w.trace }
  tr : ∃ D, s.w.trace = T ++ D ∧ s'.w.trace = T' ++ D ∧ ∀ a p b n, .alloc a p b n ∈ D → n₀ ≤ p
  nb : n₀ ≤ s.w.nextBlk
  mem : ∀ a, s'.mem a = if (R a).isSome then R a else s.mem a
  dis : ∀ a, (R a).isSome → s.mem a = none
  low : ∀ a, (R a).isSome → a < n₀

/-- If the first computation is defined, so is the second, and the results are related. -/
def OSim (Q : β → γ → Prop) (x : Out β) (y : Out γ) : Prop := ∀ b, x = .ret b → ∃ c, y = .ret c ∧ Q b c

theorem OSim.ret {Q : β → γ → Prop} {b : β} {c : γ} (h : Q b c) : OSim Q (.ret b) (.ret c) := by
  intro b' hb
  cases hb
  exact ⟨c, rfl, h⟩

theorem OSim.ub {Q : β → γ → Prop} {u : UB} {y : Out γ} : OSim Q (.ub u) y := by
  intro b hb; cases hb

theorem OSim.bind {β' γ' : Type} {Q : β → γ → Prop} {Q' : β' → γ' → Prop} {x : Out β} {y : Out γ} {f : β → Out β'}
    {g : γ → Out γ'} (h : OSim Q x y) (hf : ∀ b c, Q b c → OSim Q' (f b) (g c)) :
    OSim Q' (x.bind f) (y.bind g) := by
  cases x with
  | ub u => exact OSim.ub
  | ret b =>
    obtain ⟨c, hc, hq⟩ := h b rfl
    rw [hc]
    exact hf b c hq

variable {R : Nat → Option (LNode α)} {n₀ : Nat} {T T' : List (Event α)} {s s' : LS α}

/-- The relation of results with a status. -/
def FrR (R : Nat → Option (LNode α)) (n₀ : Nat) (T T' : List (Event α)) (r r' : β × LS α) : Prop :=
  r'.1 = r.1 ∧ Fr R n₀ T T' r.2 r'.2

theorem Fr.none (h : Fr R n₀ T T' s s') {a : Nat} {n : LNode α} (hm : s.mem a = some n) : R a = none := by
  cases hr : R a with
  | none => rfl
  | some x => rw [h.dis a (by rw [hr]; rfl)] at hm; cases hm

theorem Fr.put (h : Fr R n₀ T T' s s') {a : Nat} (hR : R a = .none) (n : Option (LNode α)) :
    Fr R n₀ T T' (s.put a n) (s'.put a n) := by
  refine ⟨h.l, h.w, h.tr, h.nb, fun b => ?_, fun b hb => ?_, h.low⟩
  · show (if b = a then n else s'.mem b) = if (R b).isSome then R b else if b = a then n else s.mem b
    by_cases e : b = a
    · subst e; rw [hR]; simp
    · rw [if_neg e, if_neg e]; exact h.mem b
  · show (if b = a then n else s.mem b) = Option.none
    rw [if_neg (fun e => by rw [e, hR] at hb; cases hb)]
    exact h.dis b hb

theorem Fr.list (h : Fr R n₀ T T' s s') {l : ZList} : Fr R n₀ T T' { s with l := l } { s' with l := l } :=
  ⟨rfl, h.w, h.tr, h.nb, h.mem, h.dis, h.low⟩

theorem Fr.log (h : Fr R n₀ T T' s s') (e : Event α) (he : ∀ a p b n, e = .alloc a p b n → n₀ ≤ p) :
    Fr R n₀ T T' (s.log e) (s'.log e) := by
  obtain ⟨D, h1, h2, h3⟩ := h.tr
  refine ⟨h.l, ?_, ⟨D ++ [e], ?_, ?_, ?_⟩, h.nb, h.mem, h.dis, h.low⟩
  · show ({ s'.w with trace := s'.w.trace ++ [e] } : LWorld α) = _
    have := h.w
    show _ = ({ s.w with trace := s'.w.trace ++ [e] } : LWorld α)
    rw [this]
  · show s.w.trace ++ [e] = _; rw [h1, List.append_assoc]
  · show s'.w.trace ++ [e] = _; rw [h2, List.append_assoc]
  · intro a p b n hm
    rcases List.mem_append.1 hm with hm | hm
    · exact h3 a p b n hm
    · exact he a p b n (List.mem_singleton.1 hm).symm

theorem Fr.calls (h : Fr R n₀ T T' s s') : Fr R n₀ T T' { s with w := { s.w with calls := s.w.calls + 1 } }
    { s' with w := { s'.w with calls := s'.w.calls + 1 } } := by
  refine ⟨h.l, ?_, h.tr, h.nb, h.mem, h.dis, h.low⟩
  have := h.w
  show ({ s'.w with calls := s'.w.calls + 1 } : LWorld α) = { s.w with calls := s.w.calls + 1, trace := s'.w.trace }
  rw [this]

theorem Fr.frees (h : Fr R n₀ T T' s s') : Fr R n₀ T T' { s with w := { s.w with frees := s.w.frees + 1 } }
    { s' with w := { s'.w with frees := s'.w.frees + 1 } } := by
  refine ⟨h.l, ?_, h.tr, h.nb, h.mem, h.dis, h.low⟩
  have := h.w
  show ({ s'.w with frees := s'.w.frees + 1 } : LWorld α) = { s.w with frees := s.w.frees + 1, trace := s'.w.trace }
  rw [this]

theorem Fr.next (h : Fr R n₀ T T' s s') : Fr R n₀ T T' { s with w := { s.w with nextBlk := s.w.nextBlk + 1 } }
    { s' with w := { s'.w with nextBlk := s'.w.nextBlk + 1 } } := by
  refine ⟨h.l, ?_, h.tr, Nat.le_succ_of_le h.nb, h.mem, h.dis, h.low⟩
  have := h.w
  show ({ s'.w with nextBlk := s'.w.nextBlk + 1 } : LWorld α) =
    { s.w with nextBlk := s.w.nextBlk + 1, trace := s'.w.trace }
  rw [this]

theorem Fr.allocSt (h : Fr R n₀ T T' s s') : s'.w.allocSt s'.w.calls = s.w.allocSt s.w.calls := by rw [h.w]
theorem Fr.freeSt (h : Fr R n₀ T T' s s') : s'.w.freeSt s'.w.frees = s.w.freeSt s.w.frees := by rw [h.w]
theorem Fr.nextBlk (h : Fr R n₀ T T' s s') : s'.w.nextBlk = s.w.nextBlk := by rw [h.w]

theorem deref_fr (h : Fr R n₀ T T' s s') (p : Option Nat) :
    OSim (fun r r' => r' = r ∧ p = some r.1 ∧ R r.1 = none) (deref s p) (deref s' p) := by
  cases p with
  | none => exact OSim.ub
  | some a =>
    unfold deref
    dsimp only
    cases hm : s.mem a with
    | none => exact OSim.ub
    | some n =>
      have hR := h.none hm
      have hm' : s'.mem a = some n := by rw [h.mem, hR]; simpa using hm
      rw [hm']
      exact OSim.ret ⟨rfl, rfl, hR⟩

theorem useptr_fr (c : Cell (Option Nat)) : OSim (fun r r' => r' = r) (useptr c) (useptr c) := by
  intro b hb; exact ⟨b, hb, rfl⟩

theorem loadNext_fr (h : Fr R n₀ T T' s s') (p : Option Nat) :
    OSim (fun r r' => r' = r) (loadNext s p) (loadNext s' p) :=
  (deref_fr h p).bind fun b c hb => by rw [hb.1]; exact useptr_fr _

theorem loadPrev_fr (h : Fr R n₀ T T' s s') (p : Option Nat) :
    OSim (fun r r' => r' = r) (loadPrev s p) (loadPrev s' p) :=
  (deref_fr h p).bind fun b c hb => by rw [hb.1]; exact useptr_fr _

theorem storeNext_fr (h : Fr R n₀ T T' s s') (p v : Option Nat) :
    OSim (Fr R n₀ T T') (storeNext s p v) (storeNext s' p v) :=
  (deref_fr h p).bind fun b c hb => by obtain ⟨rfl, _, hR⟩ := hb; exact OSim.ret (h.put hR _)

theorem storePrev_fr (h : Fr R n₀ T T' s s') (p v : Option Nat) :
    OSim (Fr R n₀ T T') (storePrev s p v) (storePrev s' p v) :=
  (deref_fr h p).bind fun b c hb => by obtain ⟨rfl, _, hR⟩ := hb; exact OSim.ret (h.put hR _)

theorem readSrc_fr (h : Fr R n₀ T T' s s') (x : LSrc α) :
    OSim (fun r r' => r' = r) (readSrc s x) (readSrc s' x) := by
  cases x with
  | null => exact OSim.ub
  | ext x => exact OSim.ret rfl
  | node a => exact (deref_fr h _).bind fun b c hb => by rw [hb.1]; exact OSim.ret rfl

theorem copyData_fr (h : Fr R n₀ T T' s s') (p : Option Nat) (x : LSrc α) :
    OSim (Fr R n₀ T T') (copyData s p x) (copyData s' p x) :=
  (readSrc_fr h x).bind fun y z hy => by
    subst hy
    exact (deref_fr h p).bind fun b c hb => by obtain ⟨rfl, _, hR⟩ := hb; exact OSim.ret (h.put hR _)

theorem destroyData_fr (h : Fr R n₀ T T' s s') (p : Option Nat) :
    OSim (Fr R n₀ T T') (destroyData s p) (destroyData s' p) := by
  unfold destroyData
  rw [h.l]
  split
  · exact (deref_fr h p).bind fun b c hb => by
      rw [hb.1]; exact OSim.ret (h.log _ (by intro _ _ _ _ e; cases e))
  · exact OSim.ret h

theorem allocateNode_fr (h : Fr R n₀ T T' s s') :
    OSim (fun r r' => r'.1 = r.1 ∧ r'.2.1 = r.2.1 ∧ Fr R n₀ T T' r.2.2 r'.2.2) (listAllocateNode s)
      (listAllocateNode s') := by
  obtain ⟨l', m', w'⟩ := s'
  obtain rfl : l' = s.l := h.l
  unfold listAllocateNode
  rw [h.l]
  cases s.l.allocator with
  | none =>
    dsimp only
    split
    · exact (loadNext_fr h _).bind fun b c hb => by subst hb; exact OSim.ret ⟨rfl, rfl, h.list⟩
    · split
      · exact OSim.ret ⟨rfl, rfl, h⟩
      · exact OSim.ret ⟨rfl, rfl, h⟩
  | some a =>
    dsimp only
    have key : (nodeAllocate ⟨s.l, m', w'⟩ a).1 = (nodeAllocate s a).1 ∧ (nodeAllocate ⟨s.l, m', w'⟩ a).2.1 = (nodeAllocate s a).2.1 ∧
        Fr R n₀ T T' (nodeAllocate s a).2.2 (nodeAllocate ⟨s.l, m', w'⟩ a).2.2 := by
      unfold nodeAllocate
      dsimp only
      rw [h.allocSt]
      split
      · exact ⟨rfl, rfl, h.calls.log _ (by intro _ _ _ _ e; cases e)⟩
      · refine ⟨rfl, by rw [h.nextBlk], ?_⟩
        have hR : R s.w.nextBlk = none := by
          cases hr : R s.w.nextBlk with
          | none => rfl
          | some x => have := h.low _ (by rw [hr]; rfl); have := h.nb; omega
        have h1 := h.calls.next
        have h2 := h1.put (a := s.w.nextBlk) hR (if nodeSize s.l = 16 + s.l.esz then some ⟨none, none, none⟩ else none)
        have h3 := h2.log (.alloc a s.w.nextBlk (nodeSize s.l) 1) (by
          intro _ _ _ _ e; cases e; exact h.nb)
        have e : w'.nextBlk = s.w.nextBlk := h.nextBlk
        rw [e]
        dsimp only at h3
        rw [e] at h3
        exact h3
    obtain ⟨k1, k2, k3⟩ := key
    rw [k1]
    split
    · exact OSim.ret ⟨k1, k2, k3⟩
    · exact OSim.ret ⟨rfl, k2, k3⟩

theorem nodeDeallocate_fr (h : Fr R n₀ T T' s s') (a : Nat) (p : Option Nat) :
    OSim (FrR R n₀ T T') (nodeDeallocate s a p) (nodeDeallocate s' a p) :=
  (deref_fr h p).bind fun b c hb => by
    obtain ⟨rfl, _, hR⟩ := hb
    obtain ⟨l', m', w'⟩ := s'
    obtain rfl : l' = s.l := h.l
    dsimp only
    rw [show w'.freeSt w'.frees = s.w.freeSt s.w.frees from h.freeSt]
    split
    · exact OSim.ret ⟨rfl, h.frees.log _ (by intro _ _ _ _ e; cases e)⟩
    · refine OSim.ret ⟨rfl, ?_⟩
      have := (h.frees.put hR none).log (.dealloc a c.1 (nodeSize s.l) 1) (by intro _ _ _ _ e; cases e)
      exact this

theorem deallocateNode_fr (h : Fr R n₀ T T' s s') (p : Option Nat) :
    OSim (FrR R n₀ T T') (listDeallocateNode s p) (listDeallocateNode s' p) := by
  unfold listDeallocateNode
  rw [h.l]
  cases s.l.allocator with
  | none =>
    refine (storeNext_fr h _ _).bind fun b c hb => ?_
    rw [hb.l]; exact OSim.ret ⟨rfl, hb.list⟩
  | some a =>
    refine (nodeDeallocate_fr h a p).bind fun b c hb => ?_
    · rw [hb.1]
      split
      · exact OSim.ret hb
      · exact OSim.ret ⟨rfl, hb.2⟩

theorem freeLoop_fr (n : Nat) : ∀ {s s' : LS α} (_ : Fr R n₀ T T' s s') (p : Option Nat),
    OSim (FrR R n₀ T T') (freeLoop s p n) (freeLoop s' p n) := by
  induction n with
  | zero =>
    intro s s' h p
    unfold freeLoop
    split
    · exact OSim.ub
    · exact OSim.ret ⟨rfl, h⟩
  | succ n ih =>
    intro s s' h p
    unfold freeLoop
    split
    · refine (destroyData_fr h p).bind fun t t' ht => (loadNext_fr ht p).bind fun q q' hq => ?_
      subst hq
      rw [ht.l]
      cases t.l.allocator with
      | none => exact ih ht _
      | some a =>
        refine (nodeDeallocate_fr ht a p).bind fun b c hb => ?_
        · rw [hb.1]
          split
          · exact OSim.ret ⟨rfl, hb.2⟩
          · exact ih hb.2 _
    · exact OSim.ret ⟨rfl, h⟩

theorem freeAll_fr (h : Fr R n₀ T T' s s') : OSim (FrR R n₀ T T') (freeAll s) (freeAll s') := by
  unfold freeAll
  rw [h.l]
  exact freeLoop_fr _ h _

theorem listDestroy_fr (h : Fr R n₀ T T' s s') : OSim (FrR R n₀ T T') (listDestroy s) (listDestroy s') :=
  (freeAll_fr h).bind fun b c hb => by
    rw [hb.1]
    cases b.1 with
    | none => exact OSim.ret ⟨rfl, hb.2⟩
    | some st => exact OSim.ret ⟨rfl, hb.2⟩

theorem initBack_fr (h : Fr R n₀ T T' s s') (p : Option Nat) :
    OSim (Fr R n₀ T T') (initBack s p) (initBack s' p) := by
  unfold initBack
  rw [h.l]
  exact (storePrev_fr h _ _).bind fun b c hb => storeNext_fr hb _ _

theorem initFront_fr (h : Fr R n₀ T T' s s') (p : Option Nat) :
    OSim (Fr R n₀ T T') (initFront s p) (initFront s' p) := by
  unfold initFront
  exact (storePrev_fr h _ _).bind fun b c hb => by rw [hb.l]; exact storeNext_fr hb _ _

theorem linkBack_fr (h : Fr R n₀ T T' s s') (p : Option Nat) :
    OSim (Fr R n₀ T T') (linkBack s p) (linkBack s' p) := by
  unfold linkBack
  refine OSim.bind (Q := Fr R n₀ T T') ?_ fun b c hb => by rw [hb.l]; exact OSim.ret hb.list
  rw [h.l]
  split
  · exact OSim.ret h.list
  · exact (storeNext_fr h _ _).bind fun b c hb => by rw [hb.l]; exact OSim.ret hb.list

theorem linkFront_fr (h : Fr R n₀ T T' s s') (p : Option Nat) :
    OSim (Fr R n₀ T T') (linkFront s p) (linkFront s' p) := by
  unfold linkFront
  refine OSim.bind (Q := Fr R n₀ T T') ?_ fun b c hb => by rw [hb.l]; exact OSim.ret hb.list
  rw [h.l]
  split
  · exact OSim.ret h.list
  · exact (storePrev_fr h _ _).bind fun b c hb => by rw [hb.l]; exact OSim.ret hb.list

theorem construct_fr (h : Fr R n₀ T T' s s') (p : Option Nat) (c : Ctor α) :
    OSim (Fr R n₀ T T') (construct s p c) (construct s' p c) := by
  cases c with
  | none => exact OSim.ret h
  | some f =>
    refine (deref_fr h p).bind fun b c hb => ?_
    · obtain ⟨rfl, _, hR⟩ := hb; exact OSim.ret (h.put hR _)

theorem pushBack_fr (h : Fr R n₀ T T' s s') (x : LSrc α) :
    OSim (FrR R n₀ T T') (listPushBack s x) (listPushBack s' x) := by
  unfold listPushBack
  split
  · exact OSim.ret ⟨rfl, h⟩
  · refine (allocateNode_fr h).bind fun b c hb => ?_
    obtain ⟨h1, h2, h3⟩ := hb
    rw [h1, h2]
    split
    · exact OSim.ret ⟨rfl, h3⟩
    · exact (initBack_fr h3 _).bind fun _ _ h4 => (copyData_fr h4 _ _).bind fun _ _ h5 =>
        (linkBack_fr h5 _).bind fun _ _ h6 => OSim.ret ⟨rfl, h6⟩

theorem pushFront_fr (h : Fr R n₀ T T' s s') (x : LSrc α) :
    OSim (FrR R n₀ T T') (listPushFront s x) (listPushFront s' x) := by
  unfold listPushFront
  split
  · exact OSim.ret ⟨rfl, h⟩
  · refine (allocateNode_fr h).bind fun b c hb => ?_
    obtain ⟨h1, h2, h3⟩ := hb
    rw [h1, h2]
    split
    · exact OSim.ret ⟨rfl, h3⟩
    · exact (initFront_fr h3 _).bind fun _ _ h4 => (copyData_fr h4 _ _).bind fun _ _ h5 =>
        (linkFront_fr h5 _).bind fun _ _ h6 => OSim.ret ⟨rfl, h6⟩

theorem emplaceBack_fr (h : Fr R n₀ T T' s s') (f : Ctor α) :
    OSim (FrR R n₀ T T') (listEmplaceBack s f) (listEmplaceBack s' f) := by
  unfold listEmplaceBack
  refine (allocateNode_fr h).bind fun b c hb => ?_
  obtain ⟨h1, h2, h3⟩ := hb
  rw [h1, h2]
  split
  · exact OSim.ret ⟨rfl, h3⟩
  · exact (initBack_fr h3 _).bind fun _ _ h4 => (construct_fr h4 _ _).bind fun _ _ h5 =>
      (linkBack_fr h5 _).bind fun _ _ h6 => OSim.ret ⟨rfl, h6⟩

theorem emplaceFront_fr (h : Fr R n₀ T T' s s') (f : Ctor α) :
    OSim (FrR R n₀ T T') (listEmplaceFront s f) (listEmplaceFront s' f) := by
  unfold listEmplaceFront
  refine (allocateNode_fr h).bind fun b c hb => ?_
  obtain ⟨h1, h2, h3⟩ := hb
  rw [h1, h2]
  split
  · exact OSim.ret ⟨rfl, h3⟩
  · exact (initFront_fr h3 _).bind fun _ _ h4 => (construct_fr h4 _ _).bind fun _ _ h5 =>
      (linkFront_fr h5 _).bind fun _ _ h6 => OSim.ret ⟨rfl, h6⟩

theorem unlinkTail_fr (h : Fr R n₀ T T' s s') (p : Option Nat) :
    OSim (Fr R n₀ T T') (unlinkTail s p) (unlinkTail s' p) :=
  (loadPrev_fr h p).bind fun q q' hq => by
    subst hq
    dsimp only
    rw [h.l]
    split
    · exact storeNext_fr h.list _ _
    · exact OSim.ret h.list

theorem unlinkHead_fr (h : Fr R n₀ T T' s s') (p : Option Nat) :
    OSim (Fr R n₀ T T') (unlinkHead s p) (unlinkHead s' p) :=
  (loadNext_fr h p).bind fun q q' hq => by
    subst hq
    dsimp only
    rw [h.l]
    split
    · exact storePrev_fr h.list _ _
    · exact OSim.ret h.list

theorem listPopBack_fr (h : Fr R n₀ T T' s s') : OSim (FrR R n₀ T T') (listPopBack s) (listPopBack s') := by
  unfold listPopBack
  rw [h.l]
  split
  · exact OSim.ret ⟨rfl, h⟩
  · refine (destroyData_fr h _).bind fun _ _ h1 => (unlinkTail_fr h1 _).bind fun t t' h2 => ?_
    dsimp only
    rw [h2.l]
    split
    · exact deallocateNode_fr h2.list _
    · rw [h2.l]; exact deallocateNode_fr h2.list _

theorem listPopFront_fr (h : Fr R n₀ T T' s s') : OSim (FrR R n₀ T T') (listPopFront s) (listPopFront s') := by
  unfold listPopFront
  rw [h.l]
  split
  · exact OSim.ret ⟨rfl, h⟩
  · refine (destroyData_fr h _).bind fun _ _ h1 => (unlinkHead_fr h1 _).bind fun t t' h2 => ?_
    dsimp only
    rw [h2.l]
    split
    · exact deallocateNode_fr h2.list _
    · rw [h2.l]; exact deallocateNode_fr h2.list _

theorem setNodeData_fr (h : Fr R n₀ T T' s s') (p : Option Nat) (x : LSrc α) :
    OSim (FrR R n₀ T T') (listSetNodeData s p x) (listSetNodeData s' p x) := by
  unfold listSetNodeData
  split
  · exact OSim.ret ⟨rfl, h⟩
  · exact (destroyData_fr h _).bind fun _ _ h1 => (copyData_fr h1 _ _).bind fun _ _ h2 =>
      OSim.ret ⟨rfl, h2⟩

theorem growLoop_fr (x : LSrc α) (n : Nat) : ∀ {s s' : LS α} (_ : Fr R n₀ T T' s s'),
    OSim (FrR R n₀ T T') (growLoop x s n) (growLoop x s' n) := by
  induction n with
  | zero => intro s s' h; exact OSim.ret ⟨rfl, h⟩
  | succ n ih =>
    intro s s' h
    unfold growLoop
    refine (allocateNode_fr h).bind fun b c hb => ?_
    obtain ⟨h1, h2, h3⟩ := hb
    rw [h1, h2]
    split
    · exact OSim.ret ⟨rfl, h3⟩
    · refine (initBack_fr h3 _).bind fun t t' h4 => ?_
      refine OSim.bind (Q := Fr R n₀ T T') ?_ fun _ _ h5 => (linkBack_fr h5 _).bind fun _ _ h6 => ih h6
      split
      · exact OSim.ret h4
      · exact copyData_fr h4 _ _

theorem shrinkLoop_fr (n : Nat) : ∀ {s s' : LS α} (_ : Fr R n₀ T T' s s'),
    OSim (FrR R n₀ T T') (shrinkLoop s n) (shrinkLoop s' n) := by
  induction n with
  | zero => intro s s' h; exact OSim.ret ⟨rfl, h⟩
  | succ n ih =>
    intro s s' h
    unfold shrinkLoop
    dsimp only
    rw [h.l]
    refine (destroyData_fr h _).bind fun _ _ h1 => (unlinkTail_fr h1 _).bind fun _ _ h2 =>
      (deallocateNode_fr h2 _).bind fun b c hb => ?_
    rw [hb.1]
    split
    · exact OSim.ret ⟨rfl, hb.2⟩
    · exact ih hb.2

theorem listResize_fr (h : Fr R n₀ T T' s s') (n : Nat) (x : LSrc α) :
    OSim (FrR R n₀ T T') (listResizeEx s n x) (listResizeEx s' n x) := by
  unfold listResizeEx
  rw [h.l]
  split
  · exact OSim.ret ⟨rfl, h⟩
  · split
    · refine (freeAll_fr h).bind fun b c hb => ?_
      rw [hb.1]
      cases b.1 with
      | none => dsimp only; rw [hb.2.l]; exact OSim.ret ⟨rfl, hb.2.list⟩
      | some st => exact OSim.ret ⟨rfl, hb.2⟩
    · split
      · exact growLoop_fr _ _ h
      · refine (shrinkLoop_fr _ h).bind fun b c hb => ?_
        rw [hb.1]
        cases b.1 with
        | none => dsimp only; rw [hb.2.l]; exact OSim.ret ⟨rfl, hb.2.list⟩
        | some st => exact OSim.ret ⟨rfl, hb.2⟩

theorem seek_fr (h : Fr R n₀ T T' s s') (i : Nat) : ∀ p : Option Nat,
    OSim (fun r r' => r' = r) (seek s p i) (seek s' p i) := by
  induction i with
  | zero => intro p; exact OSim.ret rfl
  | succ i ih =>
    intro p
    unfold seek
    split
    · exact OSim.ret rfl
    · refine OSim.bind (Q := fun r r' => r' = r) ?_ fun b c hb => by rw [hb]; exact ih _
      unfold listGetNext
      split
      · exact OSim.ret rfl
      · exact (loadNext_fr h p).bind fun b c hb => by rw [hb]; exact OSim.ret rfl

theorem nodeAt_fr (h : Fr R n₀ T T' s s') (i : Nat) :
    OSim (fun r r' => r' = r) (nodeAt s i) (nodeAt s' i) := by
  unfold nodeAt listGetHead
  rw [h.l]
  exact seek_fr h i _

/-- Every call does the same in the larger memory. -/
theorem listOp_fr (h : Fr R n₀ T T' s s') (op : LOp α) :
    OSim (FrR R n₀ T T') (listOp s op) (listOp s' op) := by
  cases op with
  | pushBack x => exact pushBack_fr h _
  | pushFront x => exact pushFront_fr h _
  | pushBackOf i => exact (nodeAt_fr h i).bind fun b c hb => by rw [hb]; exact pushBack_fr h _
  | pushFrontOf i => exact (nodeAt_fr h i).bind fun b c hb => by rw [hb]; exact pushFront_fr h _
  | emplaceBack c => exact emplaceBack_fr h c
  | emplaceFront c => exact emplaceFront_fr h c
  | popBack => exact listPopBack_fr h
  | popFront => exact listPopFront_fr h
  | set i x => exact (nodeAt_fr h i).bind fun b c hb => by rw [hb]; exact setNodeData_fr h _ _
  | clear => exact listResize_fr h _ _
  | resize n init => exact listResize_fr h _ _

end Zy
