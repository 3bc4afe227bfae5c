import Verif.Spec.Allocator

/-!
# Lemmas about the default allocator
-/

namespace Zy

open Zy.Spec

theorem heapOk_empty : HeapOk CHeap.empty := ⟨by decide, fun _ _ h => by simp [CHeap.empty] at h⟩

theorem set_block (h : CHeap) (p : Nat) (c : Option (List HByte)) (q : Nat) :
    (h.set p c).block q = if q = p then c else h.block q := rfl

theorem Spec.HeapOk.set {h : CHeap} (H : HeapOk h) {p : Nat} (hp : 0 < p ∧ p < h.next) (c : Option (List HByte)) :
    HeapOk (h.set p c) := by
  refine ⟨H.1, fun q d hq => ?_⟩
  rw [set_block] at hq
  by_cases e : q = p
  · rw [e]; exact hp
  · rw [if_neg e] at hq; exact H.2 q d hq

theorem Spec.HeapOk.grow {h : CHeap} (H : HeapOk h) (c : Option (List HByte)) :
    HeapOk { h.set h.next c with next := h.next + 1 } := by
  refine ⟨Nat.succ_pos _, fun q d hq => ?_⟩
  have hq' : (h.set h.next c).block q = some d := hq
  rw [set_block] at hq'
  show 0 < q ∧ q < h.next + 1
  have := H.1
  by_cases e : q = h.next
  · omega
  · rw [if_neg e] at hq'
    have := H.2 q d hq'
    omega

theorem Spec.HeapOk.free_next {h : CHeap} (H : HeapOk h) : h.block h.next = none := by
  cases e : h.block h.next with
  | none => rfl
  | some c => have := (H.2 _ c e).2; omega

theorem resizeBytes_length (c : List HByte) (n : Nat) : (resizeBytes c n).length = n := by
  simp only [resizeBytes, List.length_append, List.length_take, List.length_replicate]
  omega

theorem stSuccess_ne_noMemory : stSuccess ≠ stNoMemory := by decide

/-- What `defaultAllocate` does. -/
theorem defaultAllocate_eval {h : CHeap} (H : HeapOk h) (r : CReply) (esz n : Nat) :
    defaultAllocate r esz n h =
      if grants r then (stSuccess, h.next,
        { h.set h.next (some (List.replicate (mul64 esz n) none)) with next := h.next + 1 })
      else (stNoMemory, 0, h) := by
  have := H.1
  have h0 : h.next ≠ 0 := by omega
  cases r <;> simp [defaultAllocate, cMalloc, grants, h0]

/-- What `defaultReallocate` does with a block. -/
theorem defaultReallocate_eval {h : CHeap} (H : HeapOk h) (r : CReply) {p : Nat} {c : List HByte}
    (hb : h.block p = some c) (esz n : Nat) :
    defaultReallocate r p esz n h = .ret
      (match r with
        | .refuse => (stNoMemory, p, h)
        | .release => if mul64 esz n = 0 then (stNoMemory, p, h.set p none) else (stNoMemory, p, h)
        | .inPlace => (stSuccess, p, h.set p (some (resizeBytes c (mul64 esz n))))
        | .fresh => (stSuccess, h.next,
            { (h.set p none).set h.next (some (resizeBytes c (mul64 esz n))) with next := h.next + 1 })) := by
  have h1 := H.1
  have hp := (H.2 p c hb).1
  have h0 : h.next ≠ 0 := by omega
  have hp0 : p ≠ 0 := by omega
  unfold defaultReallocate cRealloc
  rw [if_neg hp0, hb]
  cases r
  · simp
  · simp [h0]
  · simp [hp0]
  · by_cases e : mul64 esz n = 0 <;> simp [e]

/-! ## The client -/

/-- The buffers of the specification are the blocks the pointers of the client refer to. -/
structure BufRep (bs : Buffers) (c : Client) : Prop where
  ok : HeapOk c.heap
  len : c.ptrs.length = bs.length
  blk : ∀ i d, held bs i = some d → c.heap.block (c.ptrs.getD i 0) = some d
  inj : ∀ i j d e, held bs i = some d → held bs j = some e → c.ptrs.getD i 0 = c.ptrs.getD j 0 → i = j

theorem held_lt {bs : Buffers} {i : Nat} {d : List HByte} (h : held bs i = some d) : i < bs.length := by
  rcases Nat.lt_or_ge i bs.length with hl | hl
  · exact hl
  · rw [held, List.getElem?_eq_none hl] at h; simp at h

theorem held_set {bs : Buffers} {i : Nat} (hi : i < bs.length) (x : Option (List HByte)) (j : Nat) :
    held (bs.set i x) j = if j = i then x else held bs j := by
  unfold held
  by_cases e : j = i
  · subst e; rw [List.getElem?_set_self hi, if_pos rfl]; rfl
  · rw [List.getElem?_set_ne (fun h => e h.symm), if_neg e]

theorem held_append (bs : Buffers) (x : Option (List HByte)) (j : Nat) :
    held (bs ++ [x]) j = if j = bs.length then x else held bs j := by
  unfold held
  by_cases e : j = bs.length
  · subst e; rw [List.getElem?_append_right (Nat.le_refl _), if_pos rfl]; simp
  · rw [if_neg e]
    rcases Nat.lt_or_ge j bs.length with h | h
    · rw [List.getElem?_append_left h]
    · rw [List.getElem?_eq_none (by simp; omega), List.getElem?_eq_none h]

theorem getD_set {ps : List Nat} {i : Nat} (hi : i < ps.length) (x j : Nat) :
    (ps.set i x).getD j 0 = if j = i then x else ps.getD j 0 := by
  rw [List.getD_eq_getElem?_getD, List.getD_eq_getElem?_getD]
  by_cases e : j = i
  · subst e; rw [List.getElem?_set_self hi, if_pos rfl]; rfl
  · rw [List.getElem?_set_ne (fun h => e h.symm), if_neg e]

theorem getD_append (ps : List Nat) (x j : Nat) :
    (ps ++ [x]).getD j 0 = if j = ps.length then x else ps.getD j 0 := by
  rw [List.getD_eq_getElem?_getD, List.getD_eq_getElem?_getD]
  by_cases e : j = ps.length
  · subst e; rw [List.getElem?_append_right (Nat.le_refl _), if_pos rfl]; simp
  · rw [if_neg e]
    rcases Nat.lt_or_ge j ps.length with h | h
    · rw [List.getElem?_append_left h]
    · rw [List.getElem?_eq_none (by simp; omega), List.getElem?_eq_none h]

/-- Replacing the contents of a held buffer in place. -/
theorem BufRep.update {bs : Buffers} {c : Client} (R : BufRep bs c) {i : Nat} {d : List HByte}
    (hi : held bs i = some d) (x : Option (List HByte)) {ps : List Nat}
    (hps : ps = c.ptrs ∨ (x = none ∧ ps = c.ptrs.set i 0)) :
    BufRep (bs.set i x) ⟨ps, c.heap.set (c.ptrs.getD i 0) x⟩ := by
  have hl := held_lt hi
  have hlp : i < c.ptrs.length := by rw [R.len]; exact hl
  have hb := R.blk i d hi
  have hgd : ∀ j e, held (bs.set i x) j = some e → ps.getD j 0 = c.ptrs.getD j 0 := by
    intro j e he
    rcases hps with rfl | ⟨rfl, rfl⟩
    · rfl
    · rw [held_set hl] at he
      rw [getD_set hlp]
      by_cases ej : j = i
      · rw [if_pos ej] at he; cases he
      · rw [if_neg ej]
  refine ⟨R.ok.set (R.ok.2 _ _ hb) x, ?_, ?_, ?_⟩
  · rcases hps with rfl | ⟨_, rfl⟩ <;> simp [R.len]
  · intro j e he
    rw [hgd j e he, set_block]
    rw [held_set hl] at he
    by_cases ej : j = i
    · subst ej; rw [if_pos rfl] at he ⊢; exact he
    · rw [if_neg ej] at he
      rw [if_neg (fun h => ej (R.inj j i e d he hi h))]
      exact R.blk j e he
  · intro j k e f he hf heq
    rw [hgd j e he, hgd k f hf] at heq
    rw [held_set hl] at he hf
    by_cases ej : j = i <;> by_cases ek : k = i
    · omega
    · rw [if_neg ek] at hf
      rw [ej] at heq
      exact absurd (R.inj i k d f hi hf heq).symm ek
    · rw [if_neg ej] at he
      rw [ek] at heq
      exact absurd (R.inj j i e d he hi heq) ej
    · rw [if_neg ej] at he
      rw [if_neg ek] at hf
      exact R.inj j k e f he hf heq

/-- A refused allocation. -/
theorem BufRep.push_none {bs : Buffers} {c : Client} (R : BufRep bs c) :
    BufRep (bs ++ [none]) ⟨c.ptrs ++ [0], c.heap⟩ := by
  have key : ∀ j e, held (bs ++ [none]) j = some e →
      held bs j = some e ∧ (c.ptrs ++ [0]).getD j 0 = c.ptrs.getD j 0 := by
    intro j e he
    rw [held_append] at he
    rw [getD_append, R.len]
    by_cases ej : j = bs.length
    · rw [if_pos ej] at he; cases he
    · rw [if_neg ej] at he; rw [if_neg ej]; exact ⟨he, rfl⟩
  refine ⟨R.ok, by simp [R.len], ?_, ?_⟩
  · intro j e he
    obtain ⟨h1, h2⟩ := key j e he
    rw [h2]; exact R.blk j e h1
  · intro j k e f he hf heq
    obtain ⟨h1, h2⟩ := key j e he
    obtain ⟨h3, h4⟩ := key k f hf
    rw [h2, h4] at heq
    exact R.inj j k e f h1 h3 heq

/-- A granted allocation. -/
theorem BufRep.push {bs : Buffers} {c : Client} (R : BufRep bs c) (x : List HByte) :
    BufRep (bs ++ [some x])
      ⟨c.ptrs ++ [c.heap.next], { c.heap.set c.heap.next (some x) with next := c.heap.next + 1 }⟩ := by
  have hbelow : ∀ j e, held bs j = some e → c.ptrs.getD j 0 ≠ c.heap.next := by
    intro j e he heq
    have := (R.ok.2 _ _ (R.blk j e he)).2
    omega
  refine ⟨R.ok.grow _, by simp [R.len], ?_, ?_⟩
  · intro j e he
    show (c.heap.set c.heap.next (some x)).block ((c.ptrs ++ [c.heap.next]).getD j 0) = some e
    rw [held_append] at he
    rw [getD_append, R.len, set_block]
    by_cases ej : j = bs.length
    · rw [if_pos ej] at he; rw [if_pos ej, if_pos rfl]; exact he
    · rw [if_neg ej] at he
      rw [if_neg ej, if_neg (hbelow j e he)]
      exact R.blk j e he
  · intro j k e f he hf heq
    rw [held_append] at he hf
    rw [getD_append, getD_append, R.len] at heq
    by_cases ej : j = bs.length <;> by_cases ek : k = bs.length
    · omega
    · rw [if_neg ek] at hf
      rw [if_pos ej, if_neg ek] at heq
      exact absurd heq.symm (hbelow k f hf)
    · rw [if_neg ej] at he
      rw [if_neg ej, if_pos ek] at heq
      exact absurd heq (hbelow j e he)
    · rw [if_neg ej] at he
      rw [if_neg ek] at hf
      rw [if_neg ej, if_neg ek] at heq
      exact R.inj j k e f he hf heq

/-- A reallocation that moves the block. -/
theorem BufRep.move {bs : Buffers} {c : Client} (R : BufRep bs c) {i : Nat} {d : List HByte}
    (hi : held bs i = some d) (x : List HByte) :
    BufRep (bs.set i (some x)) ⟨c.ptrs.set i c.heap.next,
      { (c.heap.set (c.ptrs.getD i 0) none).set c.heap.next (some x) with next := c.heap.next + 1 }⟩ := by
  have hl := held_lt hi
  have hlp : i < c.ptrs.length := by rw [R.len]; exact hl
  have hb := R.blk i d hi
  have hbelow : ∀ j e, held bs j = some e → c.ptrs.getD j 0 ≠ c.heap.next := by
    intro j e he heq
    have := (R.ok.2 _ _ (R.blk j e he)).2
    omega
  refine ⟨(R.ok.set (R.ok.2 _ _ hb) none).grow _, by simp [R.len], ?_, ?_⟩
  · intro j e he
    show ((c.heap.set (c.ptrs.getD i 0) none).set c.heap.next (some x)).block
      ((c.ptrs.set i c.heap.next).getD j 0) = some e
    rw [held_set hl] at he
    rw [getD_set hlp, set_block, set_block]
    by_cases ej : j = i
    · rw [if_pos ej] at he; rw [if_pos ej, if_pos rfl]; exact he
    · rw [if_neg ej] at he
      rw [if_neg ej, if_neg (hbelow j e he), if_neg (fun h => ej (R.inj j i e d he hi h))]
      exact R.blk j e he
  · intro j k e f he hf heq
    rw [held_set hl] at he hf
    simp only [getD_set hlp] at heq
    by_cases ej : j = i <;> by_cases ek : k = i
    · omega
    · rw [if_neg ek] at hf
      rw [if_pos ej, if_neg ek] at heq
      exact absurd heq.symm (hbelow k f hf)
    · rw [if_neg ej] at he
      rw [if_neg ej, if_pos ek] at heq
      exact absurd heq (hbelow j e he)
    · rw [if_neg ej] at he
      rw [if_neg ek] at hf
      rw [if_neg ej, if_neg ek] at heq
      exact R.inj j k e f he hf heq

theorem set_getD_self (ps : List Nat) (i : Nat) : ps.set i (ps.getD i 0) = ps := by
  apply List.ext_getElem?
  intro j
  by_cases e : i = j
  · subst e
    rcases Nat.lt_or_ge i ps.length with h | h
    · rw [List.getElem?_set_self h, List.getD_eq_getElem?_getD, List.getElem?_eq_getElem h]; rfl
    · rw [List.getElem?_eq_none (by simpa using h), List.getElem?_eq_none h]
  · rw [List.getElem?_set_ne e]

/-- One action. -/
theorem client_sim {bs : Buffers} {c : Client} (R : BufRep bs c) {a : CAct} {o : CObs} {bs' : Buffers}
    (h : bufStep bs a = some (o, bs')) : ∃ c', clientStep c a = .ret (o, c') ∧ BufRep bs' c' := by
  cases a with
  | alloc r esz n =>
    simp only [bufStep] at h
    by_cases hn : 0 < esz * n ∧ esz * n < 2 ^ 64
    · rw [if_pos hn] at h
      have hm : mul64 esz n = esz * n := mul64_eq hn.2
      simp only [clientStep]
      rw [defaultAllocate_eval R.ok, hm]
      by_cases hg : grants r = true
      · rw [if_pos hg] at h ⊢
        simp only [Option.some.injEq, Prod.mk.injEq] at h
        obtain ⟨rfl, rfl⟩ := h
        exact ⟨_, rfl, R.push _⟩
      · rw [if_neg hg] at h ⊢
        simp only [Option.some.injEq, Prod.mk.injEq] at h
        obtain ⟨rfl, rfl⟩ := h
        exact ⟨_, rfl, R.push_none⟩
    · rw [if_neg hn] at h; cases h
  | realloc r i esz n =>
    simp only [bufStep] at h
    cases hi : held bs i with
    | none => rw [hi] at h; cases h
    | some d =>
      rw [hi] at h
      simp only at h
      by_cases hn : 0 < esz * n ∧ esz * n < 2 ^ 64
      · rw [if_pos hn] at h
        have hm : mul64 esz n = esz * n := mul64_eq hn.2
        simp only [clientStep]
        rw [defaultReallocate_eval R.ok r (R.blk i d hi), hm]
        have hne : esz * n ≠ 0 := by omega
        cases r
        · rw [if_neg (by simp [grants])] at h
          simp only [Option.some.injEq, Prod.mk.injEq] at h
          obtain ⟨rfl, rfl⟩ := h
          refine ⟨_, rfl, ?_⟩
          simp only [set_getD_self]
          exact R
        · rw [if_pos (by simp [grants])] at h
          simp only [Option.some.injEq, Prod.mk.injEq] at h
          obtain ⟨rfl, rfl⟩ := h
          exact ⟨_, rfl, R.move hi _⟩
        · rw [if_pos (by simp [grants])] at h
          simp only [Option.some.injEq, Prod.mk.injEq] at h
          obtain ⟨rfl, rfl⟩ := h
          refine ⟨_, rfl, ?_⟩
          simp only [set_getD_self]
          exact R.update hi _ (Or.inl rfl)
        · rw [if_neg (by simp [grants])] at h
          simp only [Option.some.injEq, Prod.mk.injEq] at h
          obtain ⟨rfl, rfl⟩ := h
          simp only [if_neg hne]
          refine ⟨_, rfl, ?_⟩
          simp only [set_getD_self]
          exact R
      · rw [if_neg hn] at h; cases h
  | dealloc i esz n =>
    simp only [bufStep] at h
    cases hi : held bs i with
    | none => rw [hi] at h; cases h
    | some d =>
      rw [hi] at h
      simp only [Option.some.injEq, Prod.mk.injEq] at h
      obtain ⟨rfl, rfl⟩ := h
      have hb := R.blk i d hi
      have hp := (R.ok.2 _ _ hb).1
      simp only [clientStep, defaultDeallocate, cFree]
      rw [if_neg (by omega), hb]
      exact ⟨_, rfl, R.update hi none (Or.inr ⟨rfl, rfl⟩)⟩
  | store i off v =>
    simp only [bufStep] at h
    cases hi : held bs i with
    | none => rw [hi] at h; cases h
    | some d =>
      rw [hi] at h
      simp only at h
      have hb := R.blk i d hi
      have hp := (R.ok.2 _ _ hb).1
      by_cases ho : off < d.length
      · rw [if_pos ho] at h
        simp only [Option.some.injEq, Prod.mk.injEq] at h
        obtain ⟨rfl, rfl⟩ := h
        simp only [clientStep, heapStore]
        rw [if_neg (by omega), hb]
        simp only
        rw [if_pos ho]
        exact ⟨_, rfl, R.update hi _ (Or.inl rfl)⟩
      · rw [if_neg ho] at h; cases h
  | load i off =>
    simp only [bufStep] at h
    cases hi : held bs i with
    | none => rw [hi] at h; cases h
    | some d =>
      rw [hi] at h
      simp only at h
      have hb := R.blk i d hi
      have hp := (R.ok.2 _ _ hb).1
      by_cases ho : off < d.length
      · rw [List.getElem?_eq_getElem ho] at h
        simp only [Option.map_some, Option.some.injEq, Prod.mk.injEq] at h
        obtain ⟨rfl, rfl⟩ := h
        simp only [clientStep, heapLoad]
        rw [if_neg (by omega), hb]
        simp only
        rw [dif_pos ho]
        exact ⟨_, rfl, R⟩
      · rw [List.getElem?_eq_none (by omega)] at h; cases h

theorem client_run_sim : ∀ (as : List CAct) {bs : Buffers} {c : Client}, BufRep bs c →
    ∀ {os : List CObs} {bs' : Buffers}, bufRun bs as = some (os, bs') →
    ∃ c', clientRun c as = .ret (os, c') ∧ BufRep bs' c'
  | [], bs, c, R, os, bs', h => by
    simp only [bufRun, Option.some.injEq, Prod.mk.injEq] at h
    obtain ⟨rfl, rfl⟩ := h
    exact ⟨c, rfl, R⟩
  | a :: as, bs, c, R, os, bs', h => by
    simp only [bufRun] at h
    cases h1 : bufStep bs a with
    | none => rw [h1] at h; cases h
    | some r =>
      obtain ⟨o, bs1⟩ := r
      rw [h1] at h
      simp only [Option.bind_some] at h
      cases h2 : bufRun bs1 as with
      | none => rw [h2] at h; cases h
      | some r2 =>
        obtain ⟨os2, bs2⟩ := r2
        rw [h2] at h
        simp only [Option.bind_some, Option.some.injEq, Prod.mk.injEq] at h
        obtain ⟨rfl, rfl⟩ := h
        obtain ⟨c1, e1, R1⟩ := client_sim R h1
        obtain ⟨c2, e2, R2⟩ := client_run_sim as R1 h2
        refine ⟨c2, ?_, R2⟩
        simp only [clientRun, e1, Out.ret_bind', e2]

end Zy
