import Verif.Lemmas.ListFrame
import Verif.Lemmas.ListProps
import Verif.Spec.SharedLists

/-!
# Lemmas about lists that share the memory
-/

namespace Zy

open Spec

variable {α : Type}

/-- The addresses of a chain. -/
abbrev addrs (ch : List (Nat × Cell α)) : List Nat := ch.map Prod.fst

/-- Memory is always taken back. -/
def FreesAll (f : Nat → Status) (_ : Nat × Nat) : Prop := ∀ k, failed (f k) = false

theorem freesAll_ok (K : Source) : FreesOK FreesAll K := fun _ _ h _ _ k => h k

/-- What list `i` looks like in the memory of all. -/
structure SLPart (mem : Nat → Option (LNode α)) (l : ZList) (dt : Bool) (es : List (Cell α))
    (ch : List (Nat × Cell α)) : Prop where
  alloc : ∃ a, l.allocator = some a
  dtor : l.hasDtor = dt
  esz : 16 + l.esz < 18446744073709551616
  unused : l.firstUnused = none
  seg : Seg mem none ch none
  nodup : (addrs ch).Nodup
  ends : Ends l ch
  elems : es = ch.map Prod.snd

/-- The state of the program represents the queues; `chs i` is the chain of list `i`. -/
structure SLInv (answer : Nat → Status) (h : LHeap α) (d : Deques α) (chs : Nat → List (Nat × Cell α)) : Prop where
  len : h.lists.length = d.lists.length
  part : ∀ i, match h.get i, d.get i with
    | none, none => chs i = []
    | some l, some (dt, es) => SLPart h.mem l dt es (chs i)
    | _, _ => False
  disj : ∀ i j a, i ≠ j → a ∈ addrs (chs i) → a ∉ addrs (chs j)
  new : ∀ p, h.w.nextBlk ≤ p → h.mem p = none
  answers : h.w.allocSt = answer
  asked : h.w.calls = d.asked
  dead : lDestroyed h.w.trace = d.dead
  frees : ∀ k, failed (h.w.freeSt k) = false
  live : ∃ L, liveNodes h.w.trace = some L ∧ L.Nodup ∧ ∀ x, x ∈ L ↔
    ∃ i l, h.get i = some l ∧ l.allocator = some x.1 ∧ x.2.1 ∈ addrs (chs i) ∧ x.2.2 = 16 + l.esz

theorem seg_addr {m : Nat → Option (LNode α)} {p q : Option Nat} {ch : List (Nat × Cell α)} (hs : Seg m p ch q)
    {a : Nat} (ha : a ∈ addrs ch) : ∃ n, m a = some n := by
  obtain ⟨x, hx, rfl⟩ := List.mem_map.1 ha
  obtain ⟨_, _, h⟩ := seg_mem hs hx
  exact ⟨_, h⟩

/-! ## A trace that the list could have had if it were alone -/

/-- The elements `dead` were destroyed, then the nodes `own` were allocated. -/
def ownTrace (dead : List (Cell α)) (own : List Nat) (a bytes : Nat) : List (Event α) :=
  dead.map Event.destroy ++ own.map fun p => .alloc a p bytes 1

theorem ownTrace_dead (dead : List (Cell α)) (own : List Nat) (a bytes : Nat) :
    lDestroyed (ownTrace dead own a bytes) = dead := by
  unfold lDestroyed ownTrace
  rw [List.filterMap_append, List.filterMap_map, List.filterMap_map]
  show List.filterMap (fun x => some x) dead ++ List.filterMap (fun _ => none) own = dead
  simp

theorem ownTrace_live (dead : List (Cell α)) (own : List Nat) (a bytes : Nat) (hn : own.Nodup) :
    ∃ L, liveNodes (ownTrace dead own a bytes) = some L ∧ L.Perm (own.map fun p => (a, p, bytes)) := by
  have h1 : ∀ (xs : List (Cell α)) (L : List (Nat × Nat × Nat)),
      List.foldl nodesStep (some L) (xs.map Event.destroy) = some L := by
    intro xs
    induction xs with
    | nil => intro L; rfl
    | cons x xs ih => intro L; exact ih L
  have h2 : ∀ (own : List Nat) (L : List (Nat × Nat × Nat)), own.Nodup → (∀ x ∈ L, x.2.1 ∉ own) →
      ∃ L', List.foldl nodesStep (some L) (own.map fun p => (.alloc a p bytes 1 : Event α)) = some L' ∧
        L'.Perm (own.map (fun p => (a, p, bytes)) ++ L) := by
    intro own
    induction own with
    | nil => intro L _ _; exact ⟨L, rfl, List.Perm.refl _⟩
    | cons p own ih =>
      intro L hn hL
      obtain ⟨hp, hn⟩ := List.nodup_cons.1 hn
      have hstep : nodesStep (some L) (.alloc a p bytes 1 : Event α) = some ((a, p, bytes) :: L) := by
        unfold nodesStep
        dsimp only
        rw [if_neg]
        rintro (⟨x, hx, rfl⟩ | h)
        · exact hL x hx (List.mem_cons_self ..)
        · exact h rfl
      obtain ⟨L', h3, h4⟩ := ih ((a, p, bytes) :: L) hn (by
        intro x hx
        rcases List.mem_cons.1 hx with rfl | hx
        · exact hp
        · exact fun e => hL x hx (List.mem_cons_of_mem _ e))
      refine ⟨L', ?_, h4.trans ?_⟩
      · rw [List.map_cons, List.foldl_cons, hstep]; exact h3
      · rw [List.map_cons, List.cons_append]; exact List.perm_middle
  obtain ⟨L, h3, h4⟩ := h2 own [] hn (by simp)
  refine ⟨L, ?_, by simpa using h4⟩
  unfold liveNodes ownTrace
  rw [List.foldl_append, h1, h3]

/-! ## Replaying a trace with more nodes around -/

theorem live_frame {n₀ : Nat} {rest : List (Nat × Nat × Nat)} (hr : ∀ x ∈ rest, x.2.1 < n₀) (D : List (Event α)) :
    ∀ {L L' M : List (Nat × Nat × Nat)}, (∀ a p b n, .alloc a p b n ∈ D → n₀ ≤ p) →
      List.foldl nodesStep (some L) D = some L' → M.Perm (L ++ rest) →
      ∃ M', List.foldl nodesStep (some M) D = some M' ∧ M'.Perm (L' ++ rest) := by
  have hnone : ∀ D : List (Event α), List.foldl nodesStep none D = none := by
    intro D
    induction D with
    | nil => rfl
    | cons e D ih => exact ih
  induction D with
  | nil =>
    intro L L' M _ h hp
    cases h
    exact ⟨M, rfl, hp⟩
  | cons e D ih =>
    intro L L' M hD h hp
    rw [List.foldl_cons] at h ⊢
    have hD' : ∀ a p b n, .alloc a p b n ∈ D → n₀ ≤ p :=
      fun a p b n hm => hD a p b n (List.mem_cons_of_mem _ hm)
    cases e with
    | destroy x => exact ih hD' h hp
    | refused a => exact ih hD' h hp
    | realloc => rw [show nodesStep (some L) _ = none from rfl, hnone] at h; cases h
    | alloc a p b n =>
      have hpn := hD a p b n (List.mem_cons_self ..)
      by_cases hc : (∃ x ∈ L, x.2.1 = p) ∨ n ≠ 1
      · rw [show nodesStep (some L) (.alloc a p b n : Event α) = none from if_pos hc, hnone] at h; cases h
      · rw [show nodesStep (some L) (.alloc a p b n : Event α) = some ((a, p, b) :: L) from if_neg hc] at h
        have hc' : ¬ ((∃ x ∈ M, x.2.1 = p) ∨ n ≠ 1) := by
          rintro (⟨x, hx, rfl⟩ | hn)
          · rcases List.mem_append.1 (hp.mem_iff.1 hx) with hx | hx
            · exact hc (Or.inl ⟨x, hx, rfl⟩)
            · have := hr x hx; omega
          · exact hc (Or.inr hn)
        rw [show nodesStep (some M) (.alloc a p b n : Event α) = some ((a, p, b) :: M) from if_neg hc']
        exact ih hD' h (hp.cons _)
    | dealloc a p b n =>
      by_cases hc : (a, p, b) ∈ L ∧ n = 1
      · rw [show nodesStep (some L) (.dealloc a p b n : Event α) = some (L.erase (a, p, b)) from if_pos hc] at h
        have hc' : (a, p, b) ∈ M ∧ n = 1 := ⟨hp.mem_iff.2 (List.mem_append_left _ hc.1), hc.2⟩
        rw [show nodesStep (some M) (.dealloc a p b n : Event α) = some (M.erase (a, p, b)) from if_pos hc']
        refine ih hD' h ?_
        have := hp.erase (a, p, b)
        rwa [List.erase_append_left _ hc.1] at this
      · rw [show nodesStep (some L) (.dealloc a p b n : Event α) = none from if_neg hc, hnone] at h; cases h

/-! ## One list alone, and the others around it -/

section Step

variable {answer : Nat → Status} {h : LHeap α} {d : Deques α} {chs : Nat → List (Nat × Cell α)}

/-- The state of list `i` if it were alone. -/
def alone (h : LHeap α) (l : ZList) (ch : List (Nat × Cell α)) (dead : List (Cell α)) (a : Nat) : LS α :=
  ⟨l, fun p => if p ∈ addrs ch then h.mem p else none,
    { h.w with trace := ownTrace dead (addrs ch) a (16 + l.esz) }⟩

/-- The nodes of the other lists (and whatever else is in the memory). -/
def around (h : LHeap α) (ch : List (Nat × Cell α)) : Nat → Option (LNode α) :=
  fun p => if p ∈ addrs ch then none else h.mem p

theorem alone_rep (I : SLInv answer h d chs) {i : Nat} {l : ZList} {dt : Bool} {es : List (Cell α)}
    (hp : SLPart h.mem l dt es (chs i)) {a : Nat} (ha : l.allocator = some a) :
    LRep FreesAll (.dynamic answer) dt (alone h l (chs i) d.dead a) (chs i) [] ⟨es, d.asked, d.dead⟩ := by
  obtain ⟨L, hL, hLp⟩ := ownTrace_live d.dead (addrs (chs i)) a (16 + l.esz) hp.nodup
  refine ⟨⟨?_, ?_, hp.dtor, ownTrace_dead .., ?_, I.frees, a, ha, rfl, I.answers, I.asked, hp.esz, ?_, L, hL, ?_⟩,
    hp.ends, hp.elems⟩
  · exact seg_frame (fun p hm => if_pos hm) hp.seg
  · simpa using hp.nodup
  · exact hp.unused
  · intro p hm
    show (if p ∈ addrs (chs i) then h.mem p else none) = none
    rw [I.new p hm, ite_self]
  · rw [List.append_nil]; exact hLp

theorem around_fr (I : SLInv answer h d chs) (l : ZList) (i a : Nat) :
    Fr (around h (chs i)) h.w.nextBlk (ownTrace d.dead (addrs (chs i)) a (16 + l.esz)) h.w.trace
      (alone h l (chs i) d.dead a) (h.with l) := by
  refine ⟨rfl, rfl, ⟨[], by simp [alone], by simp [LHeap.with], by simp⟩, Nat.le_refl _, ?_, ?_, ?_⟩
  · intro p
    show h.mem p = if (around h (chs i) p).isSome then around h (chs i) p else
      if p ∈ addrs (chs i) then h.mem p else none
    unfold around
    by_cases hm : p ∈ addrs (chs i)
    · simp [hm]
    · simp only [hm, if_false]
      cases h.mem p <;> rfl
  · intro p hs
    show (if p ∈ addrs (chs i) then h.mem p else none) = none
    unfold around at hs
    by_cases hm : p ∈ addrs (chs i)
    · rw [if_pos hm] at hs; cases hs
    · rw [if_neg hm]
  · intro p hs
    unfold around at hs
    by_cases hm : p ∈ addrs (chs i)
    · rw [if_pos hm] at hs; cases hs
    · rw [if_neg hm] at hs
      rcases Nat.lt_or_ge p h.w.nextBlk with hlt | hge
      · exact hlt
      · rw [I.new p hge] at hs; cases hs

/-- The new invariant after a call for list `i` (which may have been its destruction: then `o` and `od` are
`none` and the chain is empty). -/
theorem SLInv.change (I : SLInv answer h d chs) {i : Nat} {l lt : ZList} {dt : Bool} {es : List (Cell α)}
    (hi : h.get i = some l) (hp : SLPart h.mem l dt es (chs i)) {a : Nat} (ha : l.allocator = some a) {t t' : LS α}
    (F : Fr (around h (chs i)) h.w.nextBlk (ownTrace d.dead (addrs (chs i)) a (16 + l.esz)) h.w.trace t t')
    {ch : List (Nat × Cell α)} {fs : List Nat} {asked : Nat} {dead : List (Cell α)}
    (C : Core FreesAll (.dynamic answer) dt none lt t.mem t.w ch [] fs asked dead)
    {o : Option ZList} {od : Option (Bool × List (Cell α))}
    (ho : (o = some lt ∧ Ends lt ch ∧ od = some (dt, ch.map Prod.snd)) ∨ (o = none ∧ od = none ∧ ch = [])) :
    SLInv answer ⟨h.lists.set i o, t'.mem, t'.w⟩ ⟨d.lists.set i od, asked, dead⟩
      (fun j => if j = i then ch else chs j) := by
  obtain ⟨a', ha', hfs, hans, hask, hesz, hnew, L', hL', hLp'⟩ := C.src
  obtain ⟨D, hD, hD', hDa⟩ := F.tr
  have hlt : i < h.lists.length := by
    by_cases hlt : i < h.lists.length
    · exact hlt
    · unfold LHeap.get at hi
      rw [List.getElem?_eq_none (by omega)] at hi; cases hi
  have hget : ∀ j, (⟨h.lists.set i o, t'.mem, t'.w⟩ : LHeap α).get j = if j = i then o else h.get j := by
    intro j
    show (h.lists.set i o)[j]?.join = _
    by_cases e : j = i
    · subst e; rw [List.getElem?_set_self hlt, if_pos rfl]; rfl
    · rw [List.getElem?_set_ne (fun x => e x.symm), if_neg e]; rfl
  have hget' : ∀ j, (⟨d.lists.set i od, asked, dead⟩ : Deques α).get j = if j = i then od else d.get j := by
    intro j
    show (d.lists.set i od)[j]?.join = _
    by_cases e : j = i
    · subst e; rw [List.getElem?_set_self (I.len ▸ hlt), if_pos rfl]; rfl
    · rw [List.getElem?_set_ne (fun x => e x.symm), if_neg e]; rfl
  -- nodes of the list itself and of the others in the new memory
  have hown : ∀ p ∈ addrs ch, t'.mem p = t.mem p ∧ around h (chs i) p = none := by
    intro p hpm
    obtain ⟨n, hn⟩ := seg_addr C.seg hpm
    have hR := F.none hn
    exact ⟨by rw [F.mem, hR]; rfl, hR⟩
  have hseg : ∀ j, Seg h.mem none (chs j) none := by
    intro j
    have := I.part j
    split at this
    · rw [this]; trivial
    · exact this.seg
    · exact this.elim
  have hoth : ∀ j, j ≠ i → ∀ p ∈ addrs (chs j), (around h (chs i) p).isSome ∧ t'.mem p = h.mem p := by
    intro j hj p hpm
    obtain ⟨n, hn⟩ := seg_addr (hseg j) hpm
    have hR : around h (chs i) p = some n := by
      unfold around
      rw [if_neg (I.disj j i p hj hpm), hn]
    refine ⟨by rw [hR]; rfl, ?_⟩
    rw [F.mem, hR, hn]; rfl
  refine ⟨by simpa using I.len, ?_, ?_, ?_, ?_, ?_, ?_, ?_, ?_⟩
  · intro j
    rw [hget, hget']
    by_cases e : j = i
    · subst e
      simp only [if_true]
      rcases ho with ⟨rfl, hE, rfl⟩ | ⟨rfl, rfl, rfl⟩
      · refine ⟨⟨a', ha'⟩, C.dt, hesz, ?_, ?_, ?_, hE, rfl⟩
        · have := C.free; rw [hfs] at this; exact this
        · exact seg_frame (fun p hm => (hown p hm).1) C.seg
        · have := C.nodup; rw [hfs] at this; simpa using this
      · rfl
    · simp only [e, if_false]
      have := I.part j
      split at this
      · assumption
      · rename_i hx hy
        exact ⟨this.alloc, this.dtor, this.esz, this.unused,
          seg_frame (fun p hm => (hoth j e p hm).2) this.seg, this.nodup, this.ends, this.elems⟩
      · exact this
  · intro j k p hjk hpj hpk
    by_cases e : j = i
    · subst e
      rw [if_pos rfl] at hpj
      rw [if_neg (fun x => hjk x.symm)] at hpk
      have h1 := (hown p hpj).2
      have h2 := (hoth k (fun x => hjk x.symm) p hpk).1
      rw [h1] at h2; cases h2
    · rw [if_neg e] at hpj
      by_cases e' : k = i
      · subst e'
        rw [if_pos rfl] at hpk
        have h1 := (hown p hpk).2
        have h2 := (hoth j e p hpj).1
        rw [h1] at h2; cases h2
      · rw [if_neg e'] at hpk
        exact I.disj j k p hjk hpj hpk
  · intro p hpn
    have hnb : t.w.nextBlk ≤ p := by
      have : t'.w.nextBlk = t.w.nextBlk := F.nextBlk
      have hpn : t'.w.nextBlk ≤ p := hpn
      omega
    show t'.mem p = none
    rw [F.mem, hnew p hnb]
    cases hR : around h (chs i) p with
    | none => rfl
    | some n => have := F.low p (by rw [hR]; rfl); have := F.nb; omega
  · show t'.w.allocSt = answer
    rw [F.w]; exact hans
  · show t'.w.calls = asked
    rw [F.w]; exact hask
  · show lDestroyed t'.w.trace = dead
    have hd := C.dead
    have hsplit : ∀ x y : List (Event α), lDestroyed (x ++ y) = lDestroyed x ++ lDestroyed y :=
      fun x y => List.filterMap_append
    rw [hD, hsplit, ownTrace_dead] at hd
    rw [hD', hsplit, I.dead, hd]
  · intro k
    show failed (t'.w.freeSt k) = false
    rw [F.w]; exact C.frees k
  · obtain ⟨M, hM, hMn, hMm⟩ := I.live
    obtain ⟨L, hL, hLp⟩ := ownTrace_live d.dead (addrs (chs i)) a (16 + l.esz) hp.nodup
    have hinj : ∀ (b c : Nat) (xs : List Nat), xs.Nodup → (xs.map fun p => (b, p, c)).Nodup := by
      intro b c xs hx
      refine List.Pairwise.map _ (fun x y hxy e => hxy ?_) hx
      exact (Prod.mk.inj (Prod.mk.inj e).2).1
    have hLn : L.Nodup := hLp.nodup_iff.2 (hinj _ _ _ hp.nodup)
    have hLmem : ∀ x, x ∈ L ↔ x.1 = a ∧ x.2.1 ∈ addrs (chs i) ∧ x.2.2 = 16 + l.esz := by
      intro x
      rw [hLp.mem_iff, List.mem_map]
      constructor
      · rintro ⟨p, hp, rfl⟩; exact ⟨rfl, hp, rfl⟩
      · rintro ⟨h1, h2, h3⟩; exact ⟨x.2.1, h2, by rw [← h1, ← h3]⟩
    have hLM : ∀ x ∈ L, x ∈ M := by
      intro x hx
      obtain ⟨h1, h2, h3⟩ := (hLmem x).1 hx
      exact (hMm x).2 ⟨i, l, hi, by rw [h1]; exact ha, h2, h3⟩
    have hrest : ∀ x ∈ M.filter (fun x => decide (x ∉ L)), ∃ j m, j ≠ i ∧ h.get j = some m ∧
        m.allocator = some x.1 ∧ x.2.1 ∈ addrs (chs j) ∧ x.2.2 = 16 + m.esz := by
      intro x hx
      obtain ⟨hx1, hx2⟩ := List.mem_filter.1 hx
      obtain ⟨j, m, hj, hma, hmp, hme⟩ := (hMm x).1 hx1
      refine ⟨j, m, ?_, hj, hma, hmp, hme⟩
      rintro rfl
      rw [hi] at hj
      cases hj
      rw [ha] at hma
      cases hma
      exact of_decide_eq_true hx2 ((hLmem x).2 ⟨rfl, hmp, hme⟩)
    have hMp : M.Perm (L ++ M.filter (fun x => decide (x ∉ L))) := by
      refine (List.perm_ext_iff_of_nodup hMn ?_).2 ?_
      · refine List.nodup_append.2 ⟨hLn, hMn.filter _, ?_⟩
        rintro x hx y hy rfl
        exact of_decide_eq_true (List.mem_filter.1 hy).2 hx
      · intro x
        rw [List.mem_append, List.mem_filter]
        constructor
        · intro hx
          by_cases hxL : x ∈ L
          · exact Or.inl hxL
          · exact Or.inr ⟨hx, decide_eq_true hxL⟩
        · rintro (hx | hx)
          · exact hLM x hx
          · exact hx.1
    have hlow : ∀ x ∈ M.filter (fun x => decide (x ∉ L)), x.2.1 < h.w.nextBlk := by
      intro x hx
      obtain ⟨j, m, hj, _, _, hxp, _⟩ := hrest x hx
      exact F.low _ (hoth j hj _ hxp).1
    have hfold : List.foldl nodesStep (some L) D = some L' := by
      have := hL'
      rw [hD] at this
      unfold liveNodes at this hL
      rw [List.foldl_append, hL] at this
      exact this
    obtain ⟨M', hM', hMp'⟩ := live_frame hlow D hDa hfold hMp
    have hn' : (addrs ch).Nodup := by have := C.nodup; rw [hfs] at this; simpa using this
    have hL'mem : ∀ x, x ∈ L' ↔ x.1 = a' ∧ x.2.1 ∈ addrs ch ∧ x.2.2 = 16 + lt.esz := by
      intro x
      rw [hLp'.mem_iff, List.append_nil, List.mem_map]
      constructor
      · rintro ⟨p, hp, rfl⟩; exact ⟨rfl, hp, rfl⟩
      · rintro ⟨h1, h2, h3⟩; exact ⟨x.2.1, h2, by rw [← h1, ← h3]⟩
    refine ⟨M', ?_, ?_, ?_⟩
    · show liveNodes t'.w.trace = some M'
      rw [hD']
      unfold liveNodes at hM ⊢
      rw [List.foldl_append, hM, hM']
    · refine hMp'.nodup_iff.2 (List.nodup_append.2 ⟨?_, hMn.filter _, ?_⟩)
      · refine hLp'.nodup_iff.2 (hinj _ _ _ ?_)
        rw [List.append_nil]; exact hn'
      · rintro x hx y hy rfl
        obtain ⟨j, m, hj, _, _, hxp, _⟩ := hrest x hy
        have h1 := (hoth j hj _ hxp).1
        rw [(hown _ ((hL'mem x).1 hx).2.1).2] at h1
        cases h1
    · intro x
      rw [hMp'.mem_iff, List.mem_append]
      constructor
      · rintro (hx | hx)
        · obtain ⟨h1, h2, h3⟩ := (hL'mem x).1 hx
          rcases ho with ⟨rfl, _, _⟩ | ⟨_, _, rfl⟩
          · exact ⟨i, lt, by rw [hget, if_pos rfl], by rw [h1]; exact ha', by rw [if_pos rfl]; exact h2, h3⟩
          · cases h2
        · obtain ⟨j, m, hj, h1, h2, h3, h4⟩ := hrest x hx
          exact ⟨j, m, by rw [hget, if_neg hj]; exact h1, h2, by rw [if_neg hj]; exact h3, h4⟩
      · rintro ⟨j, m, h1, h2, h3, h4⟩
        rw [hget] at h1
        by_cases e : j = i
        · subst e
          rw [if_pos rfl] at h1 h3
          rcases ho with ⟨rfl, _, _⟩ | ⟨rfl, _, rfl⟩
          · cases h1
            rw [ha'] at h2
            cases h2
            exact Or.inl ((hL'mem x).2 ⟨rfl, h3, h4⟩)
          · cases h1
        · rw [if_neg e] at h1 h3
          refine Or.inr (List.mem_filter.2 ⟨(hMm x).2 ⟨j, m, h1, h2, h3, h4⟩, decide_eq_true ?_⟩)
          intro hx
          exact I.disj j i _ e h3 ((hLmem x).1 hx).2.1

/-- A call for an existing list. -/
theorem on_ok (I : SLInv answer h d chs) {i : Nat} {l : ZList} {dt : Bool} {es : List (Cell α)}
    (hi : h.get i = some l) (hd : d.get i = some (dt, es)) (op : LOp α)
    (hf : LFits (.dynamic answer) (⟨es, d.asked, d.dead⟩ : Deque α) op) :
    ∃ junk s' chs', junk.length = ljunk (⟨es, d.asked, d.dead⟩ : Deque α) op ∧
      listOp (h.with l) op = .ret ((lstep (.dynamic answer) dt junk ⟨es, d.asked, d.dead⟩ op).1, s') ∧
      SLInv answer (h.store i s') (d.put i dt (lstep (.dynamic answer) dt junk ⟨es, d.asked, d.dead⟩ op).2) chs' := by
  have hp := I.part i
  rw [hi, hd] at hp
  obtain ⟨a, ha⟩ := hp.alloc
  obtain ⟨junk, t, ch, fs, hj, h1, R⟩ := listOp_ok (freesAll_ok _) (alone_rep I hp ha) op hf
  obtain ⟨⟨st, t'⟩, h2, h3, F⟩ := listOp_fr (around_fr I l i a) op _ h1
  obtain rfl : st = _ := h3
  refine ⟨junk, t', fun j => if j = i then ch else chs j, hj, h2, ?_⟩
  have hl : t'.l = t.l := F.l
  unfold LHeap.store Deques.put
  refine I.change hi hp ha F R.core (Or.inl ⟨by rw [hl], R.ends, by rw [R.elems]⟩)

/-- The destruction of an existing list. -/
theorem sldestroy_ok (I : SLInv answer h d chs) {i : Nat} {l : ZList} {dt : Bool} {es : List (Cell α)}
    (hi : h.get i = some l) (hd : d.get i = some (dt, es)) :
    ∃ s' chs', listDestroy (h.with l) = .ret (stSuccess, s') ∧
      SLInv answer ⟨h.lists.set i none, s'.mem, s'.w⟩
        ⟨d.lists.set i none, d.asked, d.dead ++ buried dt es⟩ chs' := by
  have hp := I.part i
  rw [hi, hd] at hp
  obtain ⟨a, ha⟩ := hp.alloc
  obtain ⟨t, h1, _, C⟩ := destroy_ok (freesAll_ok _) (alone_rep I hp ha)
  obtain ⟨⟨st, t'⟩, h2, h3, F⟩ := listDestroy_fr (around_fr I l i a) _ h1
  obtain rfl : st = _ := h3
  exact ⟨t', _, h2, I.change hi hp ha F C (Or.inr ⟨rfl, rfl, rfl⟩)⟩

/-- A pointer to the data of a node gives what the node contains. -/
theorem copyData_node {s : LS α} {p : Option Nat} {q : Nat} {nd : LNode α} (h : s.mem q = some nd) :
    copyData s p (.node q) = copyData s p (.ext nd.data) := by
  simp only [copyData, readSrc, deref_some h, Out.ret_bind']

theorem initBack_other {s t : LS α} {p q : Nat} (h : initBack s (some p) = .ret t) (hq : q ≠ p) :
    t.mem q = s.mem q := by
  cases hm : s.mem p with
  | none => simp [initBack, storePrev, deref, hm] at h
  | some nd =>
    rw [initBack_eq hm] at h
    cases h
    exact put_ne _ _ hq

theorem initFront_other {s t : LS α} {p q : Nat} (h : initFront s (some p) = .ret t) (hq : q ≠ p) :
    t.mem q = s.mem q := by
  cases hm : s.mem p with
  | none => simp [initFront, storePrev, deref, hm] at h
  | some nd =>
    rw [initFront_eq hm] at h
    cases h
    exact put_ne _ _ hq

theorem nodeAllocate_other (s : LS α) (a : Nat) {q : Nat} (hq : q < s.w.nextBlk) :
    (failed (nodeAllocate s a).1 = true ∨ (nodeAllocate s a).2.1 = some s.w.nextBlk) ∧
      (nodeAllocate s a).2.2.mem q = s.mem q := by
  unfold nodeAllocate
  dsimp only
  split
  · rename_i hf
    exact ⟨Or.inl hf, rfl⟩
  · refine ⟨Or.inr rfl, ?_⟩
    show (if q = s.w.nextBlk then _ else s.mem q) = s.mem q
    rw [if_neg (by omega)]

theorem pushBack_node {s : LS α} {a q : Nat} {nd : LNode α} (ha : s.l.allocator = some a) (h : s.mem q = some nd)
    (hq : q < s.w.nextBlk) : listPushBack s (.node q) = listPushBack s (.ext nd.data) := by
  have key := nodeAllocate_other s a hq
  unfold listPushBack listAllocateNode
  rw [if_neg (show ¬ LSrc.isNull (.node q : LSrc α) = true from Bool.false_ne_true),
    if_neg (show ¬ LSrc.isNull (.ext nd.data : LSrc α) = true from Bool.false_ne_true), ha]
  dsimp only
  by_cases hf : failed (nodeAllocate s a).1 = true
  · rw [if_pos hf, Out.ret_bind', Out.ret_bind', if_pos hf, if_pos hf]
  · rw [if_neg hf, Out.ret_bind', Out.ret_bind', if_neg (by rw [failed_success]; exact Bool.false_ne_true)]
    rw [if_neg (by rw [failed_success]; exact Bool.false_ne_true)]
    dsimp only
    rw [key.1.resolve_left hf]
    cases ht : initBack (nodeAllocate s a).2.2 (some s.w.nextBlk) with
    | ub u => rfl
    | ret t =>
      rw [Out.ret_bind', Out.ret_bind', copyData_node (nd := nd)]
      rw [initBack_other ht (by omega), key.2, h]

theorem pushFront_node {s : LS α} {a q : Nat} {nd : LNode α} (ha : s.l.allocator = some a) (h : s.mem q = some nd)
    (hq : q < s.w.nextBlk) : listPushFront s (.node q) = listPushFront s (.ext nd.data) := by
  have key := nodeAllocate_other s a hq
  unfold listPushFront listAllocateNode
  rw [if_neg (show ¬ LSrc.isNull (.node q : LSrc α) = true from Bool.false_ne_true),
    if_neg (show ¬ LSrc.isNull (.ext nd.data : LSrc α) = true from Bool.false_ne_true), ha]
  dsimp only
  by_cases hf : failed (nodeAllocate s a).1 = true
  · rw [if_pos hf, Out.ret_bind', Out.ret_bind', if_pos hf, if_pos hf]
  · rw [if_neg hf, Out.ret_bind', Out.ret_bind', if_neg (by rw [failed_success]; exact Bool.false_ne_true)]
    rw [if_neg (by rw [failed_success]; exact Bool.false_ne_true)]
    dsimp only
    rw [key.1.resolve_left hf]
    cases ht : initFront (nodeAllocate s a).2.2 (some s.w.nextBlk) with
    | ub u => rfl
    | ret t =>
      rw [Out.ret_bind', Out.ret_bind', copyData_node (nd := nd)]
      rw [initFront_other ht (by omega), key.2, h]

theorem SLInv.nodeAt (I : SLInv answer h d chs) {i : Nat} {l : ZList} {dt : Bool} {es : List (Cell α)}
    (hi : h.get i = some l) (hd : d.get i = some (dt, es)) (k : Nat) :
    nodeAt (h.with l) k = .ret ((chs i)[k]?.map Prod.fst) := by
  have hp := I.part i
  rw [hi, hd] at hp
  unfold Zy.nodeAt listGetHead
  rw [show (h.with l).l.head = firstOf (chs i) none from hp.ends.head]
  exact seek_ok k hp.seg

theorem SLInv.both (I : SLInv answer h d chs) (i : Nat) :
    (h.get i = none ∧ d.get i = none) ∨ ∃ l dt es, h.get i = some l ∧ d.get i = some (dt, es) ∧
      SLPart h.mem l dt es (chs i) := by
  have := I.part i
  split at this
  · rename_i h1 h2; exact Or.inl ⟨h1, h2⟩
  · rename_i l dt es h1 h2; exact Or.inr ⟨l, dt, es, h1, h2, this⟩
  · exact this.elim

theorem SLInv.store_same (_ : SLInv answer h d chs) {i : Nat} {l : ZList} (hi : h.get i = some l) :
    h.store i (h.with l) = h := by
  unfold LHeap.store LHeap.with
  have : h.lists.set i (some l) = h.lists := by
    apply List.ext_getElem?
    intro j
    by_cases e : j = i
    · subst e
      unfold LHeap.get at hi
      cases hj : h.lists[j]? with
      | none => rw [hj] at hi; cases hi
      | some o =>
        rw [hj] at hi
        obtain ⟨hlt, _⟩ := List.getElem?_eq_some_iff.1 hj
        rw [List.getElem?_set_self hlt]
        exact congrArg some hi.symm
    · rw [List.getElem?_set_ne (fun x => e x.symm)]
  dsimp only
  rw [this]

/-- One operation of the program. -/
theorem slOp_ok (I : SLInv answer h d chs) (op : SLOp α)
    (hs : ∀ esz dt a, op = .create esz dt a → 16 + esz < 18446744073709551616)
    {B : Nat} (hB : ∀ i dt es, d.get i = some (dt, es) → es.length ≤ B)
    (hc : B + slcost op < 18446744073709551616) :
    ∃ junk h' chs', junk.length = sljunk d op ∧ slOp h op = .ret ((slstep answer junk d op).1, h') ∧
      SLInv answer h' (slstep answer junk d op).2 chs' := by
  cases op with
  | create esz dt a =>
    simp only [slOp, slstep, listInitEx]
    by_cases he : esz = 0
    · refine ⟨[], h, chs, rfl, ?_, ?_⟩
      · simp [he]
      · simpa [he] using I
    · have hne : ¬ (esz = 0 ∨ some a = none) := by simp [he]
      simp only [if_neg hne, if_neg he]
      refine ⟨[], _, chs, rfl, rfl, ?_⟩
      have hnone : chs h.lists.length = [] := by
        rcases I.both h.lists.length with ⟨h1, h2⟩ | ⟨l, dt, es, h1, _, _⟩
        · have := I.part h.lists.length
          rw [h1, h2] at this
          exact this
        · unfold LHeap.get at h1
          rw [List.getElem?_eq_none (Nat.le_refl _)] at h1; cases h1
      have hg : ∀ j (o : Option ZList), (⟨h.lists ++ [o], h.mem, h.w⟩ : LHeap α).get j =
          if j = h.lists.length then o else h.get j := by
        intro j o
        show (h.lists ++ [o])[j]?.join = _
        by_cases e : j = h.lists.length
        · subst e; simp
        · rw [if_neg e]
          rcases Nat.lt_or_ge j h.lists.length with hlt | hge
          · rw [List.getElem?_append_left hlt]; rfl
          · unfold LHeap.get
            rw [List.getElem?_eq_none (by simp; omega), List.getElem?_eq_none hge]
      have hg' : ∀ j o, (⟨d.lists ++ [o], d.asked, d.dead⟩ : Deques α).get j =
          if j = h.lists.length then o else d.get j := by
        intro j o
        show (d.lists ++ [o])[j]?.join = _
        rw [I.len]
        by_cases e : j = d.lists.length
        · subst e; simp
        · rw [if_neg e]
          rcases Nat.lt_or_ge j d.lists.length with hlt | hge
          · rw [List.getElem?_append_left hlt]; rfl
          · unfold Deques.get
            rw [List.getElem?_eq_none (by simp; omega), List.getElem?_eq_none hge]
      refine ⟨by simpa using I.len, ?_, I.disj, I.new, I.answers, I.asked, I.dead, I.frees, ?_⟩
      · intro j
        show match (⟨h.lists ++ [some _], h.mem, h.w⟩ : LHeap α).get j,
          (⟨d.lists ++ [some (dt, [])], d.asked, d.dead⟩ : Deques α).get j with
          | none, none => chs j = []
          | some l, some (dt, es) => SLPart h.mem l dt es (chs j)
          | _, _ => False
        rw [hg, hg']
        by_cases e : j = h.lists.length
        · subst e
          simp only [if_true]
          rw [hnone]
          exact ⟨⟨a, rfl⟩, rfl, hs esz dt a rfl, rfl, trivial, List.nodup_nil, ⟨rfl, rfl, rfl, by simp⟩, rfl⟩
        · simp only [if_neg e]
          exact I.part j
      · obtain ⟨L, hL, hn, hm⟩ := I.live
        refine ⟨L, hL, hn, fun x => (hm x).trans ?_⟩
        constructor
        · rintro ⟨i, l, h1, h2⟩
          refine ⟨i, l, ?_, h2⟩
          refine (hg i _).trans ?_
          rw [if_neg ?_]
          · exact h1
          · rintro rfl
            unfold LHeap.get at h1
            rw [List.getElem?_eq_none (Nat.le_refl _)] at h1; cases h1
        · rintro ⟨i, l, h1, h2, h3, h4⟩
          have h1' := (hg i _).symm.trans h1
          by_cases e : i = h.lists.length
          · subst e
            rw [hnone] at h3; cases h3
          · rw [if_neg e] at h1'
            exact ⟨i, l, h1', h2, h3, h4⟩
  | on i op =>
    simp only [slOp, slstep, sljunk]
    rcases I.both i with ⟨h1, h2⟩ | ⟨l, dt, es, h1, h2, hp⟩
    · simp only [h1, h2]; exact ⟨[], h, chs, rfl, rfl, I⟩
    · simp only [h1, h2]
      have hlen := hB i dt es h2
      have hfit : LFits (.dynamic answer) (⟨es, d.asked, d.dead⟩ : Deque α) op := by
        have hc : B + lcost op < 18446744073709551616 := hc
        cases op <;> simp only [LFits, OneMore, lcost] at hc ⊢ <;> omega
      obtain ⟨junk, s', chs', hj, h3, I'⟩ := on_ok I h1 h2 op hfit
      refine ⟨junk, h.store i s', chs', hj, ?_, I'⟩
      rw [h3]; rfl
  | copyBack i j k =>
    simp only [slOp, slstep, sljunk]
    rcases I.both i with ⟨h1, h2⟩ | ⟨l, dt, es, h1, h2, hp⟩
    · simp only [h1, h2]; exact ⟨[], h, chs, rfl, rfl, I⟩
    · rcases I.both j with ⟨h3, h4⟩ | ⟨m, dt', es', h3, h4, hp'⟩
      · simp only [h1, h2, h3, h4]; exact ⟨[], h, chs, rfl, rfl, I⟩
      · have hel : es'[k]? = (chs j)[k]?.map Prod.snd := by rw [hp'.elems, List.getElem?_map]
        simp only [h1, h2, h3, h4, I.nodeAt h3 h4, Out.ret_bind', Option.bind_some, hel]
        cases hk : (chs j)[k]? with
        | none =>
          refine ⟨[], h, chs, rfl, ?_, I⟩
          show (listPushBack (h.with l) .null).bind _ = _
          show Out.ret (stInvalidArgument, h.store i (h.with l)) = _
          rw [I.store_same h1]; rfl
        | some x =>
          obtain ⟨pr, nx, hm⟩ := seg_mem hp'.seg (List.mem_of_getElem? hk)
          have hlt : x.1 < h.w.nextBlk := by
            rcases Nat.lt_or_ge x.1 h.w.nextBlk with hlt | hge
            · exact hlt
            · rw [I.new _ hge] at hm; cases hm
          obtain ⟨a, ha⟩ := hp.alloc
          have hfit : LFits (.dynamic answer) (⟨es, d.asked, d.dead⟩ : Deque α) (.pushBack x.2) := by
            have hc : B + 1 < 18446744073709551616 := hc
            have := hB i dt es h2
            simp only [LFits, OneMore]; omega
          obtain ⟨junk, s', chs', hj, h5, I'⟩ := on_ok I h1 h2 (.pushBack x.2) hfit
          refine ⟨[], h.store i s', chs', rfl, ?_, I'⟩
          show (listPushBack (h.with l) (.node x.1)).bind _ = _
          rw [pushBack_node (s := h.with l) ha hm hlt]
          have h5 : listPushBack (h.with l) (.ext x.2) = _ := h5
          rw [h5]; rfl
  | copyFront i j k =>
    simp only [slOp, slstep, sljunk]
    rcases I.both i with ⟨h1, h2⟩ | ⟨l, dt, es, h1, h2, hp⟩
    · simp only [h1, h2]; exact ⟨[], h, chs, rfl, rfl, I⟩
    · rcases I.both j with ⟨h3, h4⟩ | ⟨m, dt', es', h3, h4, hp'⟩
      · simp only [h1, h2, h3, h4]; exact ⟨[], h, chs, rfl, rfl, I⟩
      · have hel : es'[k]? = (chs j)[k]?.map Prod.snd := by rw [hp'.elems, List.getElem?_map]
        simp only [h1, h2, h3, h4, I.nodeAt h3 h4, Out.ret_bind', Option.bind_some, hel]
        cases hk : (chs j)[k]? with
        | none =>
          refine ⟨[], h, chs, rfl, ?_, I⟩
          show (listPushFront (h.with l) .null).bind _ = _
          show Out.ret (stInvalidArgument, h.store i (h.with l)) = _
          rw [I.store_same h1]; rfl
        | some x =>
          obtain ⟨pr, nx, hm⟩ := seg_mem hp'.seg (List.mem_of_getElem? hk)
          have hlt : x.1 < h.w.nextBlk := by
            rcases Nat.lt_or_ge x.1 h.w.nextBlk with hlt | hge
            · exact hlt
            · rw [I.new _ hge] at hm; cases hm
          obtain ⟨a, ha⟩ := hp.alloc
          have hfit : LFits (.dynamic answer) (⟨es, d.asked, d.dead⟩ : Deque α) (.pushFront x.2) := by
            have hc : B + 1 < 18446744073709551616 := hc
            have := hB i dt es h2
            simp only [LFits, OneMore]; omega
          obtain ⟨junk, s', chs', hj, h5, I'⟩ := on_ok I h1 h2 (.pushFront x.2) hfit
          refine ⟨[], h.store i s', chs', rfl, ?_, I'⟩
          show (listPushFront (h.with l) (.node x.1)).bind _ = _
          rw [pushFront_node (s := h.with l) ha hm hlt]
          have h5 : listPushFront (h.with l) (.ext x.2) = _ := h5
          rw [h5]; rfl
  | destroy i =>
    simp only [slOp, slstep, sljunk]
    rcases I.both i with ⟨h1, h2⟩ | ⟨l, dt, es, h1, h2, hp⟩
    · simp only [h1, h2]; exact ⟨[], h, chs, rfl, rfl, I⟩
    · simp only [h1, h2]
      obtain ⟨s', chs', h3, I'⟩ := sldestroy_ok I h1 h2
      refine ⟨[], _, chs', rfl, ?_, I'⟩
      rw [h3]; rfl

end Step

/-- The elements of each queue after one step. -/
theorem slstep_len {answer : Nat → Status} {junk : List (Cell α)} {d : Deques α} {op : SLOp α}
    (hj : junk.length = sljunk d op) {B : Nat} (hB : ∀ i dt es, d.get i = some (dt, es) → es.length ≤ B) :
    ∀ i dt es, (slstep answer junk d op).2.get i = some (dt, es) → es.length ≤ B + slcost op := by
  have hput : ∀ (i : Nat) (o : Option (Bool × List (Cell α))) (as : Nat) (de : List (Cell α)) (k : Nat),
      (∀ dt es, o = some (dt, es) → es.length ≤ k) → B ≤ k →
      ∀ j dt es, (⟨d.lists.set i o, as, de⟩ : Deques α).get j = some (dt, es) → es.length ≤ k := by
    intro i o as de k ho hk j dt es hg
    unfold Deques.get at hg
    dsimp only at hg
    by_cases e : j = i
    · subst e
      by_cases hlt : j < d.lists.length
      · rw [List.getElem?_set_self hlt] at hg
        exact ho dt es hg
      · rw [List.getElem?_eq_none (by simp; omega)] at hg; cases hg
    · rw [List.getElem?_set_ne (fun x => e x.symm)] at hg
      exact Nat.le_trans (hB j dt es hg) hk
  have hmono : ∀ k, B ≤ k → ∀ j dt es, d.get j = some (dt, es) → es.length ≤ k :=
    fun k hk j dt es hg => Nat.le_trans (hB j dt es hg) hk
  have hback : ∀ (es : List (Cell α)) (x : Cell α), (addBack (.dynamic answer) ⟨es, d.asked, d.dead⟩ x).2.elems.length ≤
      es.length + 1 := by
    intro es x; rcases addBack_cases (.dynamic answer) (⟨es, d.asked, d.dead⟩ : Deque α) x with ⟨_, _, h⟩ | ⟨_, h⟩ <;>
      rw [h] <;> simp
  have hfront : ∀ (es : List (Cell α)) (x : Cell α), (addFront (.dynamic answer) ⟨es, d.asked, d.dead⟩ x).2.elems.length ≤
      es.length + 1 := by
    intro es x; rcases addFront_cases (.dynamic answer) (⟨es, d.asked, d.dead⟩ : Deque α) x with ⟨_, _, h⟩ | ⟨_, h⟩ <;>
      rw [h] <;> simp
  cases op with
  | create esz dt a =>
    simp only [slstep]
    split
    · exact hmono _ (Nat.le_add_right ..)
    · intro i dt' es hg
      unfold Deques.get at hg
      dsimp only at hg
      rcases Nat.lt_or_ge i d.lists.length with hlt | hge
      · rw [List.getElem?_append_left hlt] at hg
        exact hB i dt' es hg
      · by_cases e : i = d.lists.length
        · subst e; simp at hg; rw [hg.2]; exact Nat.zero_le _
        · rw [List.getElem?_eq_none (by simp; omega)] at hg; cases hg
  | on i op =>
    simp only [slstep]
    simp only [sljunk] at hj
    cases hg : d.get i with
    | none => exact hmono _ (Nat.le_add_right ..)
    | some p =>
      obtain ⟨dt, es⟩ := p
      simp only [hg] at hj
      have hl := lstep_len (.dynamic answer) dt junk ⟨es, d.asked, d.dead⟩ op hj
      have := hB i dt es hg
      refine hput i _ _ _ _ ?_ (Nat.le_add_right ..)
      rintro dt' es' h
      cases h
      exact Nat.le_trans hl (Nat.add_le_add_right this _)
  | copyBack i j k =>
    simp only [slstep]
    split
    · rename_i dt es x h1 h2
      have := hB i dt es h1
      refine hput i _ _ _ _ ?_ (Nat.le_add_right ..)
      rintro dt' es' h
      cases h
      exact Nat.le_trans (hback es x) (Nat.add_le_add_right this _)
    · exact hmono _ (Nat.le_add_right ..)
  | copyFront i j k =>
    simp only [slstep]
    split
    · rename_i dt es x h1 h2
      have := hB i dt es h1
      refine hput i _ _ _ _ ?_ (Nat.le_add_right ..)
      rintro dt' es' h
      cases h
      exact Nat.le_trans (hfront es x) (Nat.add_le_add_right this _)
    · exact hmono _ (Nat.le_add_right ..)
  | destroy i =>
    simp only [slstep]
    cases hg : d.get i with
    | none => exact hmono _ (Nat.le_add_right ..)
    | some p =>
      exact hput i none _ _ _ (by rintro dt es h; cases h) (Nat.le_add_right ..)

/-- Every history of the program. -/
theorem runSL_ok {answer : Nat → Status} (ops : List (SLOp α)) : ∀ {h : LHeap α} {d : Deques α}
    {chs : Nat → List (Nat × Cell α)}, SLInv answer h d chs → SLSizes ops → ∀ {B : Nat},
    (∀ i dt es, d.get i = some (dt, es) → es.length ≤ B) → B + (ops.map slcost).sum < 18446744073709551616 →
    ∃ sts h' d' chs', runSL h ops = .ret (sts, h') ∧ SLRuns answer d ops sts d' ∧ SLInv answer h' d' chs' ∧
      ∀ i dt es, d'.get i = some (dt, es) → es.length ≤ B + (ops.map slcost).sum := by
  induction ops with
  | nil => intro h d chs I _ B hB _; exact ⟨[], h, d, chs, rfl, .nil d, I, hB⟩
  | cons op ops ih =>
    intro h d chs I hs B hB hc
    rw [List.map_cons, List.sum_cons] at hc ⊢
    obtain ⟨junk, h1, chs1, hj, h2, I1⟩ := slOp_ok I op
      (fun esz dt a e => hs esz dt a (by rw [e]; exact List.mem_cons_self ..)) hB (by omega)
    obtain ⟨sts, h', d', chs', h3, h4, I', hB'⟩ := ih I1
      (fun esz dt a e => hs esz dt a (List.mem_cons_of_mem _ e)) (slstep_len hj hB) (by omega)
    refine ⟨_ :: sts, h', d', chs', ?_, .cons junk hj rfl h4, I', ?_⟩
    · unfold runSL; rw [h2, Out.ret_bind', h3]; rfl
    · intro i dt es hg
      have := hB' i dt es hg
      omega

theorem SLInv.empty {w : LWorld α} (hw : LFresh w) (hf : FreesSucceed w) :
    SLInv w.allocSt ⟨[], fun _ => none, w⟩ noDeques fun _ => [] := by
  obtain ⟨h1, h2, h3⟩ := hw
  refine ⟨rfl, fun i => rfl, fun _ _ _ _ h => (by cases h), fun _ _ => rfl, rfl, h1, ?_, hf, [], ?_, List.nodup_nil, ?_⟩
  · show lDestroyed w.trace = []; rw [h3]; rfl
  · show liveNodes w.trace = some []; rw [h3]; rfl
  · intro x
    refine ⟨fun h => (by cases h), ?_⟩
    rintro ⟨i, l, h, _⟩
    cases h

theorem SLInv.shows {answer : Nat → Status} {h : LHeap α} {d : Deques α} {chs : Nat → List (Nat × Cell α)}
    (I : SLInv answer h d chs) : ShowsAll h d := by
  refine ⟨I.len, fun i => ?_⟩
  rcases I.both i with ⟨h1, h2⟩ | ⟨l, dt, es, h1, h2, hp⟩
  · rw [h1, h2]; trivial
  · rw [h1, h2]
    refine ⟨?_, ?_, ?_⟩
    · rw [hp.elems]; exact forward_seg (s := h.with l) hp.seg hp.ends.head 0 hp.ends.size
    · rw [hp.elems]; exact backward_seg (s := h.with l) hp.seg hp.ends
    · rw [hp.elems, List.length_map, ← hp.ends.size]; rfl

theorem SLInv.nodes {answer : Nat → Status} {h : LHeap α} {d : Deques α} {chs : Nat → List (Nat × Cell α)}
    (I : SLInv answer h d chs) : ∃ L, liveNodes h.w.trace = some L ∧ L.Nodup ∧ ∀ x, x ∈ L ↔ NodeOf h x := by
  obtain ⟨L, hL, hn, hm⟩ := I.live
  refine ⟨L, hL, hn, fun x => (hm x).trans ?_⟩
  constructor
  · rintro ⟨i, l, h1, h2, h3, h4⟩
    obtain ⟨k, hk⟩ := List.getElem?_of_mem h3
    rcases I.both i with ⟨g1, _⟩ | ⟨l', dt, es, g1, g2, _⟩
    · rw [g1] at h1; cases h1
    · refine ⟨i, l, k, h1, h2, ?_, h4⟩
      rw [h1] at g1
      rw [I.nodeAt h1 g2, ← List.getElem?_map]
      exact congrArg Out.ret hk
  · rintro ⟨i, l, k, h1, h2, h3, h4⟩
    rcases I.both i with ⟨g1, _⟩ | ⟨l', dt, es, g1, g2, _⟩
    · rw [g1] at h1; cases h1
    · rw [I.nodeAt h1 g2, ← List.getElem?_map] at h3
      exact ⟨i, l, h1, h2, List.mem_of_getElem? (Out.ret.inj h3), h4⟩

/-- A step of the queues leaves the others alone. -/
theorem slstep_other (answer : Nat → Status) (junk : List (Cell α)) (d : Deques α) (op : SLOp α) {j : Nat}
    (hj : op.target ≠ some j) (hl : j < d.lists.length) : (slstep answer junk d op).2.get j = d.get j := by
  have hset : ∀ (i : Nat) (o : Option (Bool × List (Cell α))) (as : Nat) (de : List (Cell α)), some i ≠ some j →
      (⟨d.lists.set i o, as, de⟩ : Deques α).get j = d.get j := by
    intro i o as de h
    unfold Deques.get
    dsimp only
    rw [List.getElem?_set_ne (fun e => h (congrArg some e))]
  cases op with
  | create esz dt a =>
    simp only [slstep]
    split
    · rfl
    · unfold Deques.get
      dsimp only
      rw [List.getElem?_append_left hl]
  | on i op =>
    simp only [slstep]
    split
    · rfl
    · exact hset i _ _ _ hj
  | copyBack i k m =>
    simp only [slstep]
    split
    · exact hset i _ _ _ hj
    · rfl
  | copyFront i k m =>
    simp only [slstep]
    split
    · exact hset i _ _ _ hj
    · rfl
  | destroy i =>
    simp only [slstep]
    split
    · rfl
    · exact hset i _ _ _ hj

/-- A call leaves the structures of the other lists alone. -/
theorem slOp_other {h h' : LHeap α} {op : SLOp α} {st : Status} (e : slOp h op = .ret (st, h')) {j : Nat}
    (hj : op.target ≠ some j) (hl : j < h.lists.length) : h'.get j = h.get j := by
  have hset : ∀ (i : Nat) (o : Option ZList) (m : Nat → Option (LNode α)) (w : LWorld α), some i ≠ some j →
      (⟨h.lists.set i o, m, w⟩ : LHeap α).get j = h.get j := by
    intro i o as de h
    unfold LHeap.get
    dsimp only
    rw [List.getElem?_set_ne (fun e => h (congrArg some e))]
  have hstore : ∀ {i : Nat} {x : Out (Status × LS α)}, some i ≠ some j →
      (x.bind fun r => .ret (r.1, h.store i r.2)) = .ret (st, h') → h'.get j = h.get j := by
    intro i x hi hx
    cases x with
    | ub u => cases hx
    | ret r => cases hx; exact hset i _ _ _ hi
  cases op with
  | create esz dt a =>
    cases e
    unfold LHeap.get
    dsimp only
    rw [List.getElem?_append_left hl]
  | on i op =>
    simp only [slOp] at e
    split at e
    · cases e; rfl
    · exact hstore hj e
  | copyBack i k m =>
    simp only [slOp] at e
    split at e
    · cases hn : nodeAt (h.with ‹_›) m with
      | ub u => rw [hn] at e; cases e
      | ret p => rw [hn] at e; exact hstore hj e
    · cases e; rfl
  | copyFront i k m =>
    simp only [slOp] at e
    split at e
    · cases hn : nodeAt (h.with ‹_›) m with
      | ub u => rw [hn] at e; cases e
      | ret p => rw [hn] at e; exact hstore hj e
    · cases e; rfl
  | destroy i =>
    simp only [slOp] at e
    split at e
    · cases e; rfl
    · cases hd : listDestroy (h.with ‹_›) with
      | ub u => rw [hd] at e; cases e
      | ret r => rw [hd] at e; cases e; exact hset i _ _ _ hj

end Zy
