import Verif.Spec.ListTarget
import Verif.Lemmas.ListProps

/-!
# Lemmas about lists on other targets: heap shape and the effect of every operation

The lemmas of `Lemmas/List.lean` once more, with the width of `size_t` and of pointers as parameters.
-/

namespace Zy.LT

open Spec

variable [T : Target] {α : Type} {F : (Nat → Status) → Nat × Nat → Prop}

theorem addT_eq {a b : Nat} (h : a + b < T.word) : addT a b = a + b := Nat.mod_eq_of_lt h
theorem mulT_eq {a b : Nat} (h : a * b < T.word) : mulT a b = a * b := Nat.mod_eq_of_lt h
theorem subT_eq {a b : Nat} (h : b ≤ a) (ha : a < T.word) : subT a b = a - b := by
  show (a + (T.word - b % T.word)) % T.word = _
  rw [Nat.mod_eq_of_lt (by omega : b < T.word), show a + (T.word - b) = a - b + T.word by omega,
    Nat.add_mod_right, Nat.mod_eq_of_lt (by omega)]
theorem word_pos : 0 < T.word := Nat.lt_trans Nat.zero_lt_one T.word_gt
theorem hdr_pos : 0 < hdr := by
  have := T.ptr_pos
  unfold hdr
  omega

/-- The bookkeeping of the source of nodes. `own` are the addresses of the nodes in use. -/
def SrcOK (K : Source) (l : ZList) (mem : Nat → Option (LNode α)) (w : LWorld α)
    (own fs : List Nat) (asked : Nat) : Prop :=
  match K with
  | .dynamic answer =>
    ∃ a, l.allocator = some a ∧ fs = [] ∧ w.allocSt = answer ∧ w.calls = asked ∧
      hdr + l.esz < T.word ∧ (∀ p, w.nextBlk ≤ p → mem p = none) ∧
      ∃ L, liveNodes w.trace = some L ∧ L.Perm (own.map fun p => (a, p, hdr + l.esz))
  | .fixed n =>
    l.allocator = none ∧ n = l.capacity / (hdr + l.esz) ∧
      l.capacity + (hdr + l.esz) < T.word ∧
      (∀ k, k < n → (mem (k * (hdr + l.esz))).isSome) ∧
      (∀ p ∈ own ++ fs, ∃ k, k < own.length + fs.length ∧ p = k * (hdr + l.esz)) ∧
      own.length + fs.length ≤ n ∧ noAllocator w.trace

/-- The invariant of memory, trace and source. `ch` is the chain (whose first node has predecessor
`pr`), `ps` are nodes that are allocated but not linked, `fs` are the recycled nodes, `F` is what is
known about the answers to requests to give memory back and about element size and capacity. -/
structure Core (F : (Nat → Status) → Nat × Nat → Prop) (K : Source) (dt : Bool) (pr : Option Nat) (l : ZList)
    (mem : Nat → Option (LNode α)) (w : LWorld α) (ch : List (Nat × Cell α)) (ps fs : List Nat)
    (asked : Nat) (dead : List (Cell α)) : Prop where
  seg : Seg mem pr ch none
  nodup : (ch.map Prod.fst ++ ps ++ fs).Nodup
  dt : l.hasDtor = dt
  dead : lDestroyed w.trace = dead
  free : FreeSeg mem l.firstUnused fs
  frees : F w.freeSt (l.esz, l.capacity)
  src : SrcOK K l mem w (ch.map Prod.fst ++ ps) fs asked

/-- The list structure points to the ends of the chain and counts it. -/
structure Ends (l : ZList) (ch : List (Nat × Cell α)) : Prop where
  head : l.head = firstOf ch none
  tail : l.tail = lastOf none ch
  size : l.size = ch.length
  lt : ch.length < T.word

/-- The list represents the queue. -/
structure LRep (F : (Nat → Status) → Nat × Nat → Prop) (K : Source) (dt : Bool) (s : LS α) (ch : List (Nat × Cell α)) (fs : List Nat)
    (d : Deque α) : Prop where
  core : Core F K dt none s.l s.mem s.w ch [] fs d.asked d.dead
  ends : Ends s.l ch
  elems : d.elems = ch.map Prod.snd

theorem src_perm {K : Source} {l : ZList} {mem mem' : Nat → Option (LNode α)} {w : LWorld α}
    {own own' fs : List Nat} {asked : Nat} (h : SrcOK K l mem w own fs asked) (hp : own'.Perm own)
    (hm : ∀ a, (mem' a).isSome = (mem a).isSome) : SrcOK K l mem' w own' fs asked := by
  unfold SrcOK at h ⊢
  cases K with
  | dynamic answer =>
    obtain ⟨a, h1, h2, h3, h4, h5, h6, L, h7, h8⟩ := h
    refine ⟨a, h1, h2, h3, h4, h5, ?_, L, h7, h8.trans (hp.map _).symm⟩
    intro p hpp
    have h9 := hm p
    rw [h6 p hpp] at h9
    simpa using h9
  | fixed n =>
    obtain ⟨h1, h2, h3, h4, h5, h6, h7⟩ := h
    refine ⟨h1, h2, h3, fun k hk => by rw [hm]; exact h4 k hk, ?_, by rw [hp.length_eq]; exact h6, h7⟩
    intro p hpp
    rw [hp.length_eq]
    apply h5
    rw [List.mem_append] at hpp ⊢
    exact hpp.imp (hp.mem_iff.1) id

/-- The source does not depend on the ends and the count of the list. -/
theorem src_l {K : Source} {l l' : ZList} {mem : Nat → Option (LNode α)} {w : LWorld α}
    {own fs : List Nat} {asked : Nat} (h : SrcOK K l mem w own fs asked)
    (h1 : l'.allocator = l.allocator) (h2 : l'.esz = l.esz) (h3 : l'.capacity = l.capacity) :
    SrcOK K l' mem w own fs asked := by
  unfold SrcOK at h ⊢
  rw [h1, h2, h3]; exact h

theorem core_l {K : Source} {dt : Bool} {pr : Option Nat} {l l' : ZList}
    {mem : Nat → Option (LNode α)} {w : LWorld α} {ch : List (Nat × Cell α)} {ps fs : List Nat}
    {asked : Nat} {dead : List (Cell α)} (h : Core F K dt pr l mem w ch ps fs asked dead)
    (h1 : l'.allocator = l.allocator) (h2 : l'.esz = l.esz) (h3 : l'.capacity = l.capacity)
    (h4 : l'.hasDtor = l.hasDtor) (h5 : l'.firstUnused = l.firstUnused) :
    Core F K dt pr l' mem w ch ps fs asked dead :=
  ⟨h.seg, h.nodup, by rw [h4]; exact h.dt, h.dead, by rw [h5]; exact h.free,
    by rw [h2, h3]; exact h.frees,
    src_l h.src h1 h2 h3⟩

/-- Writing to a pending node keeps the invariant. -/
theorem core_pend {K : Source} {dt : Bool} {pr : Option Nat} {s : LS α}
    {ch : List (Nat × Cell α)} {p : Nat} {fs : List Nat} {asked : Nat} {dead : List (Cell α)}
    {nd nd' : LNode α} (h : Core F K dt pr s.l s.mem s.w ch [p] fs asked dead)
    (hp : s.mem p = some nd) :
    Core F K dt pr s.l (s.put p (some nd')).mem s.w ch [p] fs asked dead := by
  have hn := h.nodup
  simp only [List.append_assoc, List.nodup_append, List.mem_append, List.mem_singleton] at hn
  refine ⟨seg_frame ?_ h.seg, h.nodup, h.dt, h.dead, free_frame ?_ h.free, h.frees,
    src_perm h.src (List.Perm.refl _) ?_⟩
  · intro a ha
    exact put_ne _ _ (fun e => hn.2.2 a ha p (Or.inl rfl) e)
  · intro a ha
    exact put_ne _ _ (fun e => hn.2.1.2.2 p rfl a ha e.symm)
  · intro a
    by_cases e : a = p
    · rw [e, put_same, hp]; rfl
    · rw [put_ne _ _ e]

theorem nodeSize_eq {l : ZList} (h : hdr + l.esz < T.word) :
    nodeSize l = hdr + l.esz := addT_eq h

theorem alloc_ok {K : Source} {dt : Bool} {s : LS α} {ch : List (Nat × Cell α)} {fs : List Nat}
    {d : Deque α} (R : LRep F K dt s ch fs d) :
    (failed (answerOf K d) = true →
      ∃ s' : LS α, listAllocateNode s = .ret (answerOf K d, none, s') ∧ s'.l = s.l ∧ s'.mem = s.mem ∧
        Core F K dt none s'.l s'.mem s'.w ch [] fs (d.asked + 1) d.dead) ∧
    (failed (answerOf K d) = false →
      ∃ p nd fs', ∃ s' : LS α, listAllocateNode s = .ret (stSuccess, some p, s') ∧
        s'.mem p = some nd ∧ Ends s'.l ch ∧
        Core F K dt none s'.l s'.mem s'.w ch [p] fs' (d.asked + 1) d.dead) := by
  have C := R.core
  have E := R.ends
  have hlen : d.elems.length = ch.length := by rw [R.elems, List.length_map]
  cases K with
  | dynamic answer =>
    obtain ⟨a, h1, h2, h3, h4, h5, h6, L, h7, h8⟩ := C.src
    have hans : answerOf (.dynamic answer) d = s.w.allocSt s.w.calls := by
      simp only [answerOf, h3, h4]
    rw [hans]
    refine ⟨fun hf => ?_, fun hf => ?_⟩
    · refine ⟨LS.log { s with w := { s.w with calls := s.w.calls + 1 } } (.refused a), ?_, rfl, rfl,
        C.seg, C.nodup, C.dt, ?_, C.free, C.frees, ?_⟩
      · simp [listAllocateNode, h1, nodeAllocate, hf]
      · show lDestroyed (s.w.trace ++ [_]) = _
        rw [lDestroyed_append, C.dead]; simp [lDestroyed]
      · refine ⟨a, h1, h2, h3, ?_, h5, h6, L, ?_, h8⟩
        · show s.w.calls + 1 = _; rw [h4]
        · show liveNodes (s.w.trace ++ [_]) = _
          rw [liveNodes_append, h7]; rfl
    · have hfresh : s.mem s.w.nextBlk = none := h6 _ (Nat.le_refl _)
      have hne : ∀ x ∈ ch, x.1 ≠ s.w.nextBlk := by
        intro x hx e
        obtain ⟨pr, nx, hm⟩ := seg_mem C.seg hx
        rw [e, hfresh] at hm; cases hm
      subst h2
      refine ⟨s.w.nextBlk, ⟨none, none, none⟩, [],
        (LS.log (LS.put { s with w := { s.w with calls := s.w.calls + 1, nextBlk := s.w.nextBlk + 1 } }
          s.w.nextBlk (some ⟨none, none, none⟩)) (.alloc a s.w.nextBlk (nodeSize s.l) 1)),
        ?_, put_same _ _ _, ⟨E.head, E.tail, E.size, E.lt⟩, seg_frame ?_ C.seg, ?_, C.dt, ?_, C.free,
        C.frees, ?_⟩
      · simp only [listAllocateNode, h1, nodeAllocate, hf, Bool.false_eq_true, if_false]
        rw [if_pos (nodeSize_eq h5)]; rfl
      · intro b hb
        obtain ⟨x, hx, rfl⟩ := List.mem_map.1 hb
        exact put_ne _ _ (hne x hx)
      · have hn := C.nodup
        simp only [List.append_nil] at hn ⊢
        rw [List.nodup_append]
        refine ⟨hn, by simp, ?_⟩
        intro b hb c hc e
        obtain ⟨x, hx, rfl⟩ := List.mem_map.1 hb
        exact hne x hx (by rw [e]; exact List.mem_singleton.1 hc)
      · show lDestroyed (s.w.trace ++ [_]) = _
        rw [lDestroyed_append, C.dead]; simp [lDestroyed]
      · refine ⟨a, h1, rfl, h3, ?_, h5, ?_, (a, s.w.nextBlk, nodeSize s.l) :: L, ?_, ?_⟩
        · show s.w.calls + 1 = _; rw [h4]
        · intro p hp
          have hp' : s.w.nextBlk + 1 ≤ p := hp
          exact (put_ne _ _ (by omega)).trans (h6 p (by omega))
        · show liveNodes (s.w.trace ++ [_]) = _
          rw [liveNodes_append, h7]
          simp only [nodesStep]
          rw [if_neg]
          simp only [ne_eq, not_true_eq_false, or_false]
          rintro ⟨x, hx, e⟩
          obtain ⟨p, hp, rfl⟩ := List.mem_map.1 (h8.mem_iff.1 hx)
          rw [List.append_nil] at hp
          obtain ⟨y, hy, rfl⟩ := List.mem_map.1 hp
          exact hne y hy e
        · rw [List.append_nil] at h8
          rw [nodeSize_eq h5]
          refine (List.Perm.cons _ h8).trans ?_
          simp only [List.map_append, List.map_cons, List.map_nil]
          exact List.perm_append_comm (l₁ := [(a, s.w.nextBlk, hdr + s.l.esz)])
  | fixed n =>
    obtain ⟨h1, h2, h3, h4, h5, h6, h7⟩ := C.src
    simp only [List.append_nil, List.length_map] at h5 h6
    have hns : hdr + s.l.esz < T.word := by omega
    cases fs with
    | cons f fs' =>
      have hans : answerOf (.fixed n) d = stSuccess := by
        simp only [answerOf, hlen]
        rw [if_pos]; simp only [List.length_cons] at h6; omega
      rw [hans]
      refine ⟨fun hf => by simp at hf, fun _ => ?_⟩
      obtain ⟨g1, nd, nx, g2, g3, g4⟩ := C.free
      refine ⟨f, nd, fs', { s with l := { s.l with firstUnused := nx } }, ?_, g2,
        ⟨E.head, E.tail, E.size, E.lt⟩, C.seg, ?_, C.dt, C.dead, g4, C.frees, ?_⟩
      · simp [listAllocateNode, h1, g1, loadNext, deref_some g2, useptr, g3]
      · have := C.nodup
        simpa using this
      · refine ⟨h1, h2, h3, h4, ?_, ?_, h7⟩
        · intro p hp
          simp only [List.length_append, List.length_map, List.length_cons, List.length_nil]
          obtain ⟨k, hk, e⟩ := h5 p (by simpa using hp)
          simp only [List.length_cons] at hk
          exact ⟨k, by omega, e⟩
        · simp only [List.length_append, List.length_map, List.length_cons, List.length_nil] at h6 ⊢
          omega
    | nil =>
      have hfree : s.l.firstUnused = none := C.free
      simp only [List.length_nil, Nat.add_zero, List.append_nil] at h5 h6
      have hmul : ch.length * (hdr + s.l.esz) ≤ s.l.capacity := by
        rw [h2] at h6
        exact Nat.le_trans (Nat.mul_le_mul_right _ h6) (Nat.div_mul_le_self _ _)
      have e1 : mulT s.l.size (nodeSize s.l) = ch.length * (hdr + s.l.esz) := by
        rw [nodeSize_eq hns, E.size]; exact mulT_eq (by omega)
      have e2 : addT (mulT s.l.size (nodeSize s.l)) (nodeSize s.l) =
          (ch.length + 1) * (hdr + s.l.esz) := by
        rw [e1, nodeSize_eq hns, Nat.succ_mul]; exact addT_eq (by omega)
      have e3 : (ch.length + 1) * (hdr + s.l.esz) > s.l.capacity ↔ ¬ ch.length < n := by
        rw [h2, Nat.lt_iff_add_one_le (m := ch.length), Nat.le_div_iff_mul_le (Nat.add_pos_left hdr_pos _)]
        omega
      have hans : answerOf (.fixed n) d =
          if ch.length < n then stSuccess else stInsufficient := by simp only [answerOf, hlen]
      rw [hans]
      by_cases hlt : ch.length < n
      · rw [if_pos hlt]
        refine ⟨fun hf => by simp at hf, fun _ => ?_⟩
        obtain ⟨nd, hnd⟩ := Option.isSome_iff_exists.1 (h4 _ hlt)
        refine ⟨ch.length * (hdr + s.l.esz), nd, [], s, ?_, hnd, E, C.seg, ?_, C.dt, C.dead, C.free,
          C.frees, ?_⟩
        · simp only [listAllocateNode, h1, hfree, Option.isSome_none, Bool.false_eq_true, if_false]
          rw [e2, if_neg (by rw [e3]; simpa using hlt), e1]
        · have hn := C.nodup
          simp only [List.append_nil] at hn ⊢
          rw [List.nodup_append]
          refine ⟨hn, by simp, ?_⟩
          intro b hb c hc e
          obtain ⟨k, hk, rfl⟩ := h5 b hb
          have : c = ch.length * (hdr + s.l.esz) := by simpa using hc
          rw [this] at e
          have := Nat.eq_of_mul_eq_mul_right (Nat.add_pos_left hdr_pos _) e
          omega
        · refine ⟨h1, h2, h3, h4, ?_, ?_, h7⟩
          · intro p hp
            simp only [List.length_append, List.length_map, List.length_cons, List.length_nil]
            simp only [List.append_nil, List.mem_append, List.mem_singleton] at hp
            rcases hp with hp | hp
            · obtain ⟨k, hk, e⟩ := h5 p hp
              exact ⟨k, by omega, e⟩
            · exact ⟨ch.length, by omega, hp⟩
          · simp only [List.length_append, List.length_map, List.length_cons, List.length_nil]
            omega
      · rw [if_neg hlt]
        refine ⟨fun _ => ?_, fun hf => by simp at hf⟩
        refine ⟨s, ?_, rfl, rfl, C.seg, C.nodup, C.dt, C.dead, C.free, C.frees, ?_⟩
        · simp only [listAllocateNode, h1, hfree, Option.isSome_none, Bool.false_eq_true, if_false]
          rw [e2, if_pos (by rw [e3]; exact hlt)]
        · exact ⟨h1, h2, h3, h4, by simpa using h5, by simpa using h6, h7⟩

theorem linkBack_ok {K : Source} {dt : Bool} {s : LS α} {ch : List (Nat × Cell α)} {p : Nat}
    {x : Cell α} {fs : List Nat} {asked : Nat} {dead : List (Cell α)} (E : Ends s.l ch)
    (C : Core F K dt none s.l s.mem s.w ch [p] fs asked dead)
    (hp : s.mem p = some ⟨some (lastOf none ch), some none, x⟩)
    (hl : ch.length + 1 < T.word) :
    ∃ s' : LS α, linkBack s (some p) = .ret s' ∧ s'.w = s.w ∧ Ends s'.l (ch ++ [(p, x)]) ∧
      Core F K dt none s'.l s'.mem s'.w (ch ++ [(p, x)]) [] fs asked dead := by
  have hsz : addT s.l.size 1 = (ch ++ [(p, x)]).length := by
    rw [E.size, List.length_append]; exact addT_eq hl
  rcases last_cases ch with rfl | ⟨c, y, rfl⟩
  · have hh : s.l.head = none := E.head
    refine ⟨{ s with l := { s.l with head := some p, tail := some p, size := addT s.l.size 1 } },
      by simp [linkBack, hh], rfl, ⟨rfl, rfl, hsz, T.word_gt⟩, ⟨hp, trivial⟩,
      by simpa using C.nodup, C.dt, C.dead, C.free, C.frees, ?_⟩
    exact src_l (src_perm C.src (by simp) (fun _ => rfl)) rfl rfl rfl
  · have hn := C.nodup
    have hn' : ((c ++ [y]).map Prod.fst).Nodup :=
      (List.nodup_append.1 (List.nodup_append.1 hn).1).1
    obtain ⟨h1, h2⟩ := seg_last (q' := some p) C.seg hn'
    have hh : s.l.head.isNone = false := by
      rw [E.head, firstOf_append]; cases c <;> rfl
    have ht : s.l.tail = some y.1 := by rw [E.tail, lastOf_concat]
    have hy : s.mem y.1 = some ⟨some (lastOf none c), some none, y.2⟩ := by
      have := C.seg; rw [seg_append] at this; exact this.2.1
    have hpy : p ≠ y.1 := by
      intro e
      refine (List.nodup_append.1 (List.nodup_append.1 hn).1).2.2 y.1 (by simp) p (by simp) e.symm
    refine ⟨{ s.put y.1 (some ⟨some (lastOf none c), some (some p), y.2⟩) with
        l := { s.l with tail := some p, size := addT s.l.size 1 } }, ?_, rfl,
      ⟨?_, ?_, hsz, by simpa using hl⟩, ?_, ?_, C.dt, C.dead, free_put C.free ?_, C.frees, ?_⟩
    · simp [linkBack, hh, ht, h1]
    · show s.l.head = _
      rw [E.head, firstOf_append, firstOf_append, firstOf_append]; cases c <;> rfl
    · show some p = _
      rw [lastOf_concat]
    · rw [seg_append]
      refine ⟨h2, ?_, trivial⟩
      rw [put_ne _ _ hpy, hp]; rfl
    · simpa using hn
    · intro h
      exact (List.nodup_append.1 hn).2.2 y.1 (by simp) y.1 h rfl
    · exact src_l (src_perm C.src (by simp) (some_put hy)) rfl rfl rfl

theorem linkFront_ok {K : Source} {dt : Bool} {s : LS α} {ch : List (Nat × Cell α)} {p : Nat}
    {x : Cell α} {fs : List Nat} {asked : Nat} {dead : List (Cell α)} (E : Ends s.l ch)
    (C : Core F K dt none s.l s.mem s.w ch [p] fs asked dead)
    (hp : s.mem p = some ⟨some none, some (firstOf ch none), x⟩)
    (hl : ch.length + 1 < T.word) :
    ∃ s' : LS α, linkFront s (some p) = .ret s' ∧ s'.w = s.w ∧ Ends s'.l ((p, x) :: ch) ∧
      Core F K dt none s'.l s'.mem s'.w ((p, x) :: ch) [] fs asked dead := by
  have hsz : addT s.l.size 1 = ((p, x) :: ch).length := by
    rw [E.size, List.length_cons]; exact addT_eq hl
  have hperm : (((p, x) :: ch).map Prod.fst ++ []).Perm (ch.map Prod.fst ++ [p]) := by
    simp only [List.map_cons, List.append_nil]
    exact (List.perm_append_comm (l₁ := [p]))
  have hnd : (((p, x) :: ch).map Prod.fst ++ [] ++ fs).Nodup :=
    ((hperm.append_right fs).nodup_iff).2 C.nodup
  cases ch with
  | nil =>
    have hh : s.l.head = none := E.head
    refine ⟨{ s with l := { s.l with head := some p, tail := some p, size := addT s.l.size 1 } },
      by simp [linkFront, hh], rfl, ⟨rfl, rfl, hsz, T.word_gt⟩, ⟨hp, trivial⟩,
      hnd, C.dt, C.dead, C.free, C.frees, ?_⟩
    exact src_l (src_perm C.src hperm (fun _ => rfl)) rfl rfl rfl
  | cons y c =>
    have hn := C.nodup
    have hn' : ((y :: c).map Prod.fst).Nodup :=
      (List.nodup_append.1 (List.nodup_append.1 hn).1).1
    obtain ⟨h1, h2⟩ := seg_first (p' := some p) C.seg hn'
    have hh : s.l.head = some y.1 := E.head
    have hpy : p ≠ y.1 := by
      intro e
      refine (List.nodup_append.1 (List.nodup_append.1 hn).1).2.2 y.1 (by simp) p (by simp) e.symm
    refine ⟨{ s.put y.1 (some ⟨some (some p), some (firstOf c none), y.2⟩) with
        l := { s.l with head := some p, size := addT s.l.size 1 } }, ?_, rfl,
      ⟨rfl, ?_, hsz, by simpa using hl⟩, ⟨?_, h2⟩, hnd, C.dt, C.dead, free_put C.free ?_, C.frees, ?_⟩
    · simp [linkFront, hh, h1]
    · show s.l.tail = _
      rw [E.tail]; rfl
    · rw [put_ne _ _ hpy, hp]
    · intro h
      exact (List.nodup_append.1 hn).2.2 y.1 (by simp) y.1 h rfl
    · exact src_l (src_perm C.src hperm (some_put C.seg.1)) rfl rfl rfl

/-- The number of elements remains countable after one more insertion. -/
theorem grow_lt {K : Source} {dt : Bool} {s : LS α} {ch : List (Nat × Cell α)} {fs ps : List Nat}
    {asked : Nat} {dead : List (Cell α)} {pr : Option Nat}
    (C : Core F K dt pr s.l s.mem s.w ch ps fs asked dead)
    (hf : OneMore K ch.length) : ch.length + 1 < T.word := by
  cases K with
  | dynamic _ => exact hf
  | fixed n =>
    obtain ⟨h1, h2, h3, h4, h5, h6, h7⟩ := C.src
    have : n ≤ s.l.capacity := by rw [h2]; exact Nat.div_le_self _ _
    simp only [List.length_append, List.length_map] at h6
    have := T.ptr_pos
    unfold hdr at h3
    omega

/-- A fresh node at the back, filled with `x` by whatever means, and linked. -/
theorem insertBack_ok {K : Source} {dt : Bool} {s s1 : LS α} {ch : List (Nat × Cell α)}
    {fs fs' : List Nat} {d : Deque α} {p : Nat} {nd : LNode α} (R : LRep F K dt s ch fs d)
    (E : Ends s1.l ch) (C : Core F K dt none s1.l s1.mem s1.w ch [p] fs' (d.asked + 1) d.dead)
    (hm : s1.mem p = some nd) (hl : ch.length + 1 < T.word) (x : Cell α) :
    ∃ s' : LS α, linkBack (s1.put p (some ⟨some s1.l.tail, some none, x⟩)) (some p) = .ret s' ∧
      LRep F K dt s' (ch ++ [(p, x)]) fs' { d with elems := d.elems ++ [x], asked := d.asked + 1 } := by
  obtain ⟨s', h1, _, h2, h3⟩ := linkBack_ok (s := s1.put p (some ⟨some s1.l.tail, some none, x⟩))
    (x := x) E (core_pend C hm) (by rw [put_same, E.tail]) hl
  exact ⟨s', h1, h3, h2, by simp [R.elems]⟩

theorem insertFront_ok {K : Source} {dt : Bool} {s s1 : LS α} {ch : List (Nat × Cell α)}
    {fs fs' : List Nat} {d : Deque α} {p : Nat} {nd : LNode α} (R : LRep F K dt s ch fs d)
    (E : Ends s1.l ch) (C : Core F K dt none s1.l s1.mem s1.w ch [p] fs' (d.asked + 1) d.dead)
    (hm : s1.mem p = some nd) (hl : ch.length + 1 < T.word) (x : Cell α) :
    ∃ s' : LS α, linkFront (s1.put p (some ⟨some none, some s1.l.head, x⟩)) (some p) = .ret s' ∧
      LRep F K dt s' ((p, x) :: ch) fs' { d with elems := x :: d.elems, asked := d.asked + 1 } := by
  obtain ⟨s', h1, _, h2, h3⟩ := linkFront_ok (s := s1.put p (some ⟨some none, some s1.l.head, x⟩))
    (x := x) E (core_pend C hm) (by rw [put_same, E.head]) hl
  exact ⟨s', h1, h3, h2, by simp [R.elems]⟩

/-- A refused request changes nothing but the count of requests. -/
theorem refused_ok {K : Source} {dt : Bool} {s s' : LS α} {ch : List (Nat × Cell α)} {fs : List Nat}
    {d : Deque α} (R : LRep F K dt s ch fs d) (hl : s'.l = s.l)
    (C : Core F K dt none s'.l s'.mem s'.w ch [] fs (d.asked + 1) d.dead) :
    LRep F K dt s' ch fs { d with asked := d.asked + 1 } :=
  ⟨C, by rw [hl]; exact R.ends, R.elems⟩

theorem pushBack_ok {K : Source} {dt : Bool} {s : LS α} {ch : List (Nat × Cell α)} {fs : List Nat}
    {d : Deque α} (R : LRep F K dt s ch fs d) {src : LSrc α} {x : Cell α} (hg : Gives ch src x)
    (hl : ch.length + 1 < T.word) :
    ∃ s' ch' fs', listPushBack s src = .ret ((addBack K d x).1, s') ∧
      LRep F K dt s' ch' fs' (addBack K d x).2 := by
  obtain ⟨hA, hB⟩ := alloc_ok R
  unfold listPushBack addBack
  rw [hg.notNull, if_neg Bool.false_ne_true]
  cases hf : failed (answerOf K d) with
  | true =>
    obtain ⟨s', h1, h2, h3, h4⟩ := hA hf
    exact ⟨s', ch, fs, by simp [h1, hf], by simpa using refused_ok R h2 h4⟩
  | false =>
    obtain ⟨p, nd, fs', s1, h1, h2, h3, h4⟩ := hB hf
    obtain ⟨s', h5, h6⟩ := insertBack_ok R h3 h4 h2 hl x
    refine ⟨s', ch ++ [(p, x)], fs', ?_, by simpa using h6⟩
    have hc := copyData_eq hg (core_pend (nd' := ⟨some s1.l.tail, some none, nd.data⟩) h4 h2).seg
      (put_same _ _ _)
    simp [h1, initBack_eq h2, hc, h5]

theorem pushFront_ok {K : Source} {dt : Bool} {s : LS α} {ch : List (Nat × Cell α)} {fs : List Nat}
    {d : Deque α} (R : LRep F K dt s ch fs d) {src : LSrc α} {x : Cell α} (hg : Gives ch src x)
    (hl : ch.length + 1 < T.word) :
    ∃ s' ch' fs', listPushFront s src = .ret ((addFront K d x).1, s') ∧
      LRep F K dt s' ch' fs' (addFront K d x).2 := by
  obtain ⟨hA, hB⟩ := alloc_ok R
  unfold listPushFront addFront
  rw [hg.notNull, if_neg Bool.false_ne_true]
  cases hf : failed (answerOf K d) with
  | true =>
    obtain ⟨s', h1, h2, h3, h4⟩ := hA hf
    exact ⟨s', ch, fs, by simp [h1, hf], by simpa using refused_ok R h2 h4⟩
  | false =>
    obtain ⟨p, nd, fs', s1, h1, h2, h3, h4⟩ := hB hf
    obtain ⟨s', h5, h6⟩ := insertFront_ok R h3 h4 h2 hl x
    refine ⟨s', (p, x) :: ch, fs', ?_, by simpa using h6⟩
    have hc := copyData_eq hg (core_pend (nd' := ⟨some none, some s1.l.head, nd.data⟩) h4 h2).seg
      (put_same _ _ _)
    simp [h1, initFront_eq h2, hc, h5]

theorem emplaceBack_ok {K : Source} {dt : Bool} {s : LS α} {ch : List (Nat × Cell α)} {fs : List Nat}
    {d : Deque α} (R : LRep F K dt s ch fs d) (c : Ctor α)
    (hl : ch.length + 1 < T.word) :
    ∃ j s' ch' fs', listEmplaceBack s c = .ret ((addBack K d (constructed c j)).1, s') ∧
      LRep F K dt s' ch' fs' (addBack K d (constructed c j)).2 := by
  obtain ⟨hA, hB⟩ := alloc_ok R
  unfold listEmplaceBack addBack
  cases hf : failed (answerOf K d) with
  | true =>
    obtain ⟨s', h1, h2, h3, h4⟩ := hA hf
    exact ⟨none, s', ch, fs, by simp [h1, hf], by simpa using refused_ok R h2 h4⟩
  | false =>
    obtain ⟨p, nd, fs', s1, h1, h2, h3, h4⟩ := hB hf
    obtain ⟨s', h5, h6⟩ := insertBack_ok R h3 h4 h2 hl (constructed c nd.data)
    refine ⟨nd.data, s', ch ++ [(p, _)], fs', ?_, by simpa using h6⟩
    simp [h1, initBack_eq h2, construct_eq (put_same _ _ _), h5]

theorem emplaceFront_ok {K : Source} {dt : Bool} {s : LS α} {ch : List (Nat × Cell α)}
    {fs : List Nat} {d : Deque α} (R : LRep F K dt s ch fs d) (c : Ctor α)
    (hl : ch.length + 1 < T.word) :
    ∃ j s' ch' fs', listEmplaceFront s c = .ret ((addFront K d (constructed c j)).1, s') ∧
      LRep F K dt s' ch' fs' (addFront K d (constructed c j)).2 := by
  obtain ⟨hA, hB⟩ := alloc_ok R
  unfold listEmplaceFront addFront
  cases hf : failed (answerOf K d) with
  | true =>
    obtain ⟨s', h1, h2, h3, h4⟩ := hA hf
    exact ⟨none, s', ch, fs, by simp [h1, hf], by simpa using refused_ok R h2 h4⟩
  | false =>
    obtain ⟨p, nd, fs', s1, h1, h2, h3, h4⟩ := hB hf
    obtain ⟨s', h5, h6⟩ := insertFront_ok R h3 h4 h2 hl (constructed c nd.data)
    refine ⟨nd.data, s', (p, _) :: ch, fs', ?_, by simpa using h6⟩
    simp [h1, initFront_eq h2, construct_eq (put_same _ _ _), h5]

/-- The growing loop inserts the elements `xs` (all equal to the initializer, or unspecified). -/
theorem growLoop_ok {K : Source} {dt : Bool} (init : Option (Cell α)) (k : Nat) {s : LS α}
    {ch : List (Nat × Cell α)} {fs : List Nat} {d : Deque α} (R : LRep F K dt s ch fs d)
    (hl : ch.length + k < T.word) :
    ∃ junk s' ch' fs', junk.length = k ∧
      growLoop (linit init) s k = .ret ((addMany K d (fresh init k junk)).1, s') ∧
      LRep F K dt s' ch' fs' (addMany K d (fresh init k junk)).2 := by
  induction k generalizing s ch fs d with
  | zero =>
    refine ⟨[], s, ch, fs, rfl, ?_, ?_⟩ <;> cases init <;> simp [fresh, addMany, growLoop, R]
  | succ k ih =>
    obtain ⟨hA, hB⟩ := alloc_ok R
    have hfresh : ∀ j (junk : List (Cell α)), fresh init (k + 1) (j :: junk) =
        init.getD j :: fresh init k junk := by
      intro j junk; cases init <;> simp [fresh, List.replicate_succ]
    cases hf : failed (answerOf K d) with
    | true =>
      obtain ⟨s', h1, h2, h3, h4⟩ := hA hf
      refine ⟨List.replicate (k + 1) none, s', ch, fs, by simp, ?_, ?_⟩
      · rw [List.replicate_succ, hfresh]; simp [addMany, addBack, hf, growLoop, h1]
      · rw [List.replicate_succ, hfresh]; simpa [addMany, addBack, hf] using refused_ok R h2 h4
    | false =>
      obtain ⟨p, nd, fs', s1, h1, h2, h3, h4⟩ := hB hf
      obtain ⟨s2, h5, h6⟩ := insertBack_ok R h3 h4 h2 (by omega)
        (init.getD nd.data)
      obtain ⟨junk, s', ch', fs'', hj, h7, h8⟩ := ih h6 (by
        simp only [List.length_append, List.length_cons, List.length_nil]; omega)
      refine ⟨nd.data :: junk, s', ch', fs'', by simp [hj], ?_, ?_⟩
      · rw [hfresh]
        have e : (if (linit init).isNull = true then
              Out.ret (s1.put p (some ⟨some s1.l.tail, some none, nd.data⟩))
            else copyData (s1.put p (some ⟨some s1.l.tail, some none, nd.data⟩)) (some p)
              (linit init)) =
            .ret (s1.put p (some ⟨some s1.l.tail, some none,
              (init.getD nd.data)⟩)) := by
          cases init with
          | none => simp [linit, LSrc.isNull]
          | some x =>
            have hc := copyData_eq (src := .ext x) (Or.inl rfl)
              (core_pend (nd' := ⟨some s1.l.tail, some none, nd.data⟩) h4 h2).seg (put_same _ _ _)
            simp [linit, LSrc.isNull, hc]
        simp only [growLoop, h1, Out.ret_bind', failed_success, Bool.false_eq_true, if_false,
          initBack_eq h2, e, h5, h7, addMany, addBack, hf]
      · rw [hfresh]
        simpa [addMany, addBack, hf] using h8

theorem src_destroy {K : Source} {l : ZList} {mem : Nat → Option (LNode α)} {w : LWorld α}
    {own fs : List Nat} {asked : Nat} (h : SrcOK K l mem w own fs asked) (x : Cell α) :
    SrcOK K l mem { w with trace := w.trace ++ [.destroy x] } own fs asked := by
  unfold SrcOK at h ⊢
  cases K with
  | dynamic answer =>
    obtain ⟨a, h1, h2, h3, h4, h5, h6, L, h7, h8⟩ := h
    refine ⟨a, h1, h2, h3, h4, h5, h6, L, ?_, h8⟩
    show liveNodes (w.trace ++ [_]) = _
    rw [liveNodes_append, h7]; rfl
  | fixed n =>
    obtain ⟨h1, h2, h3, h4, h5, h6, h7⟩ := h
    exact ⟨h1, h2, h3, h4, h5, h6, noAllocator_destroy h7 x⟩

theorem destroyData_ok {K : Source} {dt : Bool} {pr : Option Nat} {s : LS α}
    {ch : List (Nat × Cell α)} {ps fs : List Nat} {asked : Nat} {dead : List (Cell α)} {p : Nat}
    {nd : LNode α} (C : Core F K dt pr s.l s.mem s.w ch ps fs asked dead) (hm : s.mem p = some nd) :
    ∃ s' : LS α, destroyData s (some p) = .ret s' ∧ s'.l = s.l ∧ s'.mem = s.mem ∧
      Core F K dt pr s'.l s'.mem s'.w ch ps fs asked (dead ++ buried dt [nd.data]) := by
  cases hd : dt with
  | false =>
    refine ⟨s, by simp [destroyData, C.dt, hd], rfl, rfl, ?_⟩
    subst hd
    simpa [buried] using C
  | true =>
    subst hd
    refine ⟨s.log (.destroy nd.data), by simp [destroyData, C.dt, deref_some hm], rfl, rfl, C.seg,
      C.nodup, C.dt, ?_, C.free, C.frees, src_destroy C.src _⟩
    show lDestroyed (s.w.trace ++ [_]) = _
    rw [lDestroyed_append, C.dead]
    simp [lDestroyed, buried]

theorem unlinkTail_ok {K : Source} {dt : Bool} {s : LS α} {ch : List (Nat × Cell α)}
    {x : Nat × Cell α} {fs : List Nat} {asked : Nat} {dead : List (Cell α)}
    (C : Core F K dt none s.l s.mem s.w (ch ++ [x]) [] fs asked dead) :
    ∃ (s' : LS α) (nd : LNode α), unlinkTail s (some x.1) = .ret s' ∧
      s'.l = { s.l with tail := lastOf none ch } ∧ s'.w = s.w ∧ s'.mem x.1 = some nd ∧
      Core F K dt none s'.l s'.mem s'.w ch [x.1] fs asked dead := by
  have hs := C.seg
  rw [seg_append] at hs
  obtain ⟨h1, h2, _⟩ := hs
  have hn := C.nodup
  simp only [List.append_nil] at hn
  have hld : loadPrev s (some x.1) = .ret (lastOf none ch) := by
    simp [loadPrev, deref_some h2, useptr]
  rcases last_cases ch with rfl | ⟨c, y, rfl⟩
  · refine ⟨{ s with l := { s.l with tail := none } }, _, ?_, rfl, rfl, h2, trivial,
      by simpa using hn, C.dt, C.dead, C.free, C.frees, ?_⟩
    · simp [unlinkTail, hld, lastOf]
    · exact src_l (src_perm C.src (by simp) (fun _ => rfl)) rfl rfl rfl
  · have hn' : ((c ++ [y]).map Prod.fst).Nodup := by
      rw [List.map_append] at hn
      exact (List.nodup_append.1 (List.nodup_append.1 hn).1).1
    obtain ⟨h3, h4⟩ := seg_last (s := { s with l := { s.l with tail := some y.1 } }) (q' := none)
      h1 hn'
    have hy : s.mem y.1 = some ⟨some (lastOf none c), some (some x.1), y.2⟩ := by
      have := h1; rw [seg_append] at this; exact this.2.1
    have hxy : x.1 ≠ y.1 := by
      intro e
      have hq := (List.nodup_append.1 hn).1
      rw [List.map_append] at hq
      exact (List.nodup_append.1 hq).2.2 y.1 (by simp) x.1 (by simp) e.symm
    refine ⟨LS.put { s with l := { s.l with tail := some y.1 } } y.1
      (some ⟨some (lastOf none c), some none, y.2⟩), ⟨some (some y.1), some none, x.2⟩, ?_, ?_, rfl, ?_,
      h4, ?_, C.dt, C.dead,
      free_put (s := { s with l := { s.l with tail := some y.1 } }) C.free ?_, C.frees, ?_⟩
    · simp only [unlinkTail, hld, Out.ret_bind', lastOf_concat, Option.isSome_some, if_true, h3]
    · simp only [put_l, lastOf_concat]
    · rw [put_ne _ _ hxy]
      rw [lastOf_concat] at h2; exact h2
    · simpa using hn
    · intro h
      exact (List.nodup_append.1 hn).2.2 y.1 (by simp) y.1 h rfl
    · exact src_l (l := s.l) (src_perm C.src (by simp)
        (some_put (s := { s with l := { s.l with tail := some y.1 } }) hy)) rfl rfl rfl

theorem unlinkHead_ok {K : Source} {dt : Bool} {s : LS α} {ch : List (Nat × Cell α)}
    {x : Nat × Cell α} {fs : List Nat} {asked : Nat} {dead : List (Cell α)}
    (C : Core F K dt none s.l s.mem s.w (x :: ch) [] fs asked dead) :
    ∃ (s' : LS α) (nd : LNode α), unlinkHead s (some x.1) = .ret s' ∧
      s'.l = { s.l with head := firstOf ch none } ∧ s'.w = s.w ∧ s'.mem x.1 = some nd ∧
      Core F K dt none s'.l s'.mem s'.w ch [x.1] fs asked dead := by
  obtain ⟨h2, h1⟩ := C.seg
  have hn := C.nodup
  simp only [List.append_nil] at hn
  have hperm : (ch.map Prod.fst ++ [x.1]).Perm ((x :: ch).map Prod.fst ++ []) := by
    simp only [List.map_cons, List.append_nil]
    exact (List.perm_append_comm (l₂ := [x.1]))
  have hnd : (ch.map Prod.fst ++ [x.1] ++ fs).Nodup :=
    ((hperm.append_right fs).nodup_iff).2 C.nodup
  have hld : loadNext s (some x.1) = .ret (firstOf ch none) := by
    simp [loadNext, deref_some h2, useptr]
  cases ch with
  | nil =>
    refine ⟨{ s with l := { s.l with head := none } }, _, ?_, rfl, rfl, h2, trivial,
      hnd, C.dt, C.dead, C.free, C.frees, ?_⟩
    · simp [unlinkHead, hld, firstOf]
    · exact src_l (src_perm C.src hperm (fun _ => rfl)) rfl rfl rfl
  | cons y c =>
    have hn' : ((y :: c).map Prod.fst).Nodup := by
      rw [List.map_cons] at hn
      exact (List.nodup_cons.1 (List.nodup_append.1 hn).1).2
    obtain ⟨h3, h4⟩ := seg_first (s := { s with l := { s.l with head := some y.1 } }) (p' := none)
      h1 hn'
    have hxy : x.1 ≠ y.1 := by
      intro e
      have hq := (List.nodup_append.1 hn).1
      simp only [List.map_cons, List.nodup_cons, List.mem_cons, not_or] at hq
      exact hq.1.1 e
    refine ⟨LS.put { s with l := { s.l with head := some y.1 } } y.1
      (some ⟨some none, some (firstOf c none), y.2⟩), ⟨some none, some (some y.1), x.2⟩, ?_, rfl, rfl,
      ?_, h4, hnd, C.dt, C.dead,
      free_put (s := { s with l := { s.l with head := some y.1 } }) C.free ?_, C.frees, ?_⟩
    · simp only [unlinkHead, hld, Out.ret_bind', firstOf, Option.isSome_some, if_true, h3]
    · rw [put_ne _ _ hxy]; exact h2
    · intro h
      exact (List.nodup_append.1 hn).2.2 y.1 (by simp) y.1 h rfl
    · exact src_l (l := s.l) (src_perm C.src hperm
        (some_put (s := { s with l := { s.l with head := some y.1 } }) h1.1)) rfl rfl rfl

/-- Giving a node of a dynamic list back to the allocator. -/
theorem nodeDealloc_ok {answer : Nat → Status} {dt : Bool} (hF : FreesOK F (.dynamic answer)) {pr pr' : Option Nat} {s : LS α}
    {ch ch' : List (Nat × Cell α)} {ps ps' fs : List Nat} {asked : Nat} {dead : List (Cell α)}
    {p : Nat} {nd : LNode α} (C : Core F (.dynamic answer) dt pr s.l s.mem s.w ch ps fs asked dead)
    (hm : s.mem p = some nd) (hseg : Seg s.mem pr' ch' none)
    (hp : (ch.map Prod.fst ++ ps).Perm (p :: (ch'.map Prod.fst ++ ps'))) :
    ∃ (a : Nat) (st : Status) (s' : LS α), s.l.allocator = some a ∧
      nodeDeallocate s a (some p) = .ret (st, s') ∧ failed st = false ∧ s'.l = s.l ∧
      Core F (.dynamic answer) dt pr' s'.l s'.mem s'.w ch' ps' fs asked dead := by
  obtain ⟨a, h1, h2, h3, h4, h5, h6, L, h7, h8⟩ := C.src
  subst h2
  have hf := hF _ _ C.frees _ rfl s.w.frees
  have hn := C.nodup
  rw [List.append_nil, hp.nodup_iff, List.nodup_cons] at hn
  refine ⟨a, s.w.freeSt s.w.frees, LS.log (LS.put { s with w := { s.w with frees := s.w.frees + 1 } }
      p none) (.dealloc a p (nodeSize s.l) 1), h1, ?_, hf, rfl, seg_frame ?_ hseg, ?_, C.dt, ?_,
      C.free, C.frees, a, h1, rfl, h3, h4, h5, ?_, L.erase (a, p, hdr + s.l.esz), ?_, ?_⟩
  · simp [nodeDeallocate, deref_some hm, hf]
  · intro b hb
    exact put_ne (s := { s with w := { s.w with frees := s.w.frees + 1 } }) _
      (fun e => hn.1 (List.mem_append_left _ (e ▸ hb)))
  · rw [List.append_nil]; exact hn.2
  · show lDestroyed (s.w.trace ++ [_]) = _
    rw [lDestroyed_append, C.dead]; simp [lDestroyed]
  · intro b hb
    by_cases e : b = p
    · rw [e]; exact put_same (s := { s with w := { s.w with frees := s.w.frees + 1 } }) _ _
    · exact (put_ne (s := { s with w := { s.w with frees := s.w.frees + 1 } }) _ e).trans (h6 b hb)
  · show liveNodes (s.w.trace ++ [_]) = _
    rw [liveNodes_append, h7]
    simp only [nodesStep, nodeSize_eq h5]
    rw [if_pos]
    refine ⟨?_, trivial⟩
    rw [(h8.trans (hp.map _)).mem_iff]
    simp
  · have := (h8.trans (hp.map _)).erase (a, p, hdr + s.l.esz)
    rw [List.map_cons, List.erase_cons_head] at this
    exact this

theorem dealloc_ok {K : Source} {dt : Bool} (hF : FreesOK F K) {s : LS α} {ch : List (Nat × Cell α)}
    {p : Nat} {nd : LNode α} {fs : List Nat} {asked : Nat} {dead : List (Cell α)}
    (C : Core F K dt none s.l s.mem s.w ch [p] fs asked dead) (hm : s.mem p = some nd) :
    ∃ (s' : LS α) (fs' : List Nat) (fu : Option Nat), listDeallocateNode s (some p) =
        .ret (stSuccess, s') ∧ s'.l = { s.l with firstUnused := fu } ∧
      Core F K dt none s'.l s'.mem s'.w ch [] fs' asked dead := by
  cases K with
  | dynamic answer =>
    obtain ⟨a, st, s', h1, h2, h3, h4, h5⟩ := nodeDealloc_ok hF (ps' := []) C hm C.seg (by
      rw [List.append_nil]; exact List.perm_append_comm (l₂ := [p]))
    refine ⟨s', fs, s.l.firstUnused, ?_, h4, h5⟩
    simp [listDeallocateNode, h1, h2, h3]
  | fixed n =>
    obtain ⟨h1, h2, h3, h4, h5, h6, h7⟩ := C.src
    have hn := C.nodup
    have hpc : ∀ b ∈ ch.map Prod.fst, b ≠ p := fun b hb e =>
      (List.nodup_append.1 (List.nodup_append.1 hn).1).2.2 b hb p (by simp) e
    have hpf : p ∉ fs := fun h => (List.nodup_append.1 hn).2.2 p (by simp) p h rfl
    refine ⟨{ s.put p (some { nd with next := some s.l.firstUnused }) with
        l := { s.l with firstUnused := some p } }, p :: fs, some p, ?_, rfl,
      seg_frame ?_ C.seg, ?_, C.dt, C.dead, ⟨rfl, _, s.l.firstUnused, put_same _ _ _, rfl, ?_⟩,
      C.frees, h1, h2, h3, ?_, ?_, ?_, h7⟩
    · simp [listDeallocateNode, h1, storeNext, deref_some hm]
    · intro b hb; exact put_ne _ _ (hpc b hb)
    · simpa using hn
    · exact free_put C.free hpf
    · intro k hk
      have := h4 k hk
      rw [← some_put (nd' := { nd with next := some s.l.firstUnused }) hm] at this
      exact this
    · intro b hb
      obtain ⟨k, hk, e⟩ := h5 b (by simpa using hb)
      refine ⟨k, ?_, e⟩
      simp only [List.length_append, List.length_map, List.length_cons, List.length_nil] at hk ⊢
      omega
    · simp only [List.length_append, List.length_map, List.length_cons, List.length_nil] at h6 ⊢
      omega

/-- Popping the last node, up to giving it back. -/
theorem popBack_pre {K : Source} {dt : Bool} {s : LS α} {ch : List (Nat × Cell α)} {fs : List Nat}
    {d : Deque α} {x : Nat × Cell α} (R : LRep F K dt s (ch ++ [x]) fs d) :
    ∃ (s' : LS α) (nd : LNode α), listPopBack s = listDeallocateNode s' (some x.1) ∧
      s'.mem x.1 = some nd ∧ Ends s'.l ch ∧ s'.w.freeSt = s.w.freeSt ∧ s'.w.frees = s.w.frees ∧
      Core F K dt none s'.l s'.mem s'.w ch [x.1] fs d.asked (d.dead ++ buried dt [x.2]) := by
  have E := R.ends
  have ht : s.l.tail = some x.1 := by rw [E.tail, lastOf_concat]
  have hx : s.mem x.1 = some ⟨some (lastOf none ch), some none, x.2⟩ := by
    have := R.core.seg; rw [seg_append] at this; exact this.2.1
  obtain ⟨s1, h1, h1l, h1m, C1⟩ := destroyData_ok R.core hx
  obtain ⟨s2, nd, h2, h2l, h2w, h2m, C2⟩ := unlinkTail_ok C1
  have hsz : subT s.l.size 1 = ch.length := by
    rw [E.size, List.length_append]
    have := E.lt
    rw [List.length_append] at this
    exact subT_eq (by simp) this
  have hhead : (if s2.l.head = some x.1 then { s2 with l := { s2.l with head := s2.l.tail } } else s2)
      = { s2 with l := { s2.l with head := firstOf ch none } } := by
    have e : s2.l.head = firstOf (ch ++ [x]) none := by rw [h2l, h1l]; exact E.head
    have et : s2.l.tail = lastOf none ch := by rw [h2l]
    cases ch with
    | nil =>
      rw [if_pos (by rw [e]; rfl), et]; rfl
    | cons y c =>
      have hne : y.1 ≠ x.1 := by
        have hn := R.core.nodup
        simp only [List.cons_append, List.map_cons, List.map_append, List.map_nil,
          List.append_nil, List.nodup_cons, List.mem_append, List.mem_singleton] at hn
        exact fun e => hn.1 (Or.inl (Or.inr e))
      have e' : s2.l.head = some y.1 := e
      rw [if_neg (by rw [e']; simpa using hne)]
      have : firstOf (y :: c) none = s2.l.head := e'.symm
      rw [this]
  obtain ⟨w1, w2⟩ := destroyData_frees h1
  refine ⟨{ s2 with l := { s2.l with head := firstOf ch none, size := ch.length } }, nd, ?_, h2m,
    ⟨rfl, ?_, rfl, ?_⟩, by rw [← w1, ← h2w], by rw [← w2, ← h2w], core_l C2 rfl rfl rfl rfl rfl⟩
  · simp only [listPopBack, ht, Option.isNone_some, Bool.false_eq_true, if_false, h1,
      Out.ret_bind', h2, hhead]
    have : s2.l.size = s.l.size := by rw [h2l, h1l]
    rw [this, hsz]
  · show s2.l.tail = _; rw [h2l]
  · have := E.lt; rw [List.length_append] at this; omega

theorem popBack_ok {K : Source} {dt : Bool} (hF : FreesOK F K) {s : LS α} {ch : List (Nat × Cell α)} {fs : List Nat}
    {d : Deque α} {x : Nat × Cell α} (R : LRep F K dt s (ch ++ [x]) fs d) :
    ∃ s' fs', listPopBack s = .ret (stSuccess, s') ∧
      LRep F K dt s' ch fs' ⟨ch.map Prod.snd, d.asked, d.dead ++ buried dt [x.2]⟩ := by
  obtain ⟨s2, nd, h1, h2, E, _, _, C⟩ := popBack_pre R
  obtain ⟨s3, fs', fu, h3, h3l, C3⟩ := dealloc_ok hF C h2
  refine ⟨s3, fs', h1.trans h3, C3, ⟨?_, ?_, ?_, E.lt⟩, rfl⟩
  · rw [h3l]; exact E.head
  · rw [h3l]; exact E.tail
  · rw [h3l]; exact E.size

/-- Popping the first node, up to giving it back. -/
theorem popFront_pre {K : Source} {dt : Bool} {s : LS α} {ch : List (Nat × Cell α)} {fs : List Nat}
    {d : Deque α} {x : Nat × Cell α} (R : LRep F K dt s (x :: ch) fs d) :
    ∃ (s' : LS α) (nd : LNode α), listPopFront s = listDeallocateNode s' (some x.1) ∧
      s'.mem x.1 = some nd ∧ Ends s'.l ch ∧ s'.w.freeSt = s.w.freeSt ∧ s'.w.frees = s.w.frees ∧
      Core F K dt none s'.l s'.mem s'.w ch [x.1] fs d.asked (d.dead ++ buried dt [x.2]) := by
  have E := R.ends
  have ht : s.l.head = some x.1 := E.head
  have hx := R.core.seg.1
  obtain ⟨s1, h1, h1l, h1m, C1⟩ := destroyData_ok R.core hx
  obtain ⟨s2, nd, h2, h2l, h2w, h2m, C2⟩ := unlinkHead_ok C1
  have hsz : subT s.l.size 1 = ch.length := by
    rw [E.size, List.length_cons]
    have := E.lt
    rw [List.length_cons] at this
    exact subT_eq (by simp) this
  have htail : (if s2.l.tail = some x.1 then { s2 with l := { s2.l with tail := s2.l.head } } else s2)
      = { s2 with l := { s2.l with tail := lastOf none ch } } := by
    have e : s2.l.tail = lastOf none (x :: ch) := by rw [h2l, h1l]; exact E.tail
    have et : s2.l.head = firstOf ch none := by rw [h2l]
    rcases last_cases ch with rfl | ⟨c, y, rfl⟩
    · rw [if_pos (by rw [e]; rfl), et]; rfl
    · have hne : y.1 ≠ x.1 := by
        have hn := R.core.nodup
        simp only [List.map_cons, List.map_append, List.map_nil, List.cons_append,
          List.append_nil, List.nodup_cons, List.mem_append, List.mem_singleton] at hn
        exact fun e => hn.1 (Or.inl (Or.inr e.symm))
      have e' : s2.l.tail = some y.1 := by rw [e, ← List.cons_append, lastOf_concat]
      rw [if_neg (by rw [e']; simpa using hne)]
      have : lastOf none (c ++ [y]) = s2.l.tail := by rw [e', lastOf_concat]
      rw [this]
  obtain ⟨w1, w2⟩ := destroyData_frees h1
  refine ⟨{ s2 with l := { s2.l with tail := lastOf none ch, size := ch.length } }, nd, ?_, h2m,
    ⟨?_, rfl, rfl, ?_⟩, by rw [← w1, ← h2w], by rw [← w2, ← h2w], core_l C2 rfl rfl rfl rfl rfl⟩
  · simp only [listPopFront, ht, Option.isNone_some, Bool.false_eq_true, if_false, h1,
      Out.ret_bind', h2, htail]
    have : s2.l.size = s.l.size := by rw [h2l, h1l]
    rw [this, hsz]
  · show s2.l.head = _; rw [h2l]
  · have := E.lt; rw [List.length_cons] at this; omega

theorem popFront_ok {K : Source} {dt : Bool} (hF : FreesOK F K) {s : LS α} {ch : List (Nat × Cell α)} {fs : List Nat}
    {d : Deque α} {x : Nat × Cell α} (R : LRep F K dt s (x :: ch) fs d) :
    ∃ s' fs', listPopFront s = .ret (stSuccess, s') ∧
      LRep F K dt s' ch fs' ⟨ch.map Prod.snd, d.asked, d.dead ++ buried dt [x.2]⟩ := by
  obtain ⟨s2, nd, h1, h2, E, _, _, C⟩ := popFront_pre R
  obtain ⟨s3, fs', fu, h3, h3l, C3⟩ := dealloc_ok hF C h2
  refine ⟨s3, fs', h1.trans h3, C3, ⟨?_, ?_, ?_, E.lt⟩, rfl⟩
  · rw [h3l]; exact E.head
  · rw [h3l]; exact E.tail
  · rw [h3l]; exact E.size

/-- The shrinking loop removes the last `k` nodes, leaving at least one. -/
theorem shrinkLoop_ok {K : Source} {dt : Bool} (hF : FreesOK F K) {asked : Nat} (drop : List (Nat × Cell α)) {s : LS α}
    {ch : List (Nat × Cell α)} {fs : List Nat} {dead : List (Cell α)}
    (C : Core F K dt none s.l s.mem s.w (ch ++ drop) [] fs asked dead)
    (ht : s.l.tail = lastOf none (ch ++ drop)) :
    ∃ (s' : LS α) (fs' : List Nat) (fu : Option Nat), shrinkLoop s drop.length = .ret (none, s') ∧
      s'.l = { s.l with tail := lastOf none ch, firstUnused := fu } ∧
      Core F K dt none s'.l s'.mem s'.w ch [] fs' asked
        (dead ++ buried dt (drop.map Prod.snd).reverse) := by
  induction hk : drop.length generalizing s drop fs dead with
  | zero =>
    have : drop = [] := List.length_eq_zero_iff.1 hk
    subst this
    rw [List.append_nil] at C ht
    refine ⟨s, fs, s.l.firstUnused, rfl, by rw [← ht], ?_⟩
    cases dt <;> simpa [buried] using C
  | succ k ih =>
    rcases last_cases drop with rfl | ⟨c, x, rfl⟩
    · simp at hk
    · rw [← List.append_assoc] at C ht
      rw [lastOf_concat] at ht
      have hx : s.mem x.1 = some ⟨some (lastOf none (ch ++ c)), some none, x.2⟩ := by
        have := C.seg; rw [seg_append] at this; exact this.2.1
      obtain ⟨s1, h1, h1l, h1m, C1⟩ := destroyData_ok C hx
      obtain ⟨s2, nd, h2, h2l, h2w, h2m, C2⟩ := unlinkTail_ok C1
      obtain ⟨s3, fs', fu, h3, h3l, C3⟩ := dealloc_ok hF C2 h2m
      obtain ⟨s', fs'', fu', h4, h4l, C4⟩ := ih c C3 (by rw [h3l]; show s2.l.tail = _; rw [h2l])
        (by simpa using hk)
      refine ⟨s', fs'', fu', ?_, ?_, ?_⟩
      · simp [shrinkLoop, ht, h1, h2, h3, h4]
      · rw [h4l, h3l, h2l, h1l]
      · rw [List.append_assoc, ← buried_append] at C4
        simpa using C4

/-- The freeing loop on a dynamic list gives every node back. -/
theorem freeLoop_dynamic {answer : Nat → Status} {dt : Bool} (hF : FreesOK F (.dynamic answer)) {asked : Nat}
    {ch : List (Nat × Cell α)} {pr : Option Nat} {s : LS α} {fs : List Nat} {dead : List (Cell α)}
    (C : Core F (.dynamic answer) dt pr s.l s.mem s.w ch [] fs asked dead) :
    ∃ s' : LS α, freeLoop s (firstOf ch none) ch.length = .ret (none, s') ∧ s'.l = s.l ∧
      Core F (.dynamic answer) dt none s'.l s'.mem s'.w [] [] fs asked
        (dead ++ buried dt (ch.map Prod.snd)) := by
  induction ch generalizing s pr dead with
  | nil =>
    refine ⟨s, rfl, rfl, ⟨trivial, C.nodup, C.dt, ?_, C.free, C.frees, C.src⟩⟩
    rw [C.dead]; cases dt <;> simp [buried]
  | cons x c ih =>
    obtain ⟨s1, h1, h1l, h1m, C1⟩ := destroyData_ok C C.seg.1
    have hld : loadNext s1 (some x.1) = .ret (firstOf c none) := by
      simp [loadNext, deref_some C1.seg.1, useptr]
    obtain ⟨a, st, s2, g1, g2, g3, g4, C2⟩ := nodeDealloc_ok hF (ps' := []) C1 C1.seg.1 C1.seg.2
      (by simp)
    obtain ⟨s', h3, h3l, C3⟩ := ih C2
    refine ⟨s', ?_, by rw [h3l, g4, h1l], ?_⟩
    · have e : firstOf (x :: c) none = some x.1 := rfl
      simp [freeLoop, e, h1, hld, g1, g2, g3, h3]
    · rw [List.append_assoc, ← buried_append] at C3
      simpa using C3

/-- The freeing loop on a list in a caller buffer only calls the destructor. -/
theorem freeLoop_fixed {n : Nat} {dt : Bool} {asked : Nat} {ch : List (Nat × Cell α)}
    (rest : List (Nat × Cell α)) {pr p : Option Nat} {s : LS α} {fs : List Nat}
    {dead : List (Cell α)} (C : Core F (.fixed n) dt pr s.l s.mem s.w ch [] fs asked dead)
    (hs : Seg s.mem p rest none) :
    ∃ s' : LS α, freeLoop s (firstOf rest none) rest.length = .ret (none, s') ∧ s'.l = s.l ∧
      Core F (.fixed n) dt pr s'.l s'.mem s'.w ch [] fs asked
        (dead ++ buried dt (rest.map Prod.snd)) := by
  induction rest generalizing s p dead with
  | nil =>
    refine ⟨s, rfl, rfl, ⟨C.seg, C.nodup, C.dt, ?_, C.free, C.frees, C.src⟩⟩
    rw [C.dead]; cases dt <;> simp [buried]
  | cons x c ih =>
    obtain ⟨s1, h1, h1l, h1m, C1⟩ := destroyData_ok C hs.1
    have hld : loadNext s1 (some x.1) = .ret (firstOf c none) := by
      simp [loadNext, deref_some (h1m ▸ hs.1 : s1.mem x.1 = _), useptr]
    have ha : s1.l.allocator = none := C1.src.1
    obtain ⟨s', h3, h3l, C3⟩ := ih C1 (by rw [h1m]; exact hs.2)
    refine ⟨s', ?_, by rw [h3l, h1l], ?_⟩
    · have e : firstOf (x :: c) none = some x.1 := rfl
      simp [freeLoop, e, h1, hld, ha, h3]
    · rw [List.append_assoc, ← buried_append] at C3
      simpa using C3

/-- Calling the destructor for all elements and giving the nodes back. For a list in a caller buffer
the chain stays in memory (`own` tells what remains in use). -/
theorem freeAll_ok {K : Source} {dt : Bool} (hF : FreesOK F K) {s : LS α} {ch : List (Nat × Cell α)} {fs : List Nat}
    {d : Deque α} (R : LRep F K dt s ch fs d) :
    ∃ s' : LS α, freeAll s = .ret (none, s') ∧ s'.l = s.l ∧
      Core F K dt none { s'.l with size := 0, head := none, tail := none, firstUnused := none }
        s'.mem s'.w [] [] [] d.asked (d.dead ++ buried dt d.elems) := by
  have C := R.core
  have E := R.ends
  cases K with
  | dynamic answer =>
    obtain ⟨a, h1, h2, _⟩ := C.src
    subst h2
    obtain ⟨s', h3, h3l, C3⟩ := freeLoop_dynamic hF C
    refine ⟨s', ?_, h3l, ?_⟩
    · simp only [freeAll, h1, Option.isSome_some, Bool.true_or, if_true, E.head, E.size]; exact h3
    · rw [R.elems]; exact core_l C3 rfl rfl rfl rfl (C3.free : s'.l.firstUnused = none).symm
  | fixed n =>
    obtain ⟨h1, h2, h3, h4, h5, h6, h7⟩ := C.src
    have key : ∃ s' : LS α, freeAll s = .ret (none, s') ∧ s'.l = s.l ∧
        Core F (.fixed n) dt none s'.l s'.mem s'.w ch [] fs d.asked
          (d.dead ++ buried dt d.elems) := by
      cases hd : dt with
      | true =>
        subst hd
        obtain ⟨s', g1, g2, g3⟩ := freeLoop_fixed ch C C.seg
        refine ⟨s', ?_, g2, by rw [R.elems]; exact g3⟩
        simp only [freeAll, h1, C.dt, Bool.or_true, if_true, E.head, E.size]; exact g1
      | false =>
        subst hd
        refine ⟨s, ?_, rfl, by simpa [buried] using C⟩
        simp only [freeAll, h1, C.dt, Option.isSome_none, Bool.or_false, Bool.false_eq_true, if_false]
        cases s.l.size <;> rfl
    obtain ⟨s', g1, g2, C'⟩ := key
    obtain ⟨h1, h2, h3, h4, h5, h6, h7⟩ := C'.src
    exact ⟨s', g1, g2, trivial, by simp, C'.dt, C'.dead, rfl, C'.frees, h1, h2, h3, h4,
      by simp, by simp, h7⟩

theorem destroy_ok {K : Source} {dt : Bool} (hF : FreesOK F K) {s : LS α} {ch : List (Nat × Cell α)} {fs : List Nat}
    {d : Deque α} (R : LRep F K dt s ch fs d) :
    ∃ s' : LS α, listDestroy s = .ret (stSuccess, s') ∧ s'.l = s.l ∧
      Core F K dt none { s'.l with size := 0, head := none, tail := none, firstUnused := none }
        s'.mem s'.w [] [] [] d.asked (d.dead ++ buried dt d.elems) := by
  obtain ⟨s', h1, h2, h3⟩ := freeAll_ok hF R
  exact ⟨s', by simp [listDestroy, h1], h2, h3⟩

theorem lresize_ok {K : Source} {dt : Bool} (hF : FreesOK F K) {s : LS α} {ch : List (Nat × Cell α)} {fs : List Nat}
    {d : Deque α} (R : LRep F K dt s ch fs d) (n : Nat) (init : Option (Cell α))
    (hn : n < T.word) :
    ∃ junk s' ch' fs', junk.length = n - d.elems.length ∧
      listResizeEx s n (linit init) = .ret ((lstep K dt junk d (.resize n init)).1, s') ∧
      LRep F K dt s' ch' fs' (lstep K dt junk d (.resize n init)).2 := by
  have E := R.ends
  have hlen : d.elems.length = ch.length := by rw [R.elems, List.length_map]
  by_cases h0 : n = 0
  · subst h0
    refine ⟨[], ?_⟩
    simp only [lstep, if_true]
    by_cases he : ch = []
    · subst he
      have hd : d.elems = [] := R.elems
      refine ⟨s, [], fs, by simp, ?_, ?_⟩
      · simp [listResizeEx, E.size]
      · rw [hd]
        have : buried dt ([] : List (Cell α)) = [] := by cases dt <;> rfl
        rw [this, List.append_nil]
        exact ⟨R.core, E, rfl⟩
    · obtain ⟨s', h1, h2, h3⟩ := freeAll_ok hF R
      refine ⟨{ s' with l := { s'.l with size := 0, head := none, tail := none, firstUnused := none } },
        [], [], by simp, ?_, h3, ⟨rfl, rfl, rfl, word_pos⟩, rfl⟩
      have : 0 ≠ s.l.size := by
        rw [E.size]; intro h; exact he (List.length_eq_zero_iff.1 h.symm)
      simp [listResizeEx, this, h1]
  · by_cases hle : n ≤ ch.length
    · refine ⟨[], ?_⟩
      simp only [lstep, h0, if_false, hlen, hle, if_true]
      by_cases heq : n = ch.length
      · have hd : d.elems.drop n = [] := List.drop_eq_nil_of_le (by omega)
        have ht : d.elems.take n = d.elems := List.take_of_length_le (by omega)
        have hb : buried dt ([] : List (Cell α)) = [] := by cases dt <;> rfl
        rw [hd, ht, List.reverse_nil, hb, List.append_nil]
        exact ⟨s, ch, fs, by simp; omega, by simp [listResizeEx, E.size, heq], R⟩
      · have hsplit : ch.take n ++ ch.drop n = ch := List.take_append_drop n ch
        obtain ⟨s', fs', fu, h1, h2, h3⟩ := shrinkLoop_ok hF (ch := ch.take n) (ch.drop n)
          (by rw [hsplit]; exact R.core) (by rw [hsplit]; exact E.tail)
        refine ⟨{ s' with l := { s'.l with size := n } }, ch.take n, fs', by simp; omega, ?_,
          ?_, ⟨?_, ?_, ?_, ?_⟩, ?_⟩
        · rw [List.length_drop] at h1
          have e : s.l.size = ch.length := E.size
          unfold listResizeEx
          rw [e, if_neg heq, if_neg h0, if_neg (by omega), h1]
          rfl
        · have := core_l (l' := { s'.l with size := n }) h3 rfl rfl rfl rfl rfl
          rw [R.elems, ← List.map_drop]; exact this
        · show s'.l.head = _
          rw [h2]; show s.l.head = _
          rw [E.head]
          conv => lhs; rw [← hsplit]
          rw [firstOf_append]
          cases hc : ch.take n with
          | nil =>
            rw [List.take_eq_nil_iff] at hc
            rcases hc with hc | hc
            · exact absurd hc h0
            · rw [hc] at hle; simp at hle; omega
          | cons y c => rfl
        · show s'.l.tail = _; rw [h2]
        · show n = _; rw [List.length_take]; omega
        · have := E.lt; rw [List.length_take]; omega
        · rw [R.elems, List.map_take]
    · obtain ⟨junk, s', ch', fs', hj, h1, h2⟩ := growLoop_ok init (n - ch.length) R (by
        have := E.lt; omega)
      refine ⟨junk, s', ch', fs', by rw [hlen]; exact hj, ?_, ?_⟩
      · have e : s.l.size = ch.length := E.size
        simp only [lstep, h0, if_false, hlen, hle]
        unfold listResizeEx
        rw [e, if_neg (by omega), if_neg h0, if_pos (by omega), h1]
      · simp only [lstep, h0, if_false, hlen, hle]; exact h2


end Zy.LT
