import Verif.Lemmas.ListProps

/-!
# Property theorems about lists (C46 - C51, C85 - C87)

The specification (`Spec/List`): a list is a sequence of elements; `lstep` says what a double-ended queue
would do, given the answers to requests for nodes (`Source`: an allocator with arbitrary answers, or a
buffer with room for `n` nodes). `Spec/ListRun` says how operations are calls (`listOp`, `runList`), what a
caller sees when walking along the links (`forward`, `backward`), and which lists are freshly initialised
(`Created`).
-/

namespace Zy

open Spec

variable {α : Type}

/-! ## Example lists -/

/-- An allocator that refuses its third request and always takes memory back. -/
def exLW : LWorld Nat :=
  ⟨fun k => if k = 2 then stNoMemory else stSuccess, fun _ => stSuccess, 0, 0, 0, []⟩

/-- An empty dynamic list of 8-byte elements with a destructor. -/
def exLDyn : LS Nat := ⟨⟨some 0, 0, 8, true, none, none, none, 0, none⟩, fun _ => none, exLW⟩

theorem exLDyn_created : Created (.dynamic exLW.allocSt) true exLDyn :=
  Created.dynamic (esz := 8) (a := 0) (dtor := true) (w := exLW) (st := stSuccess) ⟨rfl, rfl, rfl⟩
    (fun _ => failed_success) (by decide) rfl

/-- An empty list of 4-byte elements on a caller buffer of 64 bytes, room for three nodes. -/
def exLFix : LS Nat :=
  ⟨⟨none, 0, 4, false, none, none, some 7, 64, none⟩, bufferMem 64 4, exLW⟩

theorem exLFix_created : Created (.fixed 3) false exLFix :=
  Created.fixed (esz := 4) (b := 7) (cap := 64) (bytes := 64) (dtor := false) (w := exLW)
    (st := stSuccess) ⟨rfl, rfl, rfl⟩ (by decide) (by decide) rfl

/-- A history with pushes at both ends, a refusal, a copy of an own element, a pop and a resize. -/
def exLOps : List (LOp Nat) :=
  [.pushBack (some 1), .pushFront (some 2), .pushBack (some 3), .pushBackOf 0, .popFront,
   .resize 3 (some (some 9)), .set 1 (some 5), .emplaceFront (some fun _ => (stSuccess, some 6))]

/-- The statuses and the elements after a history, for evaluation. -/
def lshow (r : Out (List Status × LS Nat)) : Option (List Bool × Out (List (Cell Nat))) :=
  match r with
  | .ret q => some (q.1.map failed, forward q.2)
  | .ub _ => none

/-! ## C46: a double-ended queue -/

/-- Every history of calls on a fresh list does exactly what a double-ended queue does: the calls return
the same statuses, walking from the head shows the elements of the queue, walking from the tail shows
them in reverse, and the reported size is their number. No call is undefined. Requests for memory may be
refused at any time. -/
theorem C46_list_is_a_deque {K : Source} {dt : Bool} {s : LS α} (h : Created K dt s)
    (ops : List (LOp α)) (hf : LAllFit K dt emptyDeque ops) :
    ∃ sts s' d', runList s ops = .ret (sts, s') ∧ LRuns K dt emptyDeque ops sts d' ∧
      forward s' = .ret d'.elems ∧ backward s' = .ret d'.elems.reverse ∧
      listGetSize s' = (stSuccess, d'.elems.length) ∧ lDestroyed s'.w.trace = d'.dead := by
  obtain ⟨sts, s', ch', fs', d', h1, h2, R⟩ := runList_ok (freeFor_ok K s.l) ops (created_ok h) hf
  refine ⟨sts, s', d', h1, h2, forward_ok R, backward_ok R, ?_, R.core.dead⟩
  rw [listGetSize, R.ends.size, R.elems, List.length_map]

/-- Fewer than `2^64` elements are inserted altogether: then every operation fits. -/
theorem C46_short_histories_fit (K : Source) (dt : Bool) (ops : List (LOp α))
    (h : (ops.map lcost).sum < 18446744073709551616) : LAllFit K dt emptyDeque ops :=
  allFit_short K dt ops emptyDeque (by simpa [emptyDeque] using h)

theorem exLOps_fit (K : Source) (dt : Bool) : LAllFit K dt emptyDeque exLOps :=
  C46_short_histories_fit K dt exLOps (by decide)

example : ∃ sts s' d', runList exLDyn exLOps = .ret (sts, s') ∧
    LRuns (.dynamic exLW.allocSt) true emptyDeque exLOps sts d' ∧ forward s' = .ret d'.elems ∧
    backward s' = .ret d'.elems.reverse ∧ listGetSize s' = (stSuccess, d'.elems.length) ∧
    lDestroyed s'.w.trace = d'.dead :=
  C46_list_is_a_deque exLDyn_created exLOps (exLOps_fit _ _)

example : lshow (runList exLDyn exLOps) =
    some ([false, false, true, false, false, false, false, false],
      .ret [some 6, some 1, some 5, some 9]) := by decide +kernel

/-! ## C47: consistent links -/

/-- After every history the links form one chain from head to tail with as many nodes as the list
reports, in which next and previous pointers are inverse. -/
theorem C47_links_consistent {K : Source} {dt : Bool} {s : LS α} (h : Created K dt s)
    (ops : List (LOp α)) (hf : LAllFit K dt emptyDeque ops) :
    ∃ sts s' as, runList s ops = .ret (sts, s') ∧ LinkedBy s' as := by
  obtain ⟨sts, s', ch', fs', d', h1, h2, R⟩ := runList_ok (freeFor_ok K s.l) ops (created_ok h) hf
  exact ⟨sts, s', _, h1, linked_of_rep R⟩

example : ∃ sts s' as, runList exLFix exLOps = .ret (sts, s') ∧ LinkedBy s' as :=
  C47_links_consistent exLFix_created exLOps (exLOps_fit _ _)

/-! ## C48: caller buffers -/

/-- A list on a caller buffer: after every history, each of the four insertions succeeds exactly if fewer
than `cap / (16 + esz)` elements are stored, and otherwise reports the insufficient buffer; the nodes lie
inside of the buffer without overlapping; no allocator is involved. -/
theorem C48_whole_buffer_usable {esz b cap bytes : Nat} {dt : Bool} {w : LWorld α} {st : Status}
    {l : ZList} (hw : LFresh w) (hc : cap + (16 + esz) < 18446744073709551616) (hb : cap ≤ bytes)
    (h : listInitBuffer esz dt (some b) cap = (st, some l)) (ops : List (LOp α))
    (hf : LAllFit (.fixed (cap / (16 + esz))) dt emptyDeque ops) :
    ∃ sts s', runList ⟨l, bufferMem bytes esz, w⟩ ops = .ret (sts, s') ∧
      (∀ op, (∃ x, op = .pushBack x) ∨ (∃ x, op = .pushFront x) ∨ (∃ c, op = .emplaceBack c) ∨
          (∃ c, op = .emplaceFront c) →
        ∃ s'', listOp s' op = .ret
          (if (listGetSize s').2 < cap / (16 + esz) then stSuccess else stInsufficient, s'')) ∧
      (∃ as, LinkedBy s' as ∧ InBuffer cap (16 + esz) as) ∧ noAllocator s'.w.trace := by
  have hcr := Created.fixed hw hc hb h
  obtain ⟨sts, s', ch', fs', d', h1, h2, R⟩ :=
    runList_ok (freeFor_ok _ l) ops (created_ok hcr) hf
  have hl : l.esz = esz ∧ l.capacity = cap := by
    unfold listInitBuffer at h
    split at h
    · cases h
    · cases h; exact ⟨rfl, rfl⟩
  have hg := (Prod.mk.inj R.core.frees.2)
  refine ⟨sts, s', h1, ?_, ⟨_, linked_of_rep R, ?_⟩, R.core.src.2.2.2.2.2.2⟩
  · intro op hop
    have hsz : (listGetSize s').2 = d'.elems.length := by
      rw [listGetSize, R.ends.size, R.elems, List.length_map]
    rw [hsz]
    have key : ∀ junk, (lstep (.fixed (cap / (16 + esz))) dt junk d' op).1 =
        if d'.elems.length < cap / (16 + esz) then stSuccess else stInsufficient := by
      intro junk
      have hB : ∀ x, (addBack (.fixed (cap / (16 + esz))) d' x).1 =
          if d'.elems.length < cap / (16 + esz) then stSuccess else stInsufficient := by
        intro x; unfold addBack answerOf
        by_cases hlt : d'.elems.length < cap / (16 + esz) <;> simp [hlt]
      have hFr : ∀ x, (addFront (.fixed (cap / (16 + esz))) d' x).1 =
          if d'.elems.length < cap / (16 + esz) then stSuccess else stInsufficient := by
        intro x; unfold addFront answerOf
        by_cases hlt : d'.elems.length < cap / (16 + esz) <;> simp [hlt]
      rcases hop with ⟨x, rfl⟩ | ⟨x, rfl⟩ | ⟨c, rfl⟩ | ⟨c, rfl⟩
      · exact hB x
      · exact hFr x
      · exact hB _
      · exact hFr _
    have hfit : LFits (.fixed (cap / (16 + esz))) d' op := by
      rcases hop with ⟨x, rfl⟩ | ⟨x, rfl⟩ | ⟨c, rfl⟩ | ⟨c, rfl⟩ <;> trivial
    obtain ⟨junk, s'', _, _, _, h3, _⟩ := listOp_ok (freeFor_ok _ l) R op hfit
    exact ⟨s'', by rw [h3, key]⟩
  · have := inBuffer_of_rep R
    rw [hg.1, hg.2, hl.1, hl.2] at this
    exact this

example : ∃ sts s', runList exLFix exLOps = .ret (sts, s') ∧
    (∀ op, (∃ x, op = .pushBack x) ∨ (∃ x, op = .pushFront x) ∨ (∃ c, op = .emplaceBack c) ∨
        (∃ c, op = .emplaceFront c) →
      ∃ s'', listOp s' op = .ret
        (if (listGetSize s').2 < 64 / (16 + 4) then stSuccess else stInsufficient, s'')) ∧
    (∃ as, LinkedBy s' as ∧ InBuffer 64 (16 + 4) as) ∧ noAllocator s'.w.trace :=
  C48_whole_buffer_usable (esz := 4) (b := 7) (cap := 64) (bytes := 64) (dt := false) (w := exLW)
    (st := stSuccess) ⟨rfl, rfl, rfl⟩ (by decide) (by decide) rfl exLOps (exLOps_fit _ _)

/-- Three nodes fit, the fourth does not. -/
example : lshow (runList exLFix exLOps) =
    some ([false, false, false, true, false, false, false, true],
      .ret [some 1, some 5, some 9]) := by decide +kernel

/-! ## C49: nodes and elements are released exactly once -/

/-- A dynamic list, any history and then `ZyanListDestroy`: the allocation history is legal (nothing is
given back twice, or with another size, or to another allocator) and nothing stays allocated. With a
destructor, the elements it received are exactly those that were put into the list, each once; without one
it is never called. -/
theorem C49_released_exactly_once {answer : Nat → Status} {dt : Bool} {s : LS α}
    (h : Created (.dynamic answer) dt s) (ops : List (LOp α))
    (hf : LAllFit (.dynamic answer) dt emptyDeque ops) :
    ∃ sts s' s'', runList s ops = .ret (sts, s') ∧ listDestroy s' = .ret (stSuccess, s'') ∧
      liveNodes s''.w.trace = some [] ∧
      (dt = true → (lDestroyed s''.w.trace).Perm (lstoredRun s ops)) ∧
      (dt = false → lDestroyed s''.w.trace = []) := by
  cases dt with
  | true =>
    obtain ⟨sts, s', ch', fs', d', h1, R, h2⟩ :=
      lrun_conserves (freeFor_ok _ s.l) ops (created_ok h) hf
    obtain ⟨s'', h3, _, C⟩ := destroy_ok (freeFor_ok _ s.l) R
    refine ⟨sts, s', s'', h1, h3, ?_, fun _ => ?_, fun e => by cases e⟩
    · obtain ⟨a, _, _, _, _, _, _, L, hL, hp⟩ := C.src
      rw [hL, show L = [] from List.Perm.eq_nil hp]
    · rw [C.dead]
      simpa [buried, emptyDeque] using h2
  | false =>
    obtain ⟨sts, s', ch', fs', d', h1, h2, R⟩ :=
      runList_ok (freeFor_ok _ s.l) ops (created_ok h) hf
    obtain ⟨s'', h3, _, C⟩ := destroy_ok (freeFor_ok _ s.l) R
    refine ⟨sts, s', s'', h1, h3, ?_, fun e => (by cases e), fun _ => ?_⟩
    · obtain ⟨a, _, _, _, _, _, _, L, hL, hp⟩ := C.src
      rw [hL, show L = [] from List.Perm.eq_nil hp]
    · rw [C.dead, lruns_no_dtor h2]; rfl

example : ∃ sts s' s'', runList exLDyn exLOps = .ret (sts, s') ∧
    listDestroy s' = .ret (stSuccess, s'') ∧ liveNodes s''.w.trace = some [] ∧
    (true = true → (lDestroyed s''.w.trace).Perm (lstoredRun exLDyn exLOps)) ∧
    (true = false → lDestroyed s''.w.trace = []) :=
  C49_released_exactly_once exLDyn_created exLOps (exLOps_fit _ _)

/-- The elements that go into the example list. -/
example : lstoredRun exLDyn exLOps =
    [some 1, some 2, some 2, some 9, some 5, some 6] := by decide +kernel

/-! ## C50: refused requests -/

/-- The node source of a list refuses the next request. -/
def RefusesNext (s : LS α) (st : Status) : Prop :=
  failed st = true ∧ ((∃ a, s.l.allocator = some a ∧ s.w.allocSt s.w.calls = st) ∨
    (s.l.allocator = none ∧ s.l.capacity / (16 + s.l.esz) ≤ (listGetSize s).2 ∧ st = stInsufficient))

/-- If no node can be had, every insertion returns the status of the refusal, and the list structure and
all nodes are exactly as before. -/
theorem C50_refusal_changes_nothing {K : Source} {dt : Bool} {s : LS α} (h : Created K dt s)
    (ops : List (LOp α)) (hf : LAllFit K dt emptyDeque ops) {sts : List Status} {s1 : LS α}
    (hr : runList s ops = .ret (sts, s1)) {st : Status} (hst : RefusesNext s1 st) (x : Cell α)
    (c : Ctor α) :
    ∃ s', listPushBack s1 (.ext x) = .ret (st, s') ∧ listPushFront s1 (.ext x) = .ret (st, s') ∧
      listEmplaceBack s1 c = .ret (st, s') ∧ listEmplaceFront s1 c = .ret (st, s') ∧
      s'.l = s1.l ∧ s'.mem = s1.mem := by
  obtain ⟨sts', s', ch', fs', d', h1, h2, R⟩ := runList_ok (freeFor_ok K s.l) ops (created_ok h) hf
  obtain ⟨rfl, rfl⟩ := Prod.mk.inj (Out.ret.inj (hr.symm.trans h1))
  have hans : answerOf K d' = st := by
    obtain ⟨hfail, hor⟩ := hst
    have hsz : s1.l.size = d'.elems.length := by rw [R.ends.size, R.elems, List.length_map]
    cases K with
    | dynamic answer =>
      obtain ⟨a, g1, g2, g3, g4, _⟩ := R.core.src
      rcases hor with ⟨b, k1, k2⟩ | ⟨k1, _⟩
      · rw [← k2, g3, g4]; rfl
      · rw [g1] at k1; cases k1
    | fixed n =>
      obtain ⟨g1, g2, _⟩ := R.core.src
      rcases hor with ⟨b, k1, k2⟩ | ⟨_, k2, k3⟩
      · rw [g1] at k1; cases k1
      · rw [k3]
        have : (listGetSize s1).2 = d'.elems.length := hsz
        rw [this, ← g2] at k2
        show (if d'.elems.length < n then stSuccess else stInsufficient) = _
        rw [if_neg (by omega)]
  have := refused_push R (by rw [hans]; exact hst.1) x c
  rw [hans] at this
  exact this

/-- The third request is refused. -/
example : ∃ sts s1, runList exLDyn [.pushBack (some 1), .pushFront (some 2)] = .ret (sts, s1) ∧
    ∃ s', listPushBack s1 (.ext (some 3)) = .ret (stNoMemory, s') ∧
      listPushFront s1 (.ext (some 3)) = .ret (stNoMemory, s') ∧
      listEmplaceBack s1 none = .ret (stNoMemory, s') ∧
      listEmplaceFront s1 none = .ret (stNoMemory, s') ∧ s'.l = s1.l ∧ s'.mem = s1.mem := by
  refine ⟨_, _, rfl, C50_refusal_changes_nothing exLDyn_created
    [.pushBack (some 1), .pushFront (some 2)] (C46_short_histories_fit _ _ _ (by decide)) rfl
    ⟨by decide, Or.inl ⟨0, rfl, rfl⟩⟩ (some 3) none⟩

/-! ## C51: removing nodes

The property fails for every list: `ZyanListRemove` and `ZyanListRemoveRange` are stubs. -/

/-- Whatever the list and whatever node of it: removing the node succeeds and the list still has all its
elements. The same holds for a range. -/
theorem C51_remove_negation {K : Source} {dt : Bool} {s : LS α} (h : Created K dt s)
    (ops : List (LOp α)) (hf : LAllFit K dt emptyDeque ops) {sts : List Status} {s1 : LS α}
    (hr : runList s ops = .ret (sts, s1)) (i j : Nat) (hij : i ≤ j) (hj : j < (listGetSize s1).2) :
    ∃ p q s' s'' xs, nodeAt s1 i = .ret (some p) ∧ nodeAt s1 j = .ret (some q) ∧
      listRemove s1 (some p) = .ret (stSuccess, s') ∧
      listRemoveRange s1 (some p) (some q) = .ret (stSuccess, s'') ∧ forward s1 = .ret xs ∧
      forward s' ≠ .ret (xs.eraseIdx i) ∧ forward s'' ≠ .ret (xs.take i ++ xs.drop (j + 1)) := by
  obtain ⟨sts', s', ch', fs', d', h1, h2, R⟩ := runList_ok (freeFor_ok K s.l) ops (created_ok h) hf
  obtain ⟨rfl, rfl⟩ := Prod.mk.inj (Out.ret.inj (hr.symm.trans h1))
  have hsz : (listGetSize s1).2 = ch'.length := R.ends.size
  rw [hsz] at hj
  have hi : i < ch'.length := by omega
  have hlen : d'.elems.length = ch'.length := by rw [R.elems, List.length_map]
  refine ⟨(ch'[i]).1, (ch'[j]).1, s1, s1, d'.elems, ?_, ?_, rfl, rfl, forward_ok R, ?_, ?_⟩
  · rw [nodeAt_ok R, List.getElem?_eq_getElem hi]; rfl
  · rw [nodeAt_ok R, List.getElem?_eq_getElem hj]; rfl
  · rw [forward_ok R]
    intro e
    have := congrArg List.length (Out.ret.inj e)
    rw [List.length_eraseIdx_of_lt (by omega)] at this
    omega
  · rw [forward_ok R]
    intro e
    have := congrArg List.length (Out.ret.inj e)
    rw [List.length_append, List.length_take, List.length_drop] at this
    omega

example : ∃ sts s1, runList exLDyn [.pushBack (some 1), .pushFront (some 2)] = .ret (sts, s1) ∧
    ∃ p q s' s'' xs, nodeAt s1 0 = .ret (some p) ∧ nodeAt s1 1 = .ret (some q) ∧
      listRemove s1 (some p) = .ret (stSuccess, s') ∧
      listRemoveRange s1 (some p) (some q) = .ret (stSuccess, s'') ∧ forward s1 = .ret xs ∧
      forward s' ≠ .ret (xs.eraseIdx 0) ∧ forward s'' ≠ .ret (xs.take 0 ++ xs.drop (1 + 1)) :=
  ⟨_, _, rfl, C51_remove_negation exLDyn_created
    [.pushBack (some 1), .pushFront (some 2)] (C46_short_histories_fit _ _ _ (by decide)) rfl 0 1
    (by decide) (by decide)⟩

/-! ## C85: alignment of nodes in a caller buffer

Nodes contain pointers, so their addresses must be multiples of 8. Offsets are relative to the buffer; even
if the buffer itself is aligned, the nodes are not unless the element size is a multiple of 8. -/

/-- With an element size that is a multiple of 8, every node of every reachable list lies at an offset that
is a multiple of 8. Missing: other element sizes, for which this is false. -/
theorem C85_aligned_nodes_partial {esz b cap bytes : Nat} {dt : Bool} {w : LWorld α} {st : Status}
    {l : ZList} (hw : LFresh w) (hc : cap + (16 + esz) < 18446744073709551616) (hb : cap ≤ bytes)
    (h : listInitBuffer esz dt (some b) cap = (st, some l)) (h8 : esz % 8 = 0) (ops : List (LOp α))
    (hf : LAllFit (.fixed (cap / (16 + esz))) dt emptyDeque ops) :
    ∃ sts s' as, runList ⟨l, bufferMem bytes esz, w⟩ ops = .ret (sts, s') ∧ LinkedBy s' as ∧
      ∀ a ∈ as, a % 8 = 0 := by
  have hcr := Created.fixed hw hc hb h
  obtain ⟨sts, s', ch', fs', d', h1, h2, R⟩ :=
    runList_ok (freeFor_ok _ l) ops (created_ok hcr) hf
  have hl : l.esz = esz := by
    unfold listInitBuffer at h
    split at h
    · cases h
    · cases h; rfl
  have hg := (Prod.mk.inj R.core.frees.2).1
  refine ⟨sts, s', _, h1, linked_of_rep R, ?_⟩
  intro a ha
  obtain ⟨k, rfl⟩ := grid_of_rep R a ha
  rw [hg, hl, Nat.mul_mod, show (16 + esz) % 8 = 0 by omega, Nat.mul_zero, Nat.zero_mod]

example : ∃ sts s' as, runList ⟨⟨none, 0, 8, false, none, none, some 7, 96, none⟩, bufferMem 96 8, exLW⟩
    exLOps = .ret (sts, s') ∧ LinkedBy s' as ∧ ∀ a ∈ as, a % 8 = 0 :=
  C85_aligned_nodes_partial (esz := 8) (b := 7) (cap := 96) (bytes := 96) (dt := false) (w := exLW)
    (st := stSuccess) ⟨rfl, rfl, rfl⟩ (by decide) (by decide) rfl rfl exLOps (exLOps_fit _ _)

/-- For every other element size and every buffer with room for two nodes, the second element pushed gets a
misaligned node. -/
theorem C85_aligned_nodes_negation {esz b cap bytes : Nat} {dt : Bool} {w : LWorld α} {st : Status}
    {l : ZList} (hc : cap + (16 + esz) < 18446744073709551616) (hb : cap ≤ bytes)
    (h : listInitBuffer esz dt (some b) cap = (st, some l)) (h8 : esz % 8 ≠ 0)
    (h2 : 2 * (16 + esz) ≤ cap) (x y : Cell α) :
    ∃ s' a, runList ⟨l, bufferMem bytes esz, w⟩ [.pushBack x, .pushBack y] =
        .ret ([stSuccess, stSuccess], s') ∧ (listGetTail s').2 = some a ∧ a % 8 ≠ 0 := by
  have hl : l = ⟨none, 0, esz, dt, none, none, some b, cap, none⟩ := by
    unfold listInitBuffer at h
    split at h
    · cases h
    · cases h; rfl
  subst hl
  have e16 : add64 16 esz = 16 + esz := add64_eq (by omega)
  have m0 : mul64 0 (16 + esz) = 0 := by simp [mul64]
  have m1 : mul64 1 (16 + esz) = 16 + esz := by rw [mul64_eq (by omega)]; omega
  have a0 : add64 0 (16 + esz) = 16 + esz := by rw [add64_eq (by omega)]; omega
  have a1 : add64 (16 + esz) (16 + esz) = (16 + esz) + (16 + esz) := add64_eq (by omega)
  have a01 : add64 0 1 = 1 := by decide
  have b0 : (bufferMem bytes esz 0 : Option (LNode α)) = some ⟨none, none, none⟩ := by
    unfold bufferMem; rw [if_pos ⟨by simp, by omega⟩]
  have b1 : (bufferMem bytes esz (16 + esz) : Option (LNode α)) = some ⟨none, none, none⟩ := by
    unfold bufferMem; rw [if_pos ⟨by simp, by omega⟩]
  have hne' : ¬ (0 = 16 + esz) := by omega
  have hc1 : ¬ (cap < 16 + esz) := by omega
  have hc2 : ¬ (cap < 16 + esz + (16 + esz)) := by omega
  have key : (runList (⟨⟨none, 0, esz, dt, none, none, some b, cap, none⟩, bufferMem bytes esz, w⟩ :
      LS α) [.pushBack x, .pushBack y]).bind (fun q => .ret (q.1, q.2.l.tail)) =
      .ret ([stSuccess, stSuccess], some (16 + esz)) := by
    simp [runList, listOp, listPushBack, LSrc.isNull, listAllocateNode, nodeSize, e16, m0, a0, hc1,
      initBack, storePrev, storeNext, deref, b0, LS.put, copyData, readSrc, linkBack, a01, m1, a1, hc2,
      b1, hne']
  cases hr : runList (⟨⟨none, 0, esz, dt, none, none, some b, cap, none⟩, bufferMem bytes esz, w⟩ :
      LS α) [.pushBack x, .pushBack y] with
  | ub u => rw [hr] at key; cases key
  | ret q =>
    rw [hr] at key
    obtain ⟨k1, k2⟩ := Prod.mk.inj (Out.ret.inj key)
    exact ⟨q.2, 16 + esz, by rw [← k1], k2, by omega⟩

/-- Elements of 4 bytes in a buffer of 64 bytes: the second node lies at offset 20. -/
example : ∃ s' a, runList exLFix [.pushBack (some 1), .pushBack (some 2)] =
    .ret ([stSuccess, stSuccess], s') ∧ (listGetTail s').2 = some a ∧ a % 8 ≠ 0 :=
  C85_aligned_nodes_negation (esz := 4) (b := 7) (cap := 64) (bytes := 64) (dt := false) (w := exLW)
    (st := stSuccess) (by decide) (by decide) rfl (by decide) (by decide) (some 1) (some 2)

/-! ## C86: an allocator that does not take memory back

`s1.withFrees f` is the list after the history, with an allocator that from now on answers requests to give
memory back as `f` says; `s1.w.frees` such requests have been made before. -/

/-- A pop whose request to give the node back is refused reports the refusal; the element is gone and the
links are consistent. Missing: shrinking and clearing, for which the list does not stay consistent. -/
theorem C86_refused_free_pop_partial {answer : Nat → Status} {dt : Bool} {s : LS α}
    (h : Created (.dynamic answer) dt s) (ops : List (LOp α))
    (hf : LAllFit (.dynamic answer) dt emptyDeque ops) {sts : List Status} {s1 : LS α}
    (hr : runList s ops = .ret (sts, s1)) (hne : 0 < (listGetSize s1).2) (f : Nat → Status)
    (hfail : failed (f s1.w.frees) = true) :
    ∃ xs s2 s3, forward s1 = .ret xs ∧
      listPopBack (s1.withFrees f) = .ret (f s1.w.frees, s2) ∧ forward s2 = .ret xs.dropLast ∧
      backward s2 = .ret xs.dropLast.reverse ∧ (∃ as, LinkedBy s2 as) ∧
      listPopFront (s1.withFrees f) = .ret (f s1.w.frees, s3) ∧ forward s3 = .ret xs.tail ∧
      backward s3 = .ret xs.tail.reverse ∧ ∃ as, LinkedBy s3 as := by
  obtain ⟨sts', s', ch', fs', d', h1, h2, R⟩ := runList_ok (freeFor_ok _ s.l) ops (created_ok h) hf
  obtain ⟨rfl, rfl⟩ := Prod.mk.inj (Out.ret.inj (hr.symm.trans h1))
  have R' := rep_frees R f
  have hn := (List.nodup_append.1 (List.nodup_append.1 R.core.nodup).1).1
  have hsz : 0 < ch'.length := by have := R.ends.size; rw [← this]; exact hne
  have hB : ∃ s2, listPopBack (s1.withFrees f) = .ret (f s1.w.frees, s2) ∧
      forward s2 = .ret d'.elems.dropLast ∧ backward s2 = .ret d'.elems.dropLast.reverse ∧
      ∃ as, LinkedBy s2 as := by
    rcases last_cases ch' with rfl | ⟨c, x, rfl⟩
    · simp at hsz
    · obtain ⟨s2, g1, g2, E⟩ := popBack_refused R' hfail
      have hd : d'.elems.dropLast = c.map Prod.snd := by rw [R.elems]; simp
      refine ⟨s2, g1, by rw [hd]; exact forward_seg g2 E.head 0 E.size,
        by rw [hd]; exact backward_seg g2 E, _, linked_seg g2 E ?_⟩
      rw [List.map_append] at hn
      exact (List.nodup_append.1 hn).1
  have hFr : ∃ s3, listPopFront (s1.withFrees f) = .ret (f s1.w.frees, s3) ∧
      forward s3 = .ret d'.elems.tail ∧ backward s3 = .ret d'.elems.tail.reverse ∧
      ∃ as, LinkedBy s3 as := by
    cases ch' with
    | nil => simp at hsz
    | cons x c =>
      obtain ⟨s2, g1, g2, E⟩ := popFront_refused R' hfail
      have hd : d'.elems.tail = c.map Prod.snd := by rw [R.elems]; simp
      refine ⟨s2, g1, by rw [hd]; exact forward_seg g2 E.head 0 E.size,
        by rw [hd]; exact backward_seg g2 E, _, linked_seg g2 E ?_⟩
      rw [List.map_cons] at hn
      exact (List.nodup_cons.1 hn).2
  obtain ⟨s2, a1, a2, a3, a4⟩ := hB
  obtain ⟨s3, b1, b2, b3, b4⟩ := hFr
  exact ⟨d'.elems, s2, s3, forward_ok R, a1, a2, a3, a4, b1, b2, b3, b4⟩

example : ∃ sts s1, runList exLDyn [.pushBack (some 1), .pushFront (some 2)] = .ret (sts, s1) ∧
    ∃ xs s2 s3, forward s1 = .ret xs ∧
      listPopBack (s1.withFrees fun _ => stFailed) = .ret (stFailed, s2) ∧
      forward s2 = .ret xs.dropLast ∧ backward s2 = .ret xs.dropLast.reverse ∧
      (∃ as, LinkedBy s2 as) ∧ listPopFront (s1.withFrees fun _ => stFailed) = .ret (stFailed, s3) ∧
      forward s3 = .ret xs.tail ∧ backward s3 = .ret xs.tail.reverse ∧ ∃ as, LinkedBy s3 as :=
  ⟨_, _, rfl, C86_refused_free_pop_partial exLDyn_created
    [.pushBack (some 1), .pushFront (some 2)] (C46_short_histories_fit _ _ _ (by decide)) rfl
    (by decide) (fun _ => stFailed) (by decide)⟩

/-- For every dynamic list and every smaller new size other than zero: if the first request to give a node
back is refused, the list reports its old size although it has one element less. -/
theorem C86_refused_free_shrink_negation {answer : Nat → Status} {dt : Bool} {s : LS α}
    (h : Created (.dynamic answer) dt s) (ops : List (LOp α))
    (hf : LAllFit (.dynamic answer) dt emptyDeque ops) {sts : List Status} {s1 : LS α}
    (hr : runList s ops = .ret (sts, s1)) (n : Nat) (h0 : 0 < n) (hn : n < (listGetSize s1).2)
    (f : Nat → Status) (hfail : failed (f s1.w.frees) = true) :
    ∃ xs s2, forward s1 = .ret xs ∧
      listResize (s1.withFrees f) n = .ret (f s1.w.frees, s2) ∧ forward s2 = .ret xs.dropLast ∧
      (listGetSize s2).2 = xs.length ∧ ¬ ∃ as, LinkedBy s2 as := by
  obtain ⟨sts', s', ch', fs', d', h1, h2, R⟩ := runList_ok (freeFor_ok _ s.l) ops (created_ok h) hf
  obtain ⟨rfl, rfl⟩ := Prod.mk.inj (Out.ret.inj (hr.symm.trans h1))
  have R' := rep_frees R f
  have hsz : n < ch'.length := by have := R.ends.size; rw [← this]; exact hn
  rcases last_cases ch' with rfl | ⟨c, x, rfl⟩
  · simp at hsz
  · rw [List.length_append] at hsz
    obtain ⟨s2, g1, g2, g3, g4⟩ := shrink_refused R' hfail n h0
      (by simp only [List.length_cons, List.length_nil] at hsz; omega) .null
    have hd : d'.elems.dropLast = c.map Prod.snd := by rw [R.elems]; simp
    refine ⟨d'.elems, s2, forward_ok R, g1, by rw [hd]; exact forward_seg g2 g3 1 g4, ?_, ?_⟩
    · show s2.l.size = _
      rw [g4, R.elems]; simp
    · rintro ⟨as, l1, l2, l3, l4, l5⟩
      have hlen : as.length = c.length + 1 := by rw [l2]; exact g4
      have key : ∀ (c : List (Nat × Cell α)) (p : Option Nat) (i : Nat), Seg s2.mem p c none →
          firstOf c none = as[i]? → i + c.length < as.length → False := by
        intro c
        induction c with
        | nil =>
          intro p i _ e hi
          rw [List.getElem?_eq_getElem (by simpa using hi)] at e
          cases e
        | cons y c ih =>
          intro p i hs e hi
          rw [List.length_cons] at hi
          have hlt : i < as.length := by omega
          refine ih _ (i + 1) hs.2 ?_ (by omega)
          rw [List.getElem?_eq_getElem hlt] at e
          have e' : y.1 = as[i] := Option.some.inj e
          obtain ⟨nd, m1, m2, _⟩ := l5 i hlt
          rw [← e', hs.1] at m1
          rw [← Option.some.inj m1] at m2
          exact Option.some.inj m2
      refine key c none 0 g2 ?_ (by omega)
      have : s2.l.head = as.head? := l3
      rw [← g3, this, List.head?_eq_getElem?]

example : ∃ sts s1, runList exLDyn [.pushBack (some 1), .pushFront (some 2)] = .ret (sts, s1) ∧
    ∃ xs s2, forward s1 = .ret xs ∧
      listResize (s1.withFrees fun _ => stFailed) 1 = .ret (stFailed, s2) ∧
      forward s2 = .ret xs.dropLast ∧ (listGetSize s2).2 = xs.length ∧ ¬ ∃ as, LinkedBy s2 as :=
  ⟨_, _, rfl, C86_refused_free_shrink_negation exLDyn_created
    [.pushBack (some 1), .pushFront (some 2)] (C46_short_histories_fit _ _ _ (by decide)) rfl 1
    (by decide) (by decide) (fun _ => stFailed) (by decide)⟩

/-- For every dynamic list with at least two elements: if the first node is given back and the request for
the second one is refused, `ZyanListClear` and `ZyanListDestroy` return the refusal and leave a list whose
head has been given back; walking along it is a use after free. -/
theorem C86_refused_free_clear_negation {answer : Nat → Status} {dt : Bool} {s : LS α}
    (h : Created (.dynamic answer) dt s) (ops : List (LOp α))
    (hf : LAllFit (.dynamic answer) dt emptyDeque ops) {sts : List Status} {s1 : LS α}
    (hr : runList s ops = .ret (sts, s1)) (h2 : 2 ≤ (listGetSize s1).2)
    (f : Nat → Status) (hok : failed (f s1.w.frees) = false)
    (hfail : failed (f (s1.w.frees + 1)) = true) :
    ∃ s2, listClear (s1.withFrees f) = .ret (f (s1.w.frees + 1), s2) ∧
      listDestroy (s1.withFrees f) = .ret (f (s1.w.frees + 1), s2) ∧ forward s2 = .ub .uaf := by
  obtain ⟨sts', s', ch', fs', d', h1, _, R⟩ := runList_ok (freeFor_ok _ s.l) ops (created_ok h) hf
  obtain ⟨rfl, rfl⟩ := Prod.mk.inj (Out.ret.inj (hr.symm.trans h1))
  have hsz : 2 ≤ ch'.length := by have := R.ends.size; rw [← this]; exact h2
  match ch', hsz, R with
  | x :: y :: c, _, R => exact clear_refused (rep_frees R f) hok hfail

example : ∃ sts s1, runList exLDyn [.pushBack (some 1), .pushFront (some 2)] = .ret (sts, s1) ∧
    ∃ s2, listClear (s1.withFrees fun k => if k = 0 then stSuccess else stFailed) = .ret (stFailed, s2) ∧
      listDestroy (s1.withFrees fun k => if k = 0 then stSuccess else stFailed) = .ret (stFailed, s2) ∧
      forward s2 = .ub .uaf :=
  ⟨_, _, rfl, C86_refused_free_clear_negation exLDyn_created
    [.pushBack (some 1), .pushFront (some 2)] (C46_short_histories_fit _ _ _ (by decide)) rfl
    (by decide) (fun k => if k = 0 then stSuccess else stFailed) (by decide) (by decide)⟩

/-! ## C87: failing constructors -/

/-- Every list with room for one more element, every constructor: both emplace functions succeed and the
list has one more element, which the constructor made from some slot content. Missing: the status of the
constructor, which is ignored. -/
theorem C87_emplace_partial {K : Source} {dt : Bool} {s : LS α} (h : Created K dt s)
    (ops : List (LOp α)) (hf : LAllFit K dt emptyDeque ops) {sts : List Status} {s1 : LS α}
    (hr : runList s ops = .ret (sts, s1)) (hroom : ∀ st, ¬ RefusesNext s1 st)
    (hlt : (listGetSize s1).2 + 1 < 18446744073709551616) (f : Cell α → Status × Cell α) :
    ∃ xs s2 s3 i j, forward s1 = .ret xs ∧
      listEmplaceBack s1 (some f) = .ret (stSuccess, s2) ∧ forward s2 = .ret (xs ++ [(f i).2]) ∧
      listEmplaceFront s1 (some f) = .ret (stSuccess, s3) ∧
      forward s3 = .ret ((f j).2 :: xs) := by
  obtain ⟨sts', s', ch', fs', d', h1, _, R⟩ := runList_ok (freeFor_ok K s.l) ops (created_ok h) hf
  obtain ⟨rfl, rfl⟩ := Prod.mk.inj (Out.ret.inj (hr.symm.trans h1))
  have hsz : (listGetSize s1).2 = d'.elems.length := by
    show s1.l.size = _
    rw [R.ends.size, R.elems, List.length_map]
  have hans : failed (answerOf K d') = false := by
    cases he : failed (answerOf K d') with
    | false => rfl
    | true =>
      refine absurd ⟨he, ?_⟩ (hroom (answerOf K d'))
      cases K with
      | dynamic answer =>
        obtain ⟨a, g1, g2, g3, g4, _⟩ := R.core.src
        exact Or.inl ⟨a, g1, by rw [g3, g4]; rfl⟩
      | fixed n =>
        obtain ⟨g1, g2, _⟩ := R.core.src
        refine Or.inr ⟨g1, ?_, ?_⟩
        · rw [hsz, ← g2]
          refine Classical.byContradiction fun hc => ?_
          have : answerOf (.fixed n) d' = stSuccess := if_pos (by omega)
          rw [this] at he; cases he
        · show (if d'.elems.length < n then stSuccess else stInsufficient) = _
          split
          · next hc =>
            have : answerOf (.fixed n) d' = stSuccess := if_pos hc
            rw [this] at he; cases he
          · rfl
  have hfit : ∀ op : LOp α, lcost op = 1 → LFits K d' op ∨ ∃ n i, op = .resize n i := by
    intro op _
    cases op <;> first | exact Or.inr ⟨_, _, rfl⟩ | (left; cases K <;> simp only [LFits, OneMore]; omega)
  have hb : LFits K d' (.emplaceBack (some f)) := by
    rcases hfit (.emplaceBack (some f)) rfl with hq | ⟨_, _, hq⟩
    · exact hq
    · cases hq
  have hfr : LFits K d' (.emplaceFront (some f)) := by
    rcases hfit (.emplaceFront (some f)) rfl with hq | ⟨_, _, hq⟩
    · exact hq
    · cases hq
  obtain ⟨j1, s2, _, _, _, e2, R2⟩ := listOp_ok (freeFor_ok K s.l) R (.emplaceBack (some f)) hb
  obtain ⟨j2, s3, _, _, _, e3, R3⟩ := listOp_ok (freeFor_ok K s.l) R (.emplaceFront (some f)) hfr
  simp only [lstep, addBack, addFront, hans, Bool.false_eq_true, if_false, constructed] at e2 R2 e3 R3
  exact ⟨d'.elems, s2, s3, _, _, forward_ok R, e2, forward_ok R2, e3, forward_ok R3⟩

theorem exLRoom {s1 : LS Nat} {sts : List Status}
    (h : runList exLDyn [.pushBack (some 1)] = .ret (sts, s1)) (st : Status) : ¬ RefusesNext s1 st := by
  cases h
  rintro ⟨h1, ⟨a, h2, h3⟩ | ⟨h2, _⟩⟩
  · rw [← h3] at h1; revert h1; decide
  · cases h2

example : ∃ sts s1, runList exLDyn [.pushBack (some 1)] = .ret (sts, s1) ∧
    ∃ xs s2 s3, ∃ i j : Cell Nat, forward s1 = .ret xs ∧
      listEmplaceBack s1 (some fun _ => (stSuccess, some 8)) = .ret (stSuccess, s2) ∧
      forward s2 = .ret (xs ++ [((fun _ => (stSuccess, some 8)) i : Status × Cell Nat).2]) ∧
      listEmplaceFront s1 (some fun _ => (stSuccess, some 8)) = .ret (stSuccess, s3) ∧
      forward s3 = .ret (((fun _ => (stSuccess, some 8)) j : Status × Cell Nat).2 :: xs) :=
  ⟨_, _, rfl, C87_emplace_partial exLDyn_created [.pushBack (some 1)]
    (C46_short_histories_fit _ _ _ (by decide)) rfl (exLRoom rfl) (by decide)
    (fun _ => (stSuccess, some 8))⟩

/-- Every constructor that fails on every slot, every list with room for one more element: both emplace
functions report success although the constructor did not, and the half-constructed element is in the
list. -/
theorem C87_failing_constructor_negation {K : Source} {dt : Bool} {s : LS α} (h : Created K dt s)
    (ops : List (LOp α)) (hf : LAllFit K dt emptyDeque ops) {sts : List Status} {s1 : LS α}
    (hr : runList s ops = .ret (sts, s1)) (hroom : ∀ st, ¬ RefusesNext s1 st)
    (hlt : (listGetSize s1).2 + 1 < 18446744073709551616) (f : Cell α → Status × Cell α)
    (hfail : ∀ j, failed (f j).1 = true) :
    ∃ xs st2 s2 st3 s3 i j, forward s1 = .ret xs ∧ listEmplaceBack s1 (some f) = .ret (st2, s2) ∧
      st2 ≠ (f i).1 ∧ forward s2 = .ret (xs ++ [(f i).2]) ∧
      listEmplaceFront s1 (some f) = .ret (st3, s3) ∧ st3 ≠ (f j).1 ∧
      forward s3 = .ret ((f j).2 :: xs) := by
  obtain ⟨xs, s2, s3, i, j, h1, h2, h3, h4, h5⟩ := C87_emplace_partial h ops hf hr hroom hlt f
  have hne : ∀ k, stSuccess ≠ (f k).1 := by
    intro k e
    have := hfail k
    rw [← e] at this; cases this
  exact ⟨xs, stSuccess, s2, stSuccess, s3, i, j, h1, h2, hne i, h3, h4, hne j, h5⟩

example : ∃ sts s1, runList exLDyn [.pushBack (some 1)] = .ret (sts, s1) ∧
    ∃ xs st2 s2 st3 s3, ∃ i j : Cell Nat, forward s1 = .ret xs ∧
      listEmplaceBack s1 (some fun _ => (stFailed, none)) = .ret (st2, s2) ∧
      st2 ≠ ((fun _ => (stFailed, none)) i : Status × Cell Nat).1 ∧
      forward s2 = .ret (xs ++ [((fun _ => (stFailed, none)) i : Status × Cell Nat).2]) ∧
      listEmplaceFront s1 (some fun _ => (stFailed, none)) = .ret (st3, s3) ∧
      st3 ≠ ((fun _ => (stFailed, none)) j : Status × Cell Nat).1 ∧
      forward s3 = .ret (((fun _ => (stFailed, none)) j : Status × Cell Nat).2 :: xs) :=
  ⟨_, _, rfl, C87_failing_constructor_negation exLDyn_created [.pushBack (some 1)]
    (C46_short_histories_fit _ _ _ (by decide)) rfl (exLRoom rfl) (by decide)
    (fun _ => (stFailed, none)) (fun _ => by decide)⟩

end Zy
