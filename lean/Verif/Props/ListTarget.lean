import Verif.Lemmas.ListTargetReach
import Verif.Props.List

/-!
# Property theorems about lists on targets with other widths of `size_t` and of pointers (C176)
-/

namespace Zy.LT

open Spec

variable {α : Type}

/-- C176 (the parameter is the target): with `2^64` values of `size_t` and pointers of 8 bytes, every call is the
call of the 64-bit model, for every state and every request. -/
theorem C176_is_64 (s : LS α) (op : LOp α) : @listOp target64 α s op = Zy.listOp s op := by
  have e1 : @listAllocateNode target64 α = Zy.listAllocateNode := rfl
  have e2 : @listDeallocateNode target64 α = Zy.listDeallocateNode := rfl
  have e3 : @nodeDeallocate target64 α = Zy.nodeDeallocate := rfl
  have e4 : @linkBack target64 α = Zy.linkBack := rfl
  have e5 : @linkFront target64 α = Zy.linkFront := rfl
  have g : ∀ init s k, @growLoop target64 α init s k = Zy.growLoop init s k := by
    intro init s k
    induction k generalizing s with
    | zero => rfl
    | succ k ih => simp only [growLoop, Zy.growLoop, e1, e4, ih]
  have sh : ∀ s k, @shrinkLoop target64 α s k = Zy.shrinkLoop s k := by
    intro s k
    induction k generalizing s with
    | zero => rfl
    | succ k ih => simp only [shrinkLoop, Zy.shrinkLoop, e2, ih]
  have fr : ∀ s p k, @freeLoop target64 α s p k = Zy.freeLoop s p k := by
    intro s p k
    induction k generalizing s p with
    | zero => rfl
    | succ k ih =>
      unfold freeLoop Zy.freeLoop
      simp only [e3, ih]
      rfl
  have rs : ∀ s n init, @listResizeEx target64 α s n init = Zy.listResizeEx s n init := by
    intro s n init
    simp only [listResizeEx, Zy.listResizeEx, freeAll, Zy.freeAll, g, sh, fr]
    rfl
  cases op with
  | clear => exact rs _ _ _
  | resize n init => exact rs _ _ _
  | _ => rfl

/-- C176: on every target, every history of calls on a fresh list does exactly what a double-ended queue does:
the calls return the same statuses, walking from the head shows the elements of the queue, walking from the tail
shows them in reverse, and the reported size is their number. No call is undefined. Requests for memory may be
refused at any time. -/
theorem C176_list_is_a_deque [T : Target] {K : Source} {dt : Bool} {s : LS α} (h : Created K dt s)
    (ops : List (LOp α)) (hf : LAllFit K dt emptyDeque ops) :
    ∃ sts s' d', runList s ops = .ret (sts, s') ∧ LRuns K dt emptyDeque ops sts d' ∧
      forward s' = .ret d'.elems ∧ backward s' = .ret d'.elems.reverse ∧
      listGetSize s' = (stSuccess, d'.elems.length) ∧ lDestroyed s'.w.trace = d'.dead := by
  obtain ⟨sts, s', ch', fs', d', h1, h2, R⟩ := runList_ok (freeFor_ok K s.l) ops (created_ok h) hf
  refine ⟨sts, s', d', h1, h2, forward_ok R, backward_ok R, ?_, R.core.dead⟩
  rw [listGetSize, R.ends.size, R.elems, List.length_map]

/-- C176 (domain): histories that insert fewer elements than `size_t` has values fit. -/
theorem C176_short_histories_fit [T : Target] (K : Source) (dt : Bool) (ops : List (LOp α))
    (h : (ops.map lcost).sum < T.word) : LAllFit K dt emptyDeque ops :=
  allFit_short K dt ops emptyDeque (by simpa [emptyDeque] using h)

/-- C176 (portability): take two targets and on each of them a fresh list, both with nodes from the same source
(allocators that answer alike, or buffers with room for the same number of nodes). A history that leaves no
element unspecified returns the same statuses on both, and the lists show the same elements. -/
theorem C176_portable (T T' : Target) {K : Source} {dt : Bool} {s t : LS α} (h : @Created T α K dt s)
    (h' : @Created T' α K dt t) (ops : List (LOp α)) (hs : ∀ op ∈ ops, Specified op)
    (hf : @LAllFit T α K dt emptyDeque ops) (hf' : @LAllFit T' α K dt emptyDeque ops) :
    ∃ sts s' t' xs, @runList T α s ops = .ret (sts, s') ∧ @runList T' α t ops = .ret (sts, t') ∧
      forward s' = .ret xs ∧ forward t' = .ret xs ∧ lDestroyed s'.w.trace = lDestroyed t'.w.trace := by
  obtain ⟨sts, s', d, a1, a2, a3, _, _, a6⟩ := @C176_list_is_a_deque α T K dt s h ops hf
  obtain ⟨sts', t', d', b1, b2, b3, _, _, b6⟩ := @C176_list_is_a_deque α T' K dt t h' ops hf'
  obtain ⟨rfl, rfl⟩ := lruns_unique hs a2 b2
  exact ⟨sts, s', t', d.elems, a1, b1, a3, b3, by rw [a6, b6]⟩

/-- C176 (buffers): after every history on a list in a caller buffer of `cap` bytes the nodes lie inside of the
buffer without overlapping, two pointers and the element each; no allocator is involved; and if the size of an
element is a multiple of the size of a pointer, so is the offset of every node. -/
theorem C176_buffer [T : Target] {esz b cap bytes : Nat} {dt : Bool} {w : LWorld α} {st : Status} {l : ZList}
    (hw : LFresh w) (hc : cap + (2 * T.ptr + esz) < T.word) (hb : cap ≤ bytes)
    (h : listInitBuffer esz dt (some b) cap = (st, some l)) (ops : List (LOp α))
    (hf : LAllFit (.fixed (cap / (2 * T.ptr + esz))) dt emptyDeque ops) :
    ∃ sts s' as, runList ⟨l, bufferMem bytes esz, w⟩ ops = .ret (sts, s') ∧ LinkedBy s' as ∧
      InBuffer cap (2 * T.ptr + esz) as ∧ noAllocator s'.w.trace ∧
      (T.ptr ∣ esz → ∀ a ∈ as, T.ptr ∣ a) := by
  have hcr := Created.fixed hw hc hb h
  obtain ⟨sts, s', ch', fs', d', h1, h2, R⟩ := runList_ok (freeFor_ok _ l) ops (created_ok hcr) hf
  have hl : l.esz = esz ∧ l.capacity = cap := by
    unfold listInitBuffer at h
    split at h
    · cases h
    · cases h; exact ⟨rfl, rfl⟩
  have hg := (Prod.mk.inj R.core.frees.2)
  have e1 : s'.l.esz = esz := hg.1.trans hl.1
  have e2 : s'.l.capacity = cap := hg.2.trans hl.2
  refine ⟨sts, s', _, h1, linked_of_rep R, ?_, R.core.src.2.2.2.2.2.2, ?_⟩
  · have := inBuffer_of_rep R
    rw [e1, e2] at this
    exact this
  · intro hd a ha
    obtain ⟨k, rfl⟩ := grid_of_rep R a ha
    rw [e1]
    exact Nat.dvd_mul_left_of_dvd (Nat.dvd_add (Nat.dvd_mul_left _ _) hd) k

/-- C176 (room): of any number of elements pushed into a fresh list in a buffer of `cap` bytes, exactly the first
`cap / (2 * pointer + element)` are accepted. So with smaller pointers the same buffer never holds fewer. -/
theorem C176_room [T : Target] {esz b cap bytes : Nat} {dt : Bool} {w : LWorld α} {st : Status} {l : ZList}
    (hw : LFresh w) (hc : cap + (2 * T.ptr + esz) < T.word) (hb : cap ≤ bytes)
    (h : listInitBuffer esz dt (some b) cap = (st, some l)) (xs : List (Cell α)) (hx : xs.length < T.word) :
    ∃ s', runList ⟨l, bufferMem bytes esz, w⟩ (xs.map .pushBack) =
        .ret ((List.range xs.length).map fun i =>
          if i < cap / (2 * T.ptr + esz) then stSuccess else stInsufficient, s') ∧
      forward s' = .ret (xs.take (cap / (2 * T.ptr + esz))) := by
  have hcr := Created.fixed hw hc hb h
  have hsum : ((xs.map LOp.pushBack).map lcost).sum = xs.length := by
    clear hx
    induction xs with
    | nil => rfl
    | cons x xs ih => simp only [List.map_cons, List.sum_cons, ih, lcost, List.length_cons]; omega
  obtain ⟨sts, s', d', h1, h2, h3, _⟩ := C176_list_is_a_deque hcr (xs.map .pushBack)
    (C176_short_histories_fit _ _ _ (by rw [hsum]; exact hx))
  obtain ⟨e1, e2⟩ := lruns_pushes xs h2 (Nat.zero_le _)
  refine ⟨s', ?_, ?_⟩
  · rw [h1, e1]
    simp [emptyDeque, hdr]
  · rw [h3, e2]
    simp [emptyDeque, hdr]

/-- C176 (release): after every history on a dynamic list, destroying it gives every node back exactly once, with
the size it was requested with, and destroys the remaining elements. -/
theorem C176_released [T : Target] {answer : Nat → Status} {dt : Bool} {s : LS α}
    (h : Created (.dynamic answer) dt s) (ops : List (LOp α))
    (hf : LAllFit (.dynamic answer) dt emptyDeque ops) :
    ∃ sts s' s'' xs, runList s ops = .ret (sts, s') ∧ forward s' = .ret xs ∧
      listDestroy s' = .ret (stSuccess, s'') ∧ liveNodes s''.w.trace = some [] ∧
      lDestroyed s''.w.trace = lDestroyed s'.w.trace ++ (if dt then xs else []) := by
  obtain ⟨sts, s', ch', fs', d', h1, h2, R⟩ := runList_ok (freeFor_ok _ s.l) ops (created_ok h) hf
  obtain ⟨s'', h3, _, C⟩ := destroy_ok (freeFor_ok _ s.l) R
  refine ⟨sts, s', s'', d'.elems, h1, forward_ok R, h3, ?_, ?_⟩
  · obtain ⟨a, _, _, _, _, _, _, L, hL, hp⟩ := C.src
    rw [hL, show L = [] from List.Perm.eq_nil hp]
  · rw [C.dead, R.core.dead]; rfl

/-- C176 (the bound on the element size is needed): if two pointers and an element have no size in `size_t`, the
computed size wraps, the block is too small, and the first insertion into a dynamic list writes outside. -/
theorem C176_wraps [T : Target] {esz a : Nat} {dt : Bool} {w : LWorld α} {st : Status} {l : ZList}
    (h : listInitEx esz dt (some a) = (st, some l)) (hg : failed (w.allocSt w.calls) = false)
    (he : T.word ≤ 2 * T.ptr + esz) (x : Cell α) :
    listPushBack ⟨l, fun _ => none, w⟩ (.ext x) = .ub .uaf := by
  unfold listInitEx at h
  split at h
  · cases h
  · cases h
    have hn : ¬ (addT hdr esz = hdr + esz) := by
      intro e
      have : addT hdr esz < T.word := Nat.mod_lt _ word_pos
      rw [e] at this
      unfold hdr at this
      omega
    simp [listPushBack, LSrc.isNull, listAllocateNode, nodeAllocate, hg, nodeSize, hn, initBack, storePrev,
      deref, LS.put, LS.log]

/-! ## A 32-bit target -/

/-- The example list of `Props/List.lean` on a 32-bit target; its elements have 4 bytes here. -/
def exTDyn : LS Nat := ⟨⟨some 0, 0, 4, true, none, none, none, 0, none⟩, fun _ => none, exLW⟩

theorem exTDyn_created : @Created target32 Nat (.dynamic exLW.allocSt) true exTDyn :=
  @Created.dynamic target32 Nat 4 0 true exLW stSuccess _ ⟨rfl, rfl, rfl⟩ (fun _ => failed_success)
    (by decide) rfl

/-- The same on a 64-bit target. -/
theorem exTDyn_created64 : @Created target64 Nat (.dynamic exLW.allocSt) true exTDyn :=
  @Created.dynamic target64 Nat 4 0 true exLW stSuccess _ ⟨rfl, rfl, rfl⟩ (fun _ => failed_success)
    (by decide) rfl

/-- An empty list of 4-byte elements on a caller buffer of 64 bytes, room for five nodes. -/
def exTFix : LS Nat :=
  ⟨⟨none, 0, 4, false, none, none, some 7, 64, none⟩, @bufferMem target32 Nat 64 4, exLW⟩

theorem exLOps_fit32 (K : Source) (dt : Bool) : @LAllFit target32 Nat K dt emptyDeque exLOps :=
  @C176_short_histories_fit Nat target32 K dt exLOps (by decide)

example : ∃ sts s' d', @runList target32 Nat exTDyn exLOps = .ret (sts, s') ∧
    LRuns (.dynamic exLW.allocSt) true emptyDeque exLOps sts d' ∧ forward s' = .ret d'.elems ∧
    backward s' = .ret d'.elems.reverse ∧ listGetSize s' = (stSuccess, d'.elems.length) ∧
    lDestroyed s'.w.trace = d'.dead :=
  @C176_list_is_a_deque Nat target32 _ _ _ exTDyn_created exLOps (exLOps_fit32 _ _)

/-- The third request is refused, everything else succeeds, as on the 64-bit target. -/
example : lshow (@runList target32 Nat exTDyn exLOps) =
    some ([false, false, true, false, false, false, false, false],
      .ret [some 6, some 1, some 5, some 9]) := by decide +kernel

example : ∃ sts s' t' xs, @runList target32 Nat exTDyn exLOps = .ret (sts, s') ∧
    @runList target64 Nat exTDyn exLOps = .ret (sts, t') ∧ forward s' = .ret xs ∧ forward t' = .ret xs ∧
    lDestroyed s'.w.trace = lDestroyed t'.w.trace :=
  C176_portable target32 target64 exTDyn_created exTDyn_created64 exLOps
    (by
      intro op h
      simp only [exLOps, List.mem_cons, List.not_mem_nil, or_false] at h
      rcases h with rfl | rfl | rfl | rfl | rfl | rfl | rfl | rfl <;> simp [Specified])
    (exLOps_fit32 _ _) (@C176_short_histories_fit Nat target64 _ _ exLOps (by decide))

example : ∃ sts s' as, @runList target32 Nat exTFix exLOps = .ret (sts, s') ∧ LinkedBy s' as ∧
    InBuffer 64 12 as ∧ noAllocator s'.w.trace ∧ (4 ∣ 4 → ∀ a ∈ as, 4 ∣ a) :=
  @C176_buffer Nat target32 4 7 64 64 false exLW stSuccess _ ⟨rfl, rfl, rfl⟩ (by decide) (by decide) rfl exLOps
    (exLOps_fit32 _ _)

/-- Of six elements the buffer takes five; on a 64-bit target it takes three. -/
example : (∃ s', @runList target32 Nat exTFix (([1, 2, 3, 4, 5, 6].map some).map .pushBack) =
      .ret ([stSuccess, stSuccess, stSuccess, stSuccess, stSuccess, stInsufficient], s') ∧
      forward s' = .ret ([1, 2, 3, 4, 5].map some)) ∧
    ∃ s', @runList target64 Nat ⟨exTFix.l, @bufferMem target64 Nat 64 4, exLW⟩
        (([1, 2, 3, 4, 5, 6].map some).map .pushBack) =
      .ret ([stSuccess, stSuccess, stSuccess, stInsufficient, stInsufficient, stInsufficient], s') ∧
      forward s' = .ret ([1, 2, 3].map some) :=
  ⟨@C176_room Nat target32 4 7 64 64 false exLW stSuccess _ ⟨rfl, rfl, rfl⟩ (by decide) (by decide) rfl
      ([1, 2, 3, 4, 5, 6].map some) (by decide),
    @C176_room Nat target64 4 7 64 64 false exLW stSuccess _ ⟨rfl, rfl, rfl⟩ (by decide) (by decide) rfl
      ([1, 2, 3, 4, 5, 6].map some) (by decide)⟩

example : ∃ sts s' s'' xs, @runList target32 Nat exTDyn exLOps = .ret (sts, s') ∧ forward s' = .ret xs ∧
    @listDestroy target32 Nat s' = .ret (stSuccess, s'') ∧ liveNodes s''.w.trace = some [] ∧
    lDestroyed s''.w.trace = lDestroyed s'.w.trace ++ (if true then xs else []) :=
  @C176_released Nat target32 _ _ _ exTDyn_created exLOps (exLOps_fit32 _ _)

/-- Elements of `2^32 - 8` bytes: nodes of 0 bytes are requested. -/
example : @listPushBack target32 Nat
    ⟨⟨some 0, 0, 4294967288, false, none, none, none, 0, none⟩, fun _ => none, exLW⟩ (.ext (some 1)) =
      .ub .uaf :=
  @C176_wraps Nat target32 4294967288 0 false exLW stSuccess _ rfl rfl (by decide) (some 1)

end Zy.LT
