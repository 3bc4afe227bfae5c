import Verif.Lemmas.Allocator

/-!
# Property theorems: the default allocator

The vocabulary (`HeapOk`, `BlockOf`, `bufRun`) is in `Verif.Spec.Allocator`.
-/

namespace Zy

open Zy.Spec

/-! ## C71 -/

/-- C71 for allocations. The property demands the conclusion for every element size and count.

Missing: products that are not machine words, see `C71_allocate_negation`. -/
theorem C71_allocate_partial {h : CHeap} (H : HeapOk h) (r : CReply) {esz n : Nat} (hn : esz * n < 2 ^ 64) :
    ∃ st p h', defaultAllocate r esz n h = (st, p, h') ∧ HeapOk h' ∧
      (st = stSuccess ∧ BlockOf h' p (esz * n) ∧ h.block p = none ∧
          (∀ q, q ≠ p → h'.block q = h.block q) ∨
        st = stNoMemory ∧ p = 0 ∧ h' = h) := by
  rw [defaultAllocate_eval H, show mul64 esz n = esz * n from mul64_eq hn]
  by_cases hg : grants r = true
  · rw [if_pos hg]
    refine ⟨_, _, _, rfl, H.grow _, Or.inl ⟨rfl, ⟨List.replicate (esz * n) none, ?_, List.length_replicate⟩,
      H.free_next, ?_⟩⟩
    · exact (set_block _ _ _ _).trans (if_pos rfl)
    · intro q hq
      exact (set_block _ _ _ _).trans (if_neg hq)
  · rw [if_neg hg]
    exact ⟨_, _, _, rfl, H, Or.inr ⟨rfl, rfl, rfl⟩⟩

/-- C71 for reallocations. The property demands the conclusion for every element size and count; both
are not zero (an assertion of the function).

Missing: products that are not machine words, see `C71_reallocate_negation` and
`C71_reallocate_dangling`. -/
theorem C71_reallocate_partial {h : CHeap} (H : HeapOk h) (r : CReply) {p : Nat} {c : List HByte}
    (hb : h.block p = some c) {esz n : Nat} (h0 : 0 < esz * n) (hn : esz * n < 2 ^ 64) :
    ∃ st p' h', defaultReallocate r p esz n h = .ret (st, p', h') ∧ HeapOk h' ∧
      (st = stSuccess ∧
          (∃ d, h'.block p' = some d ∧ d.length = esz * n ∧
            ∀ i, i < c.length → i < esz * n → d[i]? = c[i]?) ∧
          (p' = p ∨ h.block p' = none ∧ h'.block p = none) ∧
          (∀ q, q ≠ p → q ≠ p' → h'.block q = h.block q) ∨
        st = stNoMemory ∧ p' = p ∧ h' = h) := by
  have hp := H.2 p c hb
  have hne : esz * n ≠ 0 := by omega
  have key : ∀ i, i < c.length → i < esz * n → (resizeBytes c (esz * n))[i]? = c[i]? := by
    intro i h1 h2
    unfold resizeBytes
    rw [List.getElem?_append_left (by rw [List.length_take]; omega), List.getElem?_take, if_pos h2]
  rw [defaultReallocate_eval H r hb, show mul64 esz n = esz * n from mul64_eq hn]
  cases r
  · exact ⟨_, _, _, rfl, H, Or.inr ⟨rfl, rfl, rfl⟩⟩
  · refine ⟨_, _, _, rfl, (H.set hp none).grow _, Or.inl ⟨rfl, ⟨resizeBytes c (esz * n), ?_,
      resizeBytes_length _ _, key⟩, Or.inr ⟨H.free_next, ?_⟩, ?_⟩⟩
    · exact (set_block _ _ _ _).trans (if_pos rfl)
    · refine (set_block _ _ _ _).trans ?_
      rw [if_neg (by omega), set_block, if_pos rfl]
    · intro q h1 h2
      refine (set_block _ _ _ _).trans ?_
      rw [if_neg h2, set_block, if_neg h1]
  · refine ⟨_, _, _, rfl, H.set hp _, Or.inl ⟨rfl, ⟨resizeBytes c (esz * n), ?_,
      resizeBytes_length _ _, key⟩, Or.inl rfl, ?_⟩⟩
    · rw [set_block, if_pos rfl]
    · intro q h1 _
      rw [set_block, if_neg h1]
  · simp only [if_neg hne]
    exact ⟨_, _, _, rfl, H, Or.inr ⟨rfl, rfl, rfl⟩⟩

/-- C71, deallocation: the block is given back, nothing else changes. -/
theorem C71_deallocate {h : CHeap} (H : HeapOk h) {p : Nat} {c : List HByte} (hb : h.block p = some c)
    (esz n : Nat) : ∃ h', defaultDeallocate p esz n h = .ret (stSuccess, h') ∧ HeapOk h' ∧
      h'.block p = none ∧ ∀ q, q ≠ p → h'.block q = h.block q := by
  have hp := H.2 p c hb
  refine ⟨h.set p none, ?_, H.set hp none, ?_, ?_⟩
  · simp only [defaultDeallocate, cFree]
    rw [if_neg (by omega), hb]
    rfl
  · rw [set_block, if_pos rfl]
  · intro q hq; rw [set_block, if_neg hq]

/-- C71 is false for every product that is not a machine word: if the C library grants the call, success
is reported for a block that is too small. -/
theorem C71_allocate_negation {h : CHeap} (H : HeapOk h) {r : CReply} (hr : grants r = true) {esz n : Nat}
    (hn : 2 ^ 64 ≤ esz * n) :
    ∃ p h' c, defaultAllocate r esz n h = (stSuccess, p, h') ∧ h'.block p = some c ∧ c.length < esz * n := by
  rw [defaultAllocate_eval H, if_pos hr]
  refine ⟨_, _, _, rfl, (set_block _ _ _ _).trans (if_pos rfl), ?_⟩
  rw [List.length_replicate]
  have := mul64_lt esz n
  omega

/-- C71 is false also for such a reallocation. -/
theorem C71_reallocate_negation {h : CHeap} (H : HeapOk h) {r : CReply} (hr : grants r = true) {p : Nat}
    {c : List HByte} (hb : h.block p = some c) {esz n : Nat} (hn : 2 ^ 64 ≤ esz * n) :
    ∃ p' h' d, defaultReallocate r p esz n h = .ret (stSuccess, p', h') ∧ h'.block p' = some d ∧
      d.length < esz * n := by
  have hl := mul64_lt esz n
  rw [defaultReallocate_eval H r hb]
  cases r
  · simp [grants] at hr
  · refine ⟨_, _, _, rfl, (set_block _ _ _ _).trans (if_pos rfl), ?_⟩
    rw [resizeBytes_length]; omega
  · refine ⟨_, _, _, rfl, (set_block _ _ _ _).trans (if_pos rfl), ?_⟩
    rw [resizeBytes_length]; omega
  · simp [grants] at hr

/-- C71, the worst case: for a product that is a multiple of 2^64 the C library may free the block. The
call then reports a lack of memory, and the pointer that the caller still holds is dangling. -/
theorem C71_reallocate_dangling {h : CHeap} (H : HeapOk h) {p : Nat} {c : List HByte}
    (hb : h.block p = some c) {esz n : Nat} (hn : esz * n % 2 ^ 64 = 0) :
    ∃ h', defaultReallocate .release p esz n h = .ret (stNoMemory, p, h') ∧ h'.block p = none := by
  rw [defaultReallocate_eval H _ hb]
  have e : mul64 esz n = 0 := hn
  simp only [e, if_true]
  exact ⟨_, rfl, by rw [set_block, if_pos rfl]⟩

/-- C71 for whole programs: as long as a client keeps the rules (no request for zero bytes or more than a
machine word can count, accesses only inside of buffers it holds), every sequence of calls, for every
behaviour of the C library, gives exactly the results that separate buffers of the requested sizes would
give. -/
theorem C71_history {as : List CAct} {os : List CObs} {bs : Buffers} (h : bufRun [] as = some (os, bs)) :
    ∃ c, clientRun ⟨[], CHeap.empty⟩ as = .ret (os, c) := by
  have R : BufRep [] ⟨[], CHeap.empty⟩ :=
    ⟨heapOk_empty, rfl, fun i d hd => by simp [held] at hd, fun i j d e hd => by simp [held] at hd⟩
  obtain ⟨c, hc, _⟩ := client_run_sim as R h
  exact ⟨c, hc⟩

/-- A heap with one block of three bytes. -/
def exHeap : CHeap := ⟨fun q => if q = 1 then some [some 7, some 8, none] else none, 2⟩

theorem exHeap_ok : HeapOk exHeap := by
  refine ⟨by decide, fun q c hq => ?_⟩
  simp only [exHeap] at hq ⊢
  by_cases e : q = 1
  · omega
  · rw [if_neg e] at hq; cases hq

example : ∃ st p h', defaultAllocate .fresh 3 2 exHeap = (st, p, h') ∧ HeapOk h' ∧
    (st = stSuccess ∧ BlockOf h' p 6 ∧ exHeap.block p = none ∧ (∀ q, q ≠ p → h'.block q = exHeap.block q) ∨
      st = stNoMemory ∧ p = 0 ∧ h' = exHeap) := C71_allocate_partial exHeap_ok .fresh (by decide)
example : ((defaultAllocate .fresh 3 2 exHeap).1, (defaultAllocate .fresh 3 2 exHeap).2.1,
    (defaultAllocate .fresh 3 2 exHeap).2.2.block 2) = (stSuccess, 2, some (List.replicate 6 none)) := by
  decide
/-- 2^32 elements of 2^32 bytes, plus one element: a block of 2^32 bytes. -/
example : ∃ p h' c, defaultAllocate .fresh 4294967296 4294967297 exHeap = (stSuccess, p, h') ∧
    h'.block p = some c ∧ c.length < 4294967296 * 4294967297 :=
  C71_allocate_negation exHeap_ok rfl (by decide)
example : ∃ p' h' d, defaultReallocate .inPlace 1 9223372036854775809 2 exHeap = .ret (stSuccess, p', h') ∧
    h'.block p' = some d ∧ d.length < 9223372036854775809 * 2 :=
  C71_reallocate_negation exHeap_ok rfl rfl (by decide)
example : ∃ h', defaultReallocate .release 1 4294967296 4294967296 exHeap = .ret (stNoMemory, 1, h') ∧
    h'.block 1 = none := C71_reallocate_dangling exHeap_ok rfl (by decide)
example : ∃ h', defaultDeallocate 1 1 3 exHeap = .ret (stSuccess, h') ∧ HeapOk h' ∧ h'.block 1 = none ∧
    ∀ q, q ≠ 1 → h'.block q = exHeap.block q := C71_deallocate exHeap_ok rfl 1 3
/-- Two buffers, one of them moved while the other is in use, a refused growth, a free. -/
example : ∃ c, clientRun ⟨[], CHeap.empty⟩
    [.alloc .fresh 1 2, .alloc .fresh 2 2, .store 0 1 5, .store 1 0 9, .realloc .fresh 0 3 1, .load 0 1,
      .realloc .refuse 1 2 9, .load 1 0, .dealloc 0 3 1, .alloc .refuse 1 1] =
    .ret ([.status stSuccess, .status stSuccess, .nothing, .nothing, .status stSuccess, .byte (some 5),
      .status stNoMemory, .byte (some 9), .status stSuccess, .status stNoMemory], c) :=
  C71_history (bs := [none, some [some 9, none, none, none], none]) (by decide)

end Zy
