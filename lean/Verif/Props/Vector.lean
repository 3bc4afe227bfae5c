import Verif.Lemmas.VectorBounds

/-!
# Property theorems about vectors (C01 - C17)

Every theorem speaks about vectors that a program can obtain (`Reach`), about the modelled API functions,
and about what a caller can observe: `contents`, size, capacity, allocator calls, destructor calls.
-/

namespace Zy

open Spec

variable {α : Type}

/-! ## A concrete reachable vector, used by the examples -/

/-- Allocator 0, growth factor 2, shrink threshold 4 (the defaults), 8-byte elements, a destructor. -/
def exP : Params := ⟨some 0, 2, 4, 8, true⟩

/-- A fresh world whose allocator always succeeds. -/
def exW : World Nat := ⟨fun _ => stSuccess, 0, 0, []⟩

/-- The state after initialisation with capacity 1 and pushing 10, 20, 30. -/
def exS : VS Nat :=
  ⟨{ allocator := some 0, growth := 2, shrink := 4, size := 3, cap := 4, esz := 8, hasDtor := true,
     data := some ⟨1, [some 10, some 20, some 30, none]⟩ },
   ⟨fun _ => stSuccess, 2, 2, [.alloc 0 0 8 1, .realloc 0 0 1 8 4]⟩⟩

/-- The state right after initialisation with capacity 1. -/
def exS0 : VS Nat :=
  ⟨{ allocator := some 0, growth := 2, shrink := 4, size := 0, cap := 1, esz := 8, hasDtor := true,
     data := some ⟨0, [none]⟩ }, ⟨fun _ => stSuccess, 1, 1, [.alloc 0 0 8 1]⟩⟩

theorem exS0_reach : Reach exP exS0 :=
  Reach.init (w := exW) (cap := 1) (a := 0) ⟨rfl, rfl⟩ (fun _ => failed_success)
    ⟨rfl, by decide, by decide⟩ (by decide) rfl

theorem exS_reach : Reach exP exS := by
  have h1 := Reach.step (op := .push (some 10)) exS0_reach (by show _ < _; decide) rfl
  have h2 := Reach.step (op := .push (some 20)) h1 (by show _ < _; decide) rfl
  have h3 := Reach.step (op := .push (some 30)) h2 (by show _ < _; decide) rfl
  exact h3

/-- A fixed vector on a caller buffer of two slots, holding one element. -/
def exFixedP : Params := ⟨none, 1, 0, 8, true⟩

def exFixed : VS Nat :=
  ⟨{ allocator := none, growth := 1, shrink := 0, size := 1, cap := 2, esz := 8, hasDtor := true,
     data := some ⟨7, [some 10, none]⟩ }, ⟨fun _ => stSuccess, 0, 0, []⟩⟩

def exFixed0 : VS Nat :=
  ⟨{ allocator := none, growth := 1, shrink := 0, size := 0, cap := 2, esz := 8, hasDtor := true,
     data := some ⟨7, [none, none]⟩ }, ⟨fun _ => stSuccess, 0, 0, []⟩⟩

theorem exFixed_reach : Reach exFixedP exFixed := by
  have h0 : Reach exFixedP exFixed0 :=
    Reach.initBuffer (w := exW) (cap := 2) (b := ⟨7, [none, none]⟩) ⟨rfl, rfl⟩ (fun _ => failed_success)
      ⟨rfl, rfl, rfl⟩ (by decide) (by decide) rfl
  exact Reach.step (op := .push (some 10)) h0 (by show _ < _; decide) rfl

/-! ## C01: refinement of lists -/

/-- C01: every history on every reachable vector is defined, returns the statuses of the list
specification, and ends with the elements, size, capacity and destroyed elements of the list. -/
theorem C01_vector_behaves_like_list {P : Params} {s : VS α} (h : Reach P s) (ops : List (VOp α))
    (hd : AllInDomain P (absOf s) ops) :
    ∃ sts s' a', runVec s ops = .ret (sts, s') ∧ Runs P (absOf s) ops sts a' ∧
      contents s' = .ret a'.elems ∧ vecGetSize s' = a'.elems.length ∧
      vecGetCapacity s' = a'.cap ∧ destroyedOf s'.w.trace = a'.dead := by
  obtain ⟨b, slack, R⟩ := h.rep
  obtain ⟨sts, s', a', b', sl', hrun, hruns, R'⟩ := runVec_ok ops R hd
  exact ⟨sts, s', a', hrun, hruns, R'.contents, R'.size, R'.cap, R'.dead⟩

/-- C01 (start of a history): initialisation with a working allocator gives the empty list with the
requested capacity (at least 1). -/
theorem C01_init {P : Params} {w : World α} {cap a : Nat} (hw : Fresh w) (hr : Reliable w)
    (hP : P.allocator = some a ∧ 1 ≤ P.growth ∧ P.growth ≤ 255 ∧ P.thr ≤ 255) (he : 1 ≤ P.esz)
    (hc : max 1 cap * P.esz < 18446744073709551616) :
    ∃ st v w', vecInitEx w P.esz cap P.dtor (some a) P.growth P.thr = (st, some v, w') ∧
      failed st = false ∧ Reach P ⟨v, w'⟩ ∧ absOf ⟨v, w'⟩ = ⟨[], max 1 cap, []⟩ := by
  have hi : ∃ st v w', vecInitEx w P.esz cap P.dtor (some a) P.growth P.thr = (st, some v, w') := by
    unfold vecInitEx
    simp only
    rw [if_neg (by omega)]
    exact ⟨_, _, _, rfl⟩
  obtain ⟨st, v, w', hi⟩ := hi
  obtain ⟨hst, b, sl, R⟩ := init_rep hw hr ⟨hP.1, hP.2.2⟩ hc hi
  exact ⟨st, v, w', hi, hst, Reach.init hw hr ⟨hP.1, hP.2.2⟩ hc hi, R.abs_eq⟩

/-- C01 (start of a history): initialisation on a buffer gives the empty list with the capacity of the
buffer. -/
theorem C01_init_buffer {P : Params} {w : World α} {cap : Nat} {b : Block α} (hw : Fresh w)
    (hr : Reliable w) (hP : P.allocator = none ∧ P.growth = 1 ∧ P.thr = 0) (he : 1 ≤ P.esz)
    (he' : P.esz < 18446744073709551616) (hc : 1 ≤ cap) (hb : cap ≤ b.cells.length) :
    ∃ v, vecInitBuffer P.esz (some b) cap P.dtor = (stSuccess, some v) ∧
      Reach P ⟨v, w⟩ ∧ absOf ⟨v, w⟩ = ⟨[], cap, []⟩ := by
  have hi : ∃ st v, vecInitBuffer P.esz (some b) cap P.dtor = (st, some v) := by
    unfold vecInitBuffer
    simp only
    rw [if_neg (by omega)]
    exact ⟨_, _, rfl⟩
  obtain ⟨st, v, hi⟩ := hi
  obtain ⟨hst, _, R⟩ := initBuffer_rep hw hr hP hb he' hi
  exact ⟨v, hst ▸ hi, Reach.initBuffer hw hr hP hb he' hi, R.abs_eq⟩

/-- The history used as an example: an insertion that reallocates, a deletion, a pop. -/
def exOps : List (VOp Nat) :=
  [.insertRange 1 [some 1, some 2], .deleteRange 0 1, .set 0 (some 5), .pop]

example : AllInDomain exP (absOf exS) exOps := by
  refine .cons (by show _ < _; decide) fun j hj => ?_
  obtain rfl := List.eq_nil_of_length_eq_zero hj
  refine .cons (by show _ < _; decide) fun j hj => ?_
  obtain rfl := List.eq_nil_of_length_eq_zero hj
  refine .cons trivial fun j hj => ?_
  obtain rfl := List.eq_nil_of_length_eq_zero hj
  exact .cons trivial fun j hj => .nil _

example : (runVec exS exOps).bind (fun r => contents r.2) = .ret [some 5, some 2, some 20] := by decide

/-! ## C02: memory safety -/

/-- C02: no operation of any history has undefined behaviour (in the model, every access outside of the
owned block is undefined behaviour), at the end the elements fit into the capacity and the capacity into
the block really owned, and destruction is defined as well. Since every prefix of a history is a history,
this holds at every point. -/
theorem C02_memory_safe {P : Params} {s : VS α} (h : Reach P s) (ops : List (VOp α))
    (hd : AllInDomain P (absOf s) ops) :
    ∃ sts s' b, runVec s ops = .ret (sts, s') ∧ s'.v.data = some b ∧
      s'.v.size ≤ s'.v.cap ∧ s'.v.cap ≤ b.cells.length ∧
      ∃ s'', vecDestroy s' = .ret (stSuccess, s'') := by
  obtain ⟨b, slack, R⟩ := h.rep
  obtain ⟨sts, s', a', b', sl', hrun, hruns, R'⟩ := runVec_ok ops R hd
  obtain ⟨s'', hs'', _⟩ := destroy_rep R'
  refine ⟨sts, s', b', hrun, R'.data, ?_, ?_, s'', hs''⟩
  · rw [R'.size, R'.cap]; exact R'.len
  · rw [R'.cap]; exact R'.room

/-- C02 for the read-only calls: getting an element and searching (with any callback) any range, valid or
not, as long as `index + count` does not wrap, is defined. -/
theorem C02_reads_safe {P : Params} {s : VS α} (h : Reach P s) (eq : Cell α → Bool)
    (cmp : Cell α → Int) (i n : Nat) (hin : i + n < 18446744073709551616) :
    (∃ r, vecFindEx s eq i n = .ret r) ∧ (∃ r, vecBinarySearchEx s cmp i n = .ret r) ∧
      (∀ k, vecGet s i = some k → ∃ x, vecDeref s k = .ret x) := by
  obtain ⟨b, slack, R⟩ := h.rep
  have h64 := R.len63
  have hcl : (absOf s).elems.length ≤ b.cells.length := by rw [R.cells]; simp
  refine ⟨?_, ?_, ?_⟩
  · unfold vecFindEx
    rw [add64_eq hin, R.size]
    split
    · exact ⟨_, rfl⟩
    · split
      · exact ⟨_, rfl⟩
      · rw [R.data]
        simp only [withData, Nat.add_sub_cancel_left]
        rcases findLoop_spec b.cells eq n i (by omega) (by omega) with ⟨k, _, _, h1, _⟩ | ⟨h1, _⟩
        · rw [h1]; exact ⟨_, rfl⟩
        · rw [h1]; exact ⟨_, rfl⟩
  · by_cases hb : i + n ≤ (absOf s).elems.length ∧ n ≠ 0
    · rw [bsearch_eval R cmp hb.1 hb.2]
      obtain ⟨p, ex, _, _, h1, _⟩ := bsearchLoop_spec b.cells cmp (n + 1) i (i + n) stFalse []
        (by omega) (by omega) (by omega) (by omega)
      rw [h1]; exact ⟨_, rfl⟩
    · unfold vecBinarySearchEx
      rw [add64_eq hin, R.size]
      by_cases h0 : n = 0
      · subst h0
        split <;> exact ⟨_, rfl⟩
      · rw [if_pos (by omega)]
        exact ⟨_, rfl⟩
  · intro k hk
    unfold vecGet at hk
    split at hk
    · simp at hk
    · injection hk with hk
      subst hk
      rename_i hlt
      rw [R.size] at hlt
      unfold vecDeref
      rw [R.data]
      simp only [withData]
      rw [List.getElem?_eq_getElem (show i < b.cells.length by omega)]
      exact ⟨_, rfl⟩

/-- A history followed by destruction, and the resulting trace (for examples). -/
def runDestroy (s : VS Nat) (ops : List (VOp Nat)) : Out (Status × List (Event Nat)) :=
  (runVec s ops).bind fun r => (vecDestroy r.2).bind fun q => .ret (q.1, q.2.w.trace)

example : (runDestroy exS exOps).bind (fun r => .ret r.1) = .ret stSuccess := by decide

/-! ## C03: fixed buffers -/

/-- C03: a fixed-buffer vector never calls an allocator and keeps its capacity. -/
theorem C03_fixed_never_allocates {P : Params} {s : VS α} (h : Reach P s) (hf : P.allocator = none)
    (ops : List (VOp α)) (hd : AllInDomain P (absOf s) ops) :
    ∃ sts s', runVec s ops = .ret (sts, s') ∧ s'.w.calls = 0 ∧ onlyDestroys s'.w.trace ∧
      vecGetCapacity s' = vecGetCapacity s := by
  obtain ⟨b, slack, R⟩ := h.rep
  obtain ⟨sts, s', a', b', sl', hrun, hruns, R'⟩ := runVec_ok ops R hd
  have hA := R'.alloc
  simp only [AllocOK, hf] at hA
  refine ⟨sts, s', hrun, hA.1, hA.2, ?_⟩
  simp only [vecGetCapacity, R'.cap, R.cap, runs_fixed_cap hf hruns]

/-- C03: on a fixed buffer, pushing, inserting a range, emplacing, resizing and reserving are answered
with `INSUFFICIENT_BUFFER_SIZE` and leave the whole state unchanged when the capacity would be exceeded. -/
theorem C03_fixed_overflow_refused {P : Params} {s : VS α} (h : Reach P s) (hf : P.allocator = none) :
    (∀ x, s.v.cap < s.v.size + 1 → vecPushBack s (.ext [x]) = .ret (stInsufficient, s)) ∧
    (∀ i xs, xs ≠ [] → i ≤ s.v.size → s.v.size + xs.length < 18446744073709551616 →
      s.v.cap < s.v.size + xs.length →
      vecInsertRange s i (.ext xs) xs.length = .ret (stInsufficient, s)) ∧
    (∀ i c, i ≤ s.v.size → s.v.cap < s.v.size + 1 →
      vecEmplaceEx s i c = .ret (stInsufficient, s)) ∧
    (∀ n x, n < 18446744073709551616 → s.v.cap < n →
      vecResizeEx s n x = .ret (stInsufficient, s)) ∧
    (∀ c, s.v.cap < c → vecReserve s c = .ret (stInsufficient, s)) := by
  obtain ⟨b, slack, R⟩ := h.rep
  have h64 : s.v.size < 9223372036854775808 := R.size ▸ R.len63
  have hcap := R.cap
  refine ⟨?_, ?_, ?_, ?_, ?_⟩
  · intro x hx
    have hg := fixed_grow_refused R hf (need := s.v.size + 1) (by omega) (by omega)
    simp only [vecPushBack, Src.isNull, add64_eq (show s.v.size + 1 < 18446744073709551616 by omega),
      hg]
    simp
  · intro i xs hxs hi hlt hx
    have hl : xs.length ≠ 0 := by simpa using hxs
    have hg := fixed_grow_refused R hf (need := s.v.size + xs.length) (by omega) hlt
    simp only [vecInsertRange, Src.isNull, add64_eq hlt, hg]
    rw [if_neg (by simp [hxs]), if_neg (by omega)]
    simp
  · intro i c hi hx
    have hg := fixed_grow_refused R hf (need := s.v.size + 1) (by omega) (by omega)
    simp only [vecEmplaceEx, add64_eq (show s.v.size + 1 < 18446744073709551616 by omega), hg]
    rw [if_neg (by omega)]
    simp
  · intro n x hn hx
    have hle : s.v.size ≤ s.v.cap := by rw [R.size, R.cap]; exact R.len
    have hg := (R.fixed hf).1
    simp only [vecResizeEx, shouldGrow]
    rw [if_neg (by omega), if_neg (by omega)]
    have hm : mul64 n 1 = n := by rw [mul64_eq (by omega), Nat.mul_one]
    have hr : reallocate s n = .ret (stInsufficient, s) := by
      simp only [reallocate, R.allocator, hf]
      rw [if_pos hx]
    have hif : (decide (n > s.v.cap) || shouldShrink n s.v.cap s.v.shrink) = true := by simp [hx]
    simp only [Out.ret_bind', R.growth, hg, hm, hif, if_true, hr]
    rfl
  · intro c hc
    simp only [vecReserve, reallocate, R.allocator, hf]
    rw [if_pos hc, if_pos hc]
    simp

/-- C03, converse: while the capacity suffices, the insertions succeed. -/
theorem C03_fixed_within_capacity_succeeds {P : Params} {s : VS α} (h : Reach P s) (i : Nat)
    (xs : List (Cell α)) (hx : xs ≠ []) (hi : i ≤ s.v.size)
    (hfit : s.v.size + xs.length ≤ s.v.cap) (hd : InDomain P (absOf s) (.insertRange i xs)) :
    ∃ s', vecInsertRange s i (.ext xs) xs.length = .ret (stSuccess, s') := by
  obtain ⟨b, slack, R⟩ := h.rep
  obtain ⟨junk, st, s', a', b', sl', hj, hstep, hop, R'⟩ := op_ok R (.insertRange i xs) hd
  have h1 : ¬ i > (absOf s).elems.length := by rw [← R.size]; omega
  have h2 : (absOf s).elems.length + xs.length ≤ (absOf s).cap := by rw [← R.size, ← R.cap]; exact hfit
  simp only [step, hx, if_false, h1, Spec.room, h2, if_true, Prod.mk.injEq] at hstep
  rw [← hstep.1] at hop
  exact ⟨s', hop⟩

example : vecInsertRange exFixed 0 (.ext [some 1, some 2]) 2 = .ret (stInsufficient, exFixed) :=
  (C03_fixed_overflow_refused exFixed_reach rfl).2.1 0 [some 1, some 2] (by simp) (by decide)
    (by decide) (by decide)
example : ∃ s', vecInsertRange exFixed 0 (.ext [some 1]) 1 = .ret (stSuccess, s') :=
  C03_fixed_within_capacity_succeeds exFixed_reach 0 [some 1] (by simp) (by decide) (by decide)
    (by show _ < _; decide)

/-! ## C04: refused allocations -/

/-- C04 is false for the code: `ZyanVectorReallocate` stores the new capacity before it asks the
allocator. Witness: a full vector of one element whose growth is refused. Afterwards the capacity is
wrong, and the next push writes outside of the block. -/
theorem C04_negation : ∃ (P : Params) (s : VS Nat) (st : Status) (s' : VS Nat), Reach P s ∧
    failed st = true ∧ vecPushBack (refuseNext s st) (.ext [some 4]) = .ret (st, s') ∧
    vecGetCapacity s' ≠ vecGetCapacity s ∧ vecPushBack s' (.ext [some 5]) = .ub .oob := by
  have h1 := Reach.step (op := .push (some 10)) exS0_reach (by show _ < _; decide) rfl
  exact ⟨exP, _, stNoMemory, _, h1, rfl, rfl, by decide, rfl⟩

/-- C04, the part that holds: when the growth needed by a push, a range insertion or an emplace is
refused, the call returns the allocator's status, the size, the elements, the live block and the destroyed
elements are those of before, and calling `ShrinkToFit` (if that succeeds) gives a vector for which
everything proved for reachable vectors holds again. Missing compared with C04: the capacity is changed,
and using the vector without `ShrinkToFit` is not safe (`C04_negation`). -/
theorem C04_refused_growth_partial {P : Params} {s : VS α} (h : Reach P s) {al : Nat}
    (hal : P.allocator = some al) {st : Status} (hst : failed st = true) (op : VOp α)
    (hop : (∃ x, op = .push x ∧ s.v.cap < s.v.size + 1) ∨
      (∃ i xs, op = .insertRange i xs ∧ xs ≠ [] ∧ i ≤ s.v.size ∧ s.v.cap < s.v.size + xs.length) ∨
      (∃ i c, op = .emplace i c ∧ i ≤ s.v.size ∧ s.v.cap < s.v.size + 1))
    (hd : InDomain P (absOf s) op) :
    ∃ s', vecOp (refuseNext s st) op = .ret (st, s') ∧ vecGetSize s' = vecGetSize s ∧
      contents s' = contents s ∧ destroyedOf s'.w.trace = destroyedOf s.w.trace ∧
      replay s'.w.trace = replay s.w.trace ∧
      ∃ s'', vecShrinkToFit s' = .ret (stSuccess, s'') ∧ contents s'' = contents s ∧
        ∀ ops, AllInDomain P (absOf s'') ops → ∃ sts t a', runVec s'' ops = .ret (sts, t) ∧
          Runs P (absOf s'') ops sts a' ∧ contents t = .ret a'.elems := by
  obtain ⟨b, slack, R⟩ := h.rep
  have hA := R.alloc
  simp only [AllocOK, hal] at hA
  have key : ∃ c, 1 < c ∧ vecOp (refuseNext s st) op = .ret (st, afterRefusal s st al c) := by
    have hgr : ∀ need, s.v.cap < need → Fits P need → growFor (refuseNext s st) need =
        .ret (st, afterRefusal s st al (need * P.growth)) := by
      intro need hn hf
      have := refused_growFor R hst (by simp [hal]) (need := need) (by rw [← R.cap]; exact hn) hf
      rw [hal] at this
      exact this
    have hc1 : 1 ≤ s.v.cap := by rw [R.cap]; exact R.cap1
    have h63 : s.v.size < 9223372036854775808 := R.size ▸ R.len63
    have hsz : (refuseNext s st).v.size = s.v.size := rfl
    have hg1 := R.growth1
    rcases hop with ⟨x, rfl, hc⟩ | ⟨i, xs, rfl, hxs, hi, hc⟩ | ⟨i, c, rfl, hi, hc⟩
    · have hf : Fits P (s.v.size + 1) := by rw [R.size]; exact hd
      have hge := Nat.le_mul_of_pos_right (s.v.size + 1) hg1
      refine ⟨(s.v.size + 1) * P.growth, by omega, ?_⟩
      simp only [vecOp, vecPushBack, Src.isNull, hsz,
        add64_eq (show s.v.size + 1 < 18446744073709551616 by omega), hgr _ hc hf]
      simp [hst]
    · have hf : Fits P (s.v.size + xs.length) := by rw [R.size]; exact hd
      have hge := Nat.le_mul_of_pos_right (s.v.size + xs.length) hg1
      have hlt := (hf.mul_growth R.growth255 R.esz1).2.2
      refine ⟨(s.v.size + xs.length) * P.growth, by omega, ?_⟩
      simp only [vecOp, vecInsertRange, Src.isNull, hsz, add64_eq hlt, hgr _ hc hf]
      rw [if_neg (by simp [hxs]), if_neg (by omega)]
      simp [hst]
    · have hf : Fits P (s.v.size + 1) := by rw [R.size]; exact hd.1
      have hge := Nat.le_mul_of_pos_right (s.v.size + 1) hg1
      refine ⟨(s.v.size + 1) * P.growth, by omega, ?_⟩
      simp only [vecOp, vecEmplaceEx, hsz,
        add64_eq (show s.v.size + 1 < 18446744073709551616 by omega), hgr _ hc hf]
      rw [if_neg (by omega)]
      simp [hst]
  obtain ⟨c, hc, e⟩ := key
  obtain ⟨s'', b'', sl'', e2, R2⟩ := refused_repair R (st := st) hal hc
  refine ⟨afterRefusal s st al c, e, rfl, rfl, by simp [afterRefusal], ?_, s'', e2, ?_, ?_⟩
  · simp only [afterRefusal, replay_append_one, hA.1]; rfl
  · rw [R2.contents, R.contents]
  · intro ops hops
    rw [R2.abs_eq] at hops ⊢
    obtain ⟨sts, t, a', b', sl', hrun, hruns, R'⟩ := runVec_ok ops R2 hops
    exact ⟨sts, t, a', hrun, hruns, R'.contents⟩

example : ∃ s', vecOp (refuseNext exS0 stNoMemory) (.insertRange 0 [some 1, some 2]) =
    .ret (stNoMemory, s') ∧ contents s' = contents exS0 := by
  obtain ⟨s', h1, _, h2, _⟩ := C04_refused_growth_partial exS0_reach (al := 0) rfl
    (st := stNoMemory) rfl (.insertRange 0 [some 1, some 2])
    (Or.inr (Or.inl ⟨0, _, rfl, by simp, by decide, by decide⟩)) (by show _ < _; decide)
  exact ⟨s', h1, h2⟩

/-! ## C05: destructors -/

/-- C05: over any history on a vector with a destructor, followed by destruction, the destructor receives
exactly (as a multiset) what had been destroyed before, what the vector contained, and what the calls of
the history stored. -/
theorem C05_destroyed_exactly_once {P : Params} {s : VS α} (h : Reach P s) (hdt : P.dtor = true)
    (ops : List (VOp α)) (hd : AllInDomain P (absOf s) ops) :
    ∃ sts s' s'', runVec s ops = .ret (sts, s') ∧ vecDestroy s' = .ret (stSuccess, s'') ∧
      (destroyedOf s''.w.trace).Perm
        (destroyedOf s.w.trace ++ (absOf s).elems ++ storedRun s ops) := by
  obtain ⟨b, slack, R⟩ := h.rep
  obtain ⟨sts, s', a', b', sl', hrun, R', hp⟩ := run_conserves hdt ops R hd
  obtain ⟨s'', hs'', _, hdead, _⟩ := destroy_rep R'
  refine ⟨sts, s', s'', hrun, hs'', ?_⟩
  rw [hdead, killed_true hdt]
  exact hp

/-- C05 from initialisation on: the destructor receives exactly what the calls stored. -/
theorem C05_from_init {P : Params} {w : World α} {cap a : Nat} {st : Status} {v : Vec α}
    {w' : World α} (hw : Fresh w) (hr : Reliable w)
    (hP : P.allocator = some a ∧ P.growth ≤ 255 ∧ P.thr ≤ 255)
    (hc : max 1 cap * P.esz < 18446744073709551616)
    (h : vecInitEx w P.esz cap P.dtor (some a) P.growth P.thr = (st, some v, w'))
    (hdt : P.dtor = true) (ops : List (VOp α)) (hd : AllInDomain P (absOf ⟨v, w'⟩) ops) :
    ∃ sts s' s'', runVec ⟨v, w'⟩ ops = .ret (sts, s') ∧ vecDestroy s' = .ret (stSuccess, s'') ∧
      (destroyedOf s''.w.trace).Perm (storedRun ⟨v, w'⟩ ops) := by
  obtain ⟨sts, s', s'', h1, h2, h3⟩ :=
    C05_destroyed_exactly_once (Reach.init hw hr hP hc h) hdt ops hd
  obtain ⟨_, b, sl, R⟩ := init_rep hw hr hP hc h
  refine ⟨sts, s', s'', h1, h2, ?_⟩
  rw [R.abs_eq, R.dead] at h3
  simpa using h3

/-- C05, no destructor: nothing is destroyed. -/
theorem C05_no_destructor {P : Params} {s : VS α} (h : Reach P s) (hdt : P.dtor = false)
    (hs : destroyedOf s.w.trace = []) (ops : List (VOp α)) (hd : AllInDomain P (absOf s) ops) :
    ∃ sts s' s'', runVec s ops = .ret (sts, s') ∧ vecDestroy s' = .ret (stSuccess, s'') ∧
      destroyedOf s''.w.trace = [] := by
  obtain ⟨b, slack, R⟩ := h.rep
  obtain ⟨sts, s', a', b', sl', hrun, hruns, R'⟩ := runVec_ok ops R hd
  obtain ⟨s'', hs'', _, hdead, _⟩ := destroy_rep R'
  refine ⟨sts, s', s'', hrun, hs'', ?_⟩
  have hk : ∀ xs : List (Cell α), killed P xs = [] := by intro xs; simp [killed, hdt]
  have hstep : ∀ (junk : List (Cell α)) (a : LState α) (op : VOp α),
      (step P junk a op).2.dead = a.dead := by
    intro junk a op
    cases op <;> simp only [step, hk] <;> (repeat' split) <;> simp
  have hr : ∀ {a a' : LState α} {ops : List (VOp α)} {sts : List Status},
      Runs P a ops sts a' → a'.dead = a.dead := by
    intro a a' ops sts hr
    induction hr with
    | nil => rfl
    | cons junk hj h t ih =>
      have := congrArg (fun r => r.2.dead) h
      rw [hstep] at this
      exact ih.trans this.symm
  rw [hdead, hk, hr hruns, ← R.dead, hs]; rfl

example : (runDestroy exS exOps).bind (fun r => .ret (destroyedOf r.2)) =
    .ret [some 10, some 1, some 30, some 5, some 2, some 20] := by decide
example : storedRun exS exOps = [some 1, some 2, some 5] := by decide

/-! ## C06: storage -/

/-- C06: at the end of every history (hence at every point) the allocator trace is a legal sequence of
allocations and reallocations with exactly one live block, which is the vector's block, with the count of
the vector's capacity; destruction returns exactly this block with this count, and leaves none. -/
theorem C06_storage_accounting {P : Params} {s : VS α} (h : Reach P s) {al : Nat}
    (hal : P.allocator = some al) (ops : List (VOp α)) (hd : AllInDomain P (absOf s) ops) :
    ∃ sts s' b s'', runVec s ops = .ret (sts, s') ∧ s'.v.data = some b ∧
      replay s'.w.trace = some (some ⟨al, b.id, P.esz, vecGetCapacity s'⟩) ∧
      vecDestroy s' = .ret (stSuccess, s'') ∧ replay s''.w.trace = some none := by
  obtain ⟨b, slack, R⟩ := h.rep
  obtain ⟨sts, s', a', b', sl', hrun, hruns, R'⟩ := runVec_ok ops R hd
  obtain ⟨s'', hs'', _, _, hrep, _⟩ := destroy_rep R'
  have hA := R'.alloc
  simp only [AllocOK, hal] at hA
  refine ⟨sts, s', b', s'', hrun, R'.data, ?_, hs'', hrep (by simp [hal])⟩
  rw [hA.1, vecGetCapacity, R'.cap]

example : (runDestroy exS exOps).bind (fun r => .ret r.2) =
    .ret [.alloc 0 0 8 1, .realloc 0 0 1 8 4, .realloc 0 1 2 8 10, .destroy (some 10),
      .destroy (some 1), .destroy (some 30), .destroy (some 5), .destroy (some 2),
      .destroy (some 20), .dealloc 0 2 8 10] := by decide

/-! ## C07: index checks -/

/-- C07 for reading: inside of the vector, `Get` and `GetPointer` give access to exactly the element with
this index; outside they give null and `OUT_OF_RANGE`. -/
theorem C07_get {P : Params} {s : VS α} (h : Reach P s) {es : List (Cell α)}
    (he : contents s = .ret es) (i : Nat) :
    (∀ x, es[i]? = some x → vecGet s i = some i ∧ vecGetPointer s i = (stSuccess, some i) ∧
      vecDeref s i = .ret x) ∧
    (es[i]? = none → vecGet s i = none ∧ vecGetPointer s i = (stOutOfRange, none)) := by
  obtain ⟨b, slack, R⟩ := h.rep
  rw [R.contents] at he
  injection he with he
  subst he
  refine ⟨?_, ?_⟩
  · intro x hx
    obtain ⟨hi, rfl⟩ := List.getElem?_eq_some_iff.1 hx
    have hn : ¬ i ≥ s.v.size := by rw [R.size]; omega
    refine ⟨by simp [vecGet, hn], by simp [vecGetPointer, hn], ?_⟩
    unfold vecDeref
    rw [R.data]
    simp only [withData, R.cells]
    rw [List.getElem?_append_left hi, hx]
  · intro hx
    have hi := List.getElem?_eq_none_iff.1 hx
    have hn : i ≥ s.v.size := by rw [R.size]; omega
    exact ⟨by simp [vecGet, hn], by simp [vecGetPointer, hn]⟩

/-- C07 for writing, swapping and inserting, with all machine words as indices: out of range requests are
answered with `OUT_OF_RANGE` and change nothing at all. -/
theorem C07_out_of_range_rejected {P : Params} {s : VS α} (_h : Reach P s) (i j : Nat) (x : Cell α)
    (xs : List (Cell α)) (c : Ctor α) :
    (s.v.size ≤ i → vecSet s i (.ext [x]) = .ret (stOutOfRange, s)) ∧
    (s.v.size ≤ i ∨ s.v.size ≤ j → vecSwap s i j = .ret (stOutOfRange, s)) ∧
    (s.v.size < i → xs ≠ [] → vecInsertRange s i (.ext xs) xs.length = .ret (stOutOfRange, s)) ∧
    (s.v.size < i → vecEmplaceEx s i c = .ret (stOutOfRange, s)) ∧
    (s.v.size = 0 → vecPopBack s = .ret (stOutOfRange, s)) := by
  refine ⟨?_, ?_, ?_, ?_, ?_⟩
  · intro hi; simp [vecSet, Src.isNull, hi]
  · intro hi; simp [vecSwap, hi]
  · intro hi hx; simp [vecInsertRange, Src.isNull, hx, hi]
  · intro hi; simp [vecEmplaceEx, hi]
  · intro hi; simp [vecPopBack, hi]

/-- C07 for in-range writing: it succeeds, replaces exactly this element and destroys the old one. -/
theorem C07_set_in_range {P : Params} {s : VS α} (h : Reach P s) {es : List (Cell α)}
    (he : contents s = .ret es) (i : Nat) (x : Cell α) (hi : i < es.length) :
    ∃ s', vecSet s i (.ext [x]) = .ret (stSuccess, s') ∧ contents s' = .ret (es.set i x) ∧
      destroyedOf s'.w.trace = destroyedOf s.w.trace ++ killed P [es[i]] := by
  obtain ⟨b, slack, R⟩ := h.rep
  rw [R.contents] at he
  injection he with he
  subst he
  obtain ⟨junk, st, s', a', b', sl', hj, hstep, hop, R'⟩ := op_ok R (.set i x) trivial
  simp only [step, List.getElem?_eq_getElem hi, Prod.mk.injEq] at hstep
  obtain ⟨rfl, rfl⟩ := hstep
  exact ⟨s', hop, R'.contents, by rw [R'.dead, R.dead]⟩

/-- C07 for deletion, as far as it holds: as long as `index + count` does not wrap, a non-empty range is
deleted if it lies inside of the vector, and otherwise the request is answered with `OUT_OF_RANGE` and
changes nothing. Missing compared with C07: ranges with `index + count ≥ 2^64` (`C07_negation`). -/
theorem C07_delete_partial {P : Params} {s : VS α} (h : Reach P s) {es : List (Cell α)}
    (he : contents s = .ret es) (i n : Nat) (hn : n ≠ 0) (hlt : i + n < 18446744073709551616) :
    (i + n ≤ es.length → ∃ s', vecDeleteRange s i n = .ret (stSuccess, s') ∧
      contents s' = .ret (es.take i ++ es.drop (i + n))) ∧
    (es.length < i + n → vecDeleteRange s i n = .ret (stOutOfRange, s)) := by
  obtain ⟨b, slack, R⟩ := h.rep
  rw [R.contents] at he
  injection he with he
  subst he
  refine ⟨?_, ?_⟩
  · intro hle
    obtain ⟨junk, st, s', a', b', sl', hj, hstep, hop, R'⟩ := op_ok R (.deleteRange i n) hlt
    have hng : ¬ i + n > (absOf s).elems.length := by omega
    simp only [step, hn, if_false, hng, Prod.mk.injEq] at hstep
    obtain ⟨rfl, rfl⟩ := hstep
    exact ⟨s', hop, R'.contents⟩
  · intro hgt
    simp only [vecDeleteRange, hn, if_false, add64_eq hlt, R.size]
    rw [if_pos hgt]

/-- C07 is false for the code: deleting at index `2^64 - 1` passes the range check, because
`index + count` wraps to 0, and then moves memory from outside of the block. -/
theorem C07_negation : ∃ (P : Params) (s : VS Nat), Reach P s ∧ s.v.size = 3 ∧
    vecDelete s 18446744073709551615 = .ub .oob :=
  ⟨exP, exS, exS_reach, rfl, rfl⟩

example : ∃ s', vecDeleteRange exS 1 2 = .ret (stSuccess, s') ∧ contents s' = .ret [some 10] :=
  (C07_delete_partial exS_reach (es := [some 10, some 20, some 30]) rfl 1 2 (by decide)
    (by decide)).1 (by decide)
example : vecDeleteRange exS 2 2 = .ret (stOutOfRange, exS) :=
  (C07_delete_partial exS_reach (es := [some 10, some 20, some 30]) rfl 2 2 (by decide)
    (by decide)).2 (by decide)

/-! ## C08: linear search -/

/-- C08: searching a range of the vector either reports success with the smallest index of the range whose
element satisfies the callback, or reports not-found with index -1 and no element of the range satisfies
it. (The result type shows that the vector is not modified.) -/
theorem C08_find_first {P : Params} {s : VS α} (h : Reach P s) {es : List (Cell α)}
    (he : contents s = .ret es) (eq : Cell α → Bool) (i n : Nat) (hi : i < es.length)
    (hn : i + n ≤ es.length) :
    (∃ k, ∃ hk : k < es.length, i ≤ k ∧ k < i + n ∧
      vecFindEx s eq i n = .ret (stTrue, some (k : Int)) ∧ eq es[k] = true ∧
      ∀ j (hj : j < es.length), i ≤ j → j < k → eq es[j] = false) ∨
    (vecFindEx s eq i n = .ret (stFalse, some (-1)) ∧
      ∀ j (hj : j < es.length), i ≤ j → j < i + n → eq es[j] = false) := by
  obtain ⟨b, slack, R⟩ := h.rep
  rw [R.contents] at he
  injection he with he
  subst he
  generalize hes : (absOf s).elems = es at *
  have hcells : b.cells = es ++ slack := by rw [R.cells, hes]
  have h63 : es.length < 9223372036854775808 := hes ▸ R.len63
  have hsz : s.v.size = es.length := hes ▸ R.size
  have hadd : add64 i n = i + n := add64_eq (by omega)
  have hcell : ∀ k (hk : k < es.length) (hk' : k < b.cells.length), b.cells[k] = es[k] := by
    intro k hk hk'
    simp only [hcells]
    exact List.getElem_append_left hk
  have hle : i + n ≤ b.cells.length := by rw [hcells]; simp; omega
  unfold vecFindEx
  rw [hadd, hsz, if_neg (by omega)]
  by_cases h0 : n = 0
  · right
    rw [if_pos h0]
    exact ⟨rfl, by intro j hj h1 h2; omega⟩
  · rw [if_neg h0, R.data, withData_some, Nat.add_sub_cancel_left]
    rcases findLoop_spec b.cells eq n i hle (by omega) with ⟨k, hk, hb, h1, h2, h3⟩ | ⟨h1, h2⟩
    · left
      refine ⟨i + k, by omega, by omega, by omega, ?_, ?_, ?_⟩
      · rw [h1]; rfl
      · rw [← hcell (i + k) (by omega) hb]; exact h2
      · intro j hj hj1 hj2
        have := h3 (j - i) (by omega)
        have hji : i + (j - i) = j := by omega
        simp only [hji] at this
        rw [← hcell j hj (by omega)]; exact this
    · right
      refine ⟨by rw [h1]; rfl, ?_⟩
      intro j hj hj1 hj2
      have := h2 (j - i) (by omega) (by omega)
      have hji : i + (j - i) = j := by omega
      simp only [hji] at this
      rw [← hcell j hj (by omega)]; exact this

/-- C08, boundary: a range that ends outside of the vector, or starts at its end (even if it is empty, so
also every search in an empty vector), is answered with `OUT_OF_RANGE`, and no index is reported. -/
theorem C08_find_out_of_range {s : VS α} (eq : Cell α → Bool) (i n : Nat)
    (hlt : i + n < 18446744073709551616) (h : s.v.size < i + n ∨ i = s.v.size) :
    vecFindEx s eq i n = .ret (stOutOfRange, none) := by
  unfold vecFindEx
  rw [add64_eq hlt, if_pos (by omega)]

/-- C08 for the search in the whole vector: the answer is the first element that satisfies the callback, or
not-found if no element of the vector satisfies it; the empty vector is refused with `OUT_OF_RANGE`. -/
theorem C08_find_whole {P : Params} {s : VS α} (h : Reach P s) {es : List (Cell α)}
    (he : contents s = .ret es) (eq : Cell α → Bool) :
    (es = [] ∧ vecFind s eq = .ret (stOutOfRange, none)) ∨
    (∃ k, ∃ hk : k < es.length, vecFind s eq = .ret (stTrue, some (k : Int)) ∧ eq es[k] = true ∧
      ∀ j (hj : j < k), eq (es[j]'(by omega)) = false) ∨
    (es ≠ [] ∧ vecFind s eq = .ret (stFalse, some (-1)) ∧ ∀ x ∈ es, eq x = false) := by
  have hsz : s.v.size = es.length := by
    obtain ⟨b, slack, R⟩ := h.rep
    have he' := he
    rw [R.contents] at he'
    injection he' with he'
    rw [← he']; exact R.size
  have h63 : es.length < 9223372036854775808 := by
    obtain ⟨b, slack, R⟩ := h.rep
    have he' := he
    rw [R.contents] at he'
    injection he' with he'
    rw [← he']; exact R.len63
  unfold vecFind
  rcases Nat.eq_zero_or_pos es.length with h0 | h0
  · left
    exact ⟨List.eq_nil_of_length_eq_zero h0,
      C08_find_out_of_range eq 0 s.v.size (by omega) (Or.inr (by omega))⟩
  · right
    rw [hsz]
    rcases C08_find_first h he eq 0 es.length h0 (by omega) with ⟨k, hk, _, _, h1, h2, h3⟩ | ⟨h1, h2⟩
    · exact Or.inl ⟨k, hk, h1, h2, fun j hj => h3 j (by omega) (by omega) hj⟩
    · refine Or.inr ⟨fun e => by rw [e] at h0; simp at h0, h1, fun x hx => ?_⟩
      obtain ⟨j, hj, rfl⟩ := List.getElem_of_mem hx
      exact h2 j hj (by omega) (by omega)

example : vecFind exS (· == some 10) = .ret (stTrue, some 0) := by decide
example : vecFind exS (· == some 30) = .ret (stTrue, some 2) := by decide
example : vecFind exS (· == some 31) = .ret (stFalse, some (-1)) := by decide
example : vecFindEx exS (· == some 30) 1 2 = .ret (stTrue, some 2) := by decide
example : vecFind exS0 (· == some 30) = .ret (stOutOfRange, none) := by decide
example : contents exS = .ret [some 10, some 20, some 30] := rfl

/-! ## C09, C10: binary search -/

/-- A three-way comparison that is consistent with a total preorder. -/
structure Consistent (cmp : Cell α → Cell α → Int) : Prop where
  le_trans : ∀ x y z, cmp x y ≤ 0 → cmp y z ≤ 0 → cmp x z ≤ 0
  le_lt_trans : ∀ x y z, cmp x y ≤ 0 → cmp y z < 0 → cmp x z < 0
  refl : ∀ x, cmp x x = 0

/-- The range `[i, i+n)` of the list is sorted with respect to the comparison. -/
def SortedRange (cmp : Cell α → Cell α → Int) (es : List (Cell α)) (i n : Nat) : Prop :=
  ∀ p q (hq : q < es.length) (hpq : p ≤ q), i ≤ p → q < i + n → cmp (es[p]'(by omega)) es[q] ≤ 0

/-- C09: on a sorted range, binary search returns the first position of the range whose element is not
smaller than the key (the end of the range if there is none), and reports success exactly if the range
contains an element equal to the key. The empty range is included. -/
theorem C09_binary_search_lower_bound {P : Params} {s : VS α} (h : Reach P s) {es : List (Cell α)}
    (he : contents s = .ret es) (cmp : Cell α → Cell α → Int) (hcmp : Consistent cmp)
    (key : Cell α) (i n : Nat) (hn : i + n ≤ es.length) (hs : SortedRange cmp es i n) :
    ∃ st p log, vecBinarySearchEx s (fun x => cmp x key) i n = .ret (st, some p, log) ∧
      i ≤ p ∧ p ≤ i + n ∧
      (∀ j (hj : j < es.length), i ≤ j → j < p → cmp es[j] key < 0) ∧
      (∀ j (hj : j < es.length), p ≤ j → j < i + n → 0 ≤ cmp es[j] key) ∧
      (st = stTrue ↔ ∃ j, ∃ hj : j < es.length, i ≤ j ∧ j < i + n ∧ cmp es[j] key = 0) ∧
      (st = stTrue ∨ st = stFalse) := by
  obtain ⟨b, slack, R⟩ := h.rep
  rw [R.contents] at he
  injection he with he
  have hcells : b.cells = es ++ slack := by rw [R.cells, he]
  have h63 : es.length < 9223372036854775808 := he ▸ R.len63
  have hsz : s.v.size = es.length := he ▸ R.size
  have hTF : stTrue ≠ stFalse := by decide
  have hcell : ∀ k (hk : k < es.length) (hk' : k < b.cells.length), b.cells[k] = es[k] := by
    intro k hk hk'
    simp only [hcells]
    exact List.getElem_append_left hk
  have hle : es.length ≤ b.cells.length := by rw [hcells]; simp
  by_cases h0 : n = 0
  · subst h0
    refine ⟨stFalse, i, [], ?_, by omega, by omega, ?_, ?_, ?_, Or.inr rfl⟩
    · unfold vecBinarySearchEx
      rw [add64_eq (by omega), hsz, if_neg (by omega), if_pos rfl]
    · intro j hj h1 h2; omega
    · intro j hj h1 h2; omega
    · constructor
      · intro hh; exact absurd hh.symm hTF
      · rintro ⟨j, hj, h1, h2, _⟩; omega
  · rw [bsearch_eval R _ (by rw [he]; exact hn) h0]
    obtain ⟨p, ex, hp1, hp2, h1, hin, _, hpe, hpart⟩ :=
      bsearchLoop_spec b.cells (fun x => cmp x key) (n + 1) i (i + n) stFalse []
        (by omega) (by omega) (by omega) (by omega)
    obtain ⟨hlow, hhigh⟩ := hpart (by
      intro a c hc hac ha hc2 hlt
      rw [hcell c (by omega) hc] at hlt
      rw [hcell a (by omega) (by omega)]
      exact hcmp.le_lt_trans _ _ _ (hs a c (by omega) hac ha hc2) hlt)
    have hlow' : ∀ j (hj : j < es.length), i ≤ j → j < p → cmp es[j] key < 0 := by
      intro j hj h1 h2
      have := hlow j (by omega) h1 h2
      simp only [hcell j hj (by omega)] at this
      exact this
    have hhigh' : ∀ j (hj : j < es.length), p ≤ j → j < i + n → 0 ≤ cmp es[j] key := by
      intro j hj h1 h2
      have := hhigh j (by omega) h1 h2
      simp only [hcell j hj (by omega)] at this
      exact this
    have hp64 : toU64 (p : Int) = p := toU64_nat (by omega)
    refine ⟨if (ex.any fun m => (b.cells[m]?.map fun x => cmp x key) == some 0) then stTrue
      else stFalse, p, [] ++ ex, ?_, hp1, hp2, hlow', hhigh', ?_, ?_⟩
    · rw [h1, Out.ret_bind', hp64]
    · constructor
      · intro hst
        split at hst
        · rename_i hany
          rw [List.any_eq_true] at hany
          obtain ⟨m, hm, hz⟩ := hany
          have hr := hin m hm
          rw [List.getElem?_eq_getElem (show m < b.cells.length by omega),
            hcell m (by omega) (by omega)] at hz
          refine ⟨m, by omega, hr.1, hr.2, ?_⟩
          simpa using hz
        · exact absurd hst.symm hTF
      · rintro ⟨j, hj, hj1, hj2, hz⟩
        have hpj : p ≤ j := by
          rcases Nat.lt_or_ge j p with hlt | hge
          · have := hlow' j hj hj1 hlt; omega
          · exact hge
        have hpl : p < es.length := by omega
        have hle0 : cmp es[p] key ≤ 0 :=
          hcmp.le_trans _ _ _ (hs p j hj hpj hp1 hj2) (by omega)
        have hge0 := hhigh' p hpl (Nat.le_refl _) (by omega)
        have hmem : p ∈ ex := by
          rcases hpe with hh | hh
          · omega
          · exact hh
        rw [if_pos]
        rw [List.any_eq_true]
        refine ⟨p, hmem, ?_⟩
        rw [List.getElem?_eq_getElem (show p < b.cells.length by omega),
            hcell p (by omega) (by omega)]
        simp; omega
    · split
      · exact Or.inl rfl
      · exact Or.inr rfl

/-- C09 for the search in the whole vector (the empty vector included): the position splits the vector into
the elements smaller than the key and those that are not, and success is reported exactly if the key
occurs. -/
theorem C09_binary_search_whole {P : Params} {s : VS α} (h : Reach P s) {es : List (Cell α)}
    (he : contents s = .ret es) (cmp : Cell α → Cell α → Int) (hcmp : Consistent cmp)
    (key : Cell α) (hs : es.Pairwise fun x y => cmp x y ≤ 0) :
    ∃ st p log, vecBinarySearch s (fun x => cmp x key) = .ret (st, some p, log) ∧ p ≤ es.length ∧
      (∀ x ∈ es.take p, cmp x key < 0) ∧ (∀ x ∈ es.drop p, 0 ≤ cmp x key) ∧
      (st = stTrue ↔ ∃ x ∈ es, cmp x key = 0) ∧ (st = stTrue ∨ st = stFalse) := by
  have hsz : s.v.size = es.length := by
    obtain ⟨b, slack, R⟩ := h.rep
    have he' := he
    rw [R.contents] at he'
    injection he' with he'
    rw [← he']; exact R.size
  have hs' : SortedRange cmp es 0 es.length := by
    intro p q hq hpq _ _
    rcases Nat.lt_or_ge p q with hlt | hge
    · exact List.pairwise_iff_getElem.1 hs p q (by omega) hq hlt
    · have : p = q := by omega
      subst this
      rw [hcmp.refl]
      exact Int.le_refl 0
  obtain ⟨st, p, log, h1, _, h3, h4, h5, h6, h7⟩ :=
    C09_binary_search_lower_bound h he cmp hcmp key 0 es.length (by omega) hs'
  unfold vecBinarySearch
  rw [hsz]
  refine ⟨st, p, log, h1, by omega, ?_, ?_, ?_, h7⟩
  · intro x hx
    obtain ⟨j, hj, rfl⟩ := List.getElem_of_mem hx
    rw [List.getElem_take]
    rw [List.length_take] at hj
    exact h4 j (by omega) (by omega) (by omega)
  · intro x hx
    obtain ⟨j, hj, rfl⟩ := List.getElem_of_mem hx
    rw [List.getElem_drop]
    rw [List.length_drop] at hj
    exact h5 (p + j) (by omega) (by omega) (by omega)
  · rw [h6]
    constructor
    · rintro ⟨j, hj, _, _, hz⟩
      exact ⟨_, List.getElem_mem hj, hz⟩
    · rintro ⟨x, hx, hz⟩
      obtain ⟨j, hj, rfl⟩ := List.getElem_of_mem hx
      exact ⟨j, hj, by omega, by omega, hz⟩

/-- Comparison of `Nat` elements (for the example). -/
def exCmp (x y : Cell Nat) : Int := (x.getD 0 : Int) - (y.getD 0 : Int)

theorem exCmp_consistent : Consistent exCmp where
  le_trans := by intro x y z; unfold exCmp; omega
  le_lt_trans := by intro x y z; unfold exCmp; omega
  refl := by intro x; unfold exCmp; omega

example : SortedRange exCmp [some 10, some 20, some 30] 0 3 := by
  intro p q hq hpq _ _
  simp only [List.length_cons, List.length_nil] at hq
  have : q = 0 ∨ q = 1 ∨ q = 2 := by omega
  have : p = 0 ∨ p = 1 ∨ p = 2 := by omega
  rcases this with rfl | rfl | rfl <;> rcases ‹q = 0 ∨ q = 1 ∨ q = 2› with rfl | rfl | rfl <;>
    first | omega | simp [exCmp]
example : vecBinarySearch exS (fun x => exCmp x (some 20)) = .ret (stTrue, some 1, [1, 0]) := by
  decide +kernel
example : vecBinarySearch exS (fun x => exCmp x (some 31)) = .ret (stFalse, some 3, [1, 2]) := by
  decide +kernel

/-- C10: whatever the callback answers, binary search over `n ≥ 1` elements is defined, compares at most
`⌊log2 n⌋ + 1` times, and only elements of the range. -/
theorem C10_binary_search_logarithmic {P : Params} {s : VS α} (h : Reach P s) (cmp : Cell α → Int)
    (i n : Nat) (h0 : n ≠ 0) (hn : i + n ≤ s.v.size) :
    ∃ st p log, vecBinarySearchEx s cmp i n = .ret (st, some p, log) ∧
      log.length ≤ Nat.log2 n + 1 ∧ ∀ m ∈ log, i ≤ m ∧ m < i + n := by
  obtain ⟨b, slack, R⟩ := h.rep
  have h63 := R.len63
  have hsz := R.size
  have hle : (absOf s).elems.length ≤ b.cells.length := by rw [R.cells]; simp
  rw [bsearch_eval R _ (by omega) h0]
  obtain ⟨p, ex, hp1, hp2, h1, hin, hlog, hpe, hpart⟩ :=
    bsearchLoop_spec b.cells cmp (n + 1) i (i + n) stFalse []
      (by omega) (by omega) (by omega) (by omega)
  have hp64 : toU64 (p : Int) = p := toU64_nat (by omega)
  refine ⟨if (ex.any fun m => (b.cells[m]?.map cmp) == some 0) then stTrue else stFalse, p,
    [] ++ ex, by rw [h1, Out.ret_bind', hp64], ?_, ?_⟩
  · rcases hlog with hh | hh
    · subst hh; simp
    · have : ex.length - 1 ≤ Nat.log2 n := (Nat.le_log2 h0).2 (by omega)
      simp; omega
  · intro m hm
    exact hin m (by simpa using hm)

example : ∃ st p log, vecBinarySearchEx exS (fun _ => 1) 0 3 = .ret (st, some p, log) ∧
    log.length ≤ 2 := by
  obtain ⟨st, p, log, h1, h2, _⟩ := C10_binary_search_logarithmic exS_reach (fun _ => 1) 0 3
    (by decide) (by decide)
  exact ⟨st, p, log, h1, h2⟩

/-! ## C11: insert / delete round trip -/

/-- C11: inserting a non-empty range at a valid index and deleting as many elements there restores the
elements; in between the vector holds the list with the range inserted, and exactly the inserted elements
are destroyed. (For a fixed buffer the range has to fit.) -/
theorem C11_insert_delete_roundtrip {P : Params} {s : VS α} (h : Reach P s) {es : List (Cell α)}
    (he : contents s = .ret es) (i : Nat) (xs : List (Cell α)) (hx : xs ≠ []) (hi : i ≤ es.length)
    (hroom : P.allocator.isSome ∨ es.length + xs.length ≤ s.v.cap)
    (hfit : Fits P (es.length + xs.length)) :
    ∃ s1 s2, vecInsertRange s i (.ext xs) xs.length = .ret (stSuccess, s1) ∧
      contents s1 = .ret (es.take i ++ xs ++ es.drop i) ∧
      vecDeleteRange s1 i xs.length = .ret (stSuccess, s2) ∧ contents s2 = .ret es ∧
      destroyedOf s2.w.trace = destroyedOf s.w.trace ++ killed P xs := by
  obtain ⟨b, slack, R⟩ := h.rep
  rw [R.contents] at he
  injection he with he
  subst he
  have hlt := (hfit.mul_growth R.growth255 R.esz1).2.2
  obtain ⟨junk, st, s1, a1, b1, sl1, hj, hstep, hop, R1⟩ := op_ok R (.insertRange i xs) hfit
  have hr : ∃ c, Spec.room P (absOf s).cap ((absOf s).elems.length + xs.length) = some c := by
    unfold Spec.room
    split
    · exact ⟨_, rfl⟩
    · rcases hroom with hh | hh
      · rw [if_pos hh]; exact ⟨_, rfl⟩
      · rw [R.cap] at hh; omega
  obtain ⟨c, hr⟩ := hr
  have hni : ¬ i > (absOf s).elems.length := by omega
  simp only [step, hx, if_false, hni, hr, Prod.mk.injEq] at hstep
  obtain ⟨rfl, rfl⟩ := hstep
  have hxl : xs.length ≠ 0 := by simpa using hx
  obtain ⟨junk2, st2, s2, a2, b2, sl2, hj2, hstep2, hop2, R2⟩ :=
    op_ok R1 (.deleteRange i xs.length) (by show _ < _; omega)
  have hlen : ((absOf s).elems.take i ++ xs ++ (absOf s).elems.drop i).length =
      (absOf s).elems.length + xs.length := by simp; omega
  have hng : ¬ i + xs.length > ((absOf s).elems.take i ++ xs ++ (absOf s).elems.drop i).length := by
    omega
  have htl : ((absOf s).elems.take i).length = i := by simp; omega
  simp only [step, hxl, if_false, hng, Prod.mk.injEq] at hstep2
  obtain ⟨rfl, rfl⟩ := hstep2
  refine ⟨s1, s2, hop, R1.contents, hop2, ?_, ?_⟩
  · rw [R2.contents]
    simp only
    congr 1
    rw [List.append_assoc, List.take_append_of_le_length (by omega), List.take_of_length_le (by omega),
      ← List.append_assoc, List.drop_append_of_le_length (by simp; omega),
      List.drop_of_length_le (by simp; omega), List.nil_append, List.take_append_drop]
  · rw [R2.dead, R.dead]
    simp only
    congr 2
    rw [List.append_assoc, List.drop_append_of_le_length (by omega),
      List.drop_of_length_le (by omega), List.nil_append, List.take_left]

example : ∃ s1 s2, vecInsertRange exS 1 (.ext [some 1, some 2]) 2 = .ret (stSuccess, s1) ∧
    contents s1 = .ret [some 10, some 1, some 2, some 20, some 30] ∧
    vecDeleteRange s1 1 2 = .ret (stSuccess, s2) ∧ contents s2 = contents exS := by
  obtain ⟨s1, s2, h1, h2, h3, h4, _⟩ := C11_insert_delete_roundtrip exS_reach
    (es := [some 10, some 20, some 30]) rfl 1 [some 1, some 2] (by simp) (by decide) (Or.inl rfl)
    (by show _ < _; decide)
  exact ⟨s1, s2, h1, h2, h3, h4⟩

/-! ## C12: swap -/

/-- C12: with spare capacity, swapping two valid positions exchanges exactly these two elements, keeps the
size, destroys nothing and calls no allocator; swapping again restores the elements. -/
theorem C12_swap {P : Params} {s : VS α} (h : Reach P s) {es : List (Cell α)}
    (he : contents s = .ret es) (i j : Nat) (hi : i < es.length) (hj : j < es.length)
    (hsp : s.v.size < s.v.cap) :
    ∃ s1 s2, vecSwap s i j = .ret (stSuccess, s1) ∧
      (∃ es1, contents s1 = .ret es1 ∧ es1.length = es.length ∧ es1[i]? = some es[j] ∧
        es1[j]? = some es[i] ∧ ∀ k, k ≠ i → k ≠ j → es1[k]? = es[k]?) ∧
      s1.w.trace = s.w.trace ∧ vecGetCapacity s1 = vecGetCapacity s ∧
      vecSwap s1 i j = .ret (stSuccess, s2) ∧ contents s2 = .ret es := by
  obtain ⟨b, slack, R⟩ := h.rep
  rw [R.contents] at he
  injection he with he
  subst he
  have hne : ¬ (absOf s).elems.length = (absOf s).cap := by rw [← R.size, ← R.cap]; omega
  obtain ⟨junk, st, s1, a1, b1, sl1, _, hstep, hop, R1⟩ := op_ok R (.swap i j) trivial
  simp only [step, List.getElem?_eq_getElem hi, List.getElem?_eq_getElem hj, hne, if_false,
    Prod.mk.injEq] at hstep
  obtain ⟨rfl, rfl⟩ := hstep
  generalize hes : (absOf s).elems = es at *
  have hg : ∀ k, ((es.set i es[j]).set j es[i])[k]? =
      if k = j then some es[i] else if k = i then some es[j] else es[k]? := by
    intro k
    rw [List.getElem?_set, List.getElem?_set]
    by_cases h1 : k = j
    · subst h1; simp [hj]
    · rw [if_neg (Ne.symm h1), if_neg h1]
      by_cases h2 : k = i
      · subst h2; simp [hi]
      · rw [if_neg (Ne.symm h2), if_neg h2]
  have hlen : ((es.set i es[j]).set j es[i]).length = es.length := by simp
  obtain ⟨junk2, st2, s2, a2, b2, sl2, _, hstep2, hop2, R2⟩ := op_ok R1 (.swap i j) trivial
  have e1 : ((es.set i es[j]).set j es[i])[i]? = some es[j] := by
    rw [hg]
    by_cases h1 : i = j
    · subst h1; simp
    · simp [h1]
  have e2 : ((es.set i es[j]).set j es[i])[j]? = some es[i] := by rw [hg]; simp
  simp only [step, e1, e2, hlen, hne, if_false, Prod.mk.injEq] at hstep2
  obtain ⟨rfl, rfl⟩ := hstep2
  refine ⟨s1, s2, hop, ⟨_, R1.contents, hlen, e1, e2, ?_⟩, ?_, ?_, hop2, ?_⟩
  · intro k h1 h2
    rw [hg, if_neg h2, if_neg h1]
  · -- the trace is untouched
    simp only [vecOp, vecSwap, R.size, hes] at hop
    rw [if_neg (by omega), if_neg (by rw [R.cap]; exact hne), R.data, withData_some] at hop
    cases h1 : memmoveCells b.cells es.length i 1 with
    | ub w => rw [h1] at hop; simp at hop
    | ret c1 =>
      rw [h1] at hop
      simp only [Out.ret_bind'] at hop
      cases h2 : memmoveCells c1 i j 1 with
      | ub w => rw [h2] at hop; simp at hop
      | ret c2 =>
        rw [h2] at hop
        simp only [Out.ret_bind'] at hop
        cases h3 : memmoveCells c2 j es.length 1 with
        | ub w => rw [h3] at hop; simp at hop
        | ret c3 =>
          rw [h3] at hop
          simp only [Out.ret_bind', Out.ret.injEq, Prod.mk.injEq, true_and] at hop
          rw [← hop]
  · rw [vecGetCapacity, vecGetCapacity, R1.cap, R.cap]
  · rw [R2.contents]
    congr 1
    apply List.ext_getElem?
    intro k
    simp only
    rw [List.getElem?_set, List.getElem?_set, List.length_set, hlen, hg]
    by_cases h1 : j = k
    · subst h1
      rw [if_pos rfl, if_pos hj, List.getElem?_eq_getElem hj]
    · rw [if_neg h1]
      by_cases h2 : i = k
      · subst h2
        rw [if_pos rfl, if_pos hi, List.getElem?_eq_getElem hi]
      · rw [if_neg h2, if_neg (Ne.symm h1), if_neg (Ne.symm h2)]

/-- C12, without spare capacity: the call fails with `INSUFFICIENT_BUFFER_SIZE` and changes nothing. -/
theorem C12_swap_full {s : VS α} (i j : Nat) (hi : i < s.v.size) (hj : j < s.v.size)
    (hfull : s.v.size = s.v.cap) : vecSwap s i j = .ret (stInsufficient, s) := by
  unfold vecSwap
  rw [if_neg (by omega), if_pos hfull]

example : ∃ s1, vecSwap exS 0 2 = .ret (stSuccess, s1) ∧
    contents s1 = .ret [some 30, some 20, some 10] := ⟨_, rfl, rfl⟩

/-! ## C13: duplication -/

/-- C13, dynamic duplicate: it succeeds, has the elements of the source, the capacity
`max 1 (max requested size)`, its own new block (its identity is fresh in the world `w` the duplicate is
created in), and it is again a reachable vector, so everything proved for vectors holds for it. -/
theorem C13_duplicate {P P₀ : Params} {s : VS α} (h : Reach P₀ s) {es : List (Cell α)}
    (he : contents s = .ret es) {w : World α} {cap al : Nat} (hw : Fresh w) (hr : Reliable w)
    (hP : P.allocator = some al ∧ P.growth ≤ 255 ∧ P.thr ≤ 255 ∧ P.esz = P₀.esz ∧ P.dtor = P₀.dtor)
    (hg : 1 ≤ P.growth) (hc : max 1 cap * P.esz < 18446744073709551616) :
    ∃ v w' b', vecDuplicateEx w s.v cap (some al) P.growth P.thr = .ret (stSuccess, some v, w') ∧
      contents ⟨v, w'⟩ = .ret es ∧ vecGetCapacity ⟨v, w'⟩ = max 1 (max cap es.length) ∧
      v.data = some b' ∧ b'.id = w.nextBlk ∧ Reach P ⟨v, w'⟩ := by
  obtain ⟨b, slack, R⟩ := h.rep
  rw [R.contents] at he
  injection he with he
  subst he
  obtain ⟨v, w', b', sl', e, R', hid⟩ := duplicate_rep R hw hr hP hg hc
  exact ⟨v, w', b', e, R'.contents, R'.cap, R'.data, hid, Reach.dup h hw hr hP hc e⟩

/-- C13, independence of the source in a shared environment: if the duplicate is created in the very
environment of the source, its block is different from the block of the source. -/
theorem C13_duplicate_own_block {P₀ : Params} {s : VS α} (h : Reach P₀ s)
    (hdyn : P₀.allocator.isSome) {cap al g t : Nat} {st : Status} {v : Vec α} {w' : World α}
    {b b' : Block α} (hb : s.v.data = some b)
    (e : vecDuplicateEx s.w s.v cap (some al) g t = .ret (st, some v, w'))
    (hb' : v.data = some b') : b'.id ≠ b.id := by
  obtain ⟨b0, slack, R⟩ := h.rep
  have hbb : b0 = b := by rw [R.data] at hb; injection hb
  subst hbb
  obtain ⟨al0, hal⟩ := Option.isSome_iff_exists.1 hdyn
  have hA := R.alloc
  simp only [AllocOK, hal] at hA
  simp only [vecDuplicateEx, vecInitEx] at e
  by_cases hh : s.v.esz = 0 ∨ g < 1
  · simp only [hh, if_true] at e
    split at e <;> simp at e
  · simp only [hh, if_false, allocate, R.reliable_now, World.log, Bool.false_eq_true] at e
    simp only [dupCopy, R.data, withData_some] at e
    cases h1 : readRange b0.cells 0 s.v.size with
    | ub q => rw [h1] at e; simp at e
    | ret xs =>
      rw [h1] at e
      simp only [Out.ret_bind'] at e
      generalize hcs : writeRange _ 0 xs = q at e
      cases q with
      | ub q => simp at e
      | ret cs =>
        simp only [Out.ret_bind', Out.ret.injEq, Prod.mk.injEq, Option.some.injEq] at e
        rw [← e.2.1] at hb'
        simp only [Option.some.injEq] at hb'
        rw [← hb']
        exact Nat.ne_of_gt hA.2

/-- C13, duplicate into a caller buffer: it succeeds exactly if the (non-zero) capacity of the buffer is at
least the source size; then the duplicate has the elements of the source inside of the caller's block. -/
theorem C13_duplicate_buffer {P P₀ : Params} {s : VS α} (h : Reach P₀ s) {es : List (Cell α)}
    (he : contents s = .ret es) {w : World α} {cap : Nat} {b' : Block α} (hw : Fresh w)
    (hr : Reliable w)
    (hP : P.allocator = none ∧ P.growth = 1 ∧ P.thr = 0 ∧ P.esz = P₀.esz ∧ P.dtor = P₀.dtor)
    (hb : cap ≤ b'.cells.length) (hc0 : cap ≠ 0) :
    (es.length ≤ cap → ∃ v d, vecDuplicateBuffer s.v (some b') cap = .ret (stSuccess, some v) ∧
      contents ⟨v, w⟩ = .ret es ∧ vecGetCapacity ⟨v, w⟩ = cap ∧ v.data = some d ∧ d.id = b'.id ∧
      d.cells.length = b'.cells.length ∧ Reach P ⟨v, w⟩) ∧
    (cap < es.length → vecDuplicateBuffer s.v (some b') cap = .ret (stInsufficient, none)) := by
  obtain ⟨b, slack, R⟩ := h.rep
  rw [R.contents] at he
  injection he with he
  subst he
  refine ⟨?_, ?_⟩
  · intro hc
    obtain ⟨v, e, R'⟩ := duplicateBuffer_rep R hw hr hP hb hc hc0
    exact ⟨v, _, e, R'.contents, R'.cap, R'.data, rfl, by simp; omega, Reach.dupBuffer h hw hr hP hb e⟩
  · intro hc
    unfold vecDuplicateBuffer
    rw [R.size, if_pos hc]

example : ∃ v w', vecDuplicateEx exW exS.v 1 (some 0) 2 4 = .ret (stSuccess, some v, w') ∧
    contents ⟨v, w'⟩ = .ret [some 10, some 20, some 30] ∧ v.cap = 3 := ⟨_, _, rfl, rfl, rfl⟩

/-! ## C14: resize -/

/-- C14, as far as it holds: if the requested size is small enough for the size computations
(`n * 255 * element_size < 2^64`), resizing a dynamic vector succeeds and gives exactly `n` elements, the
first `min n size` unchanged, the others equal to the initializer if there is one, and the block really
owned has room for `n` elements. Missing compared with C14: larger `n`, see `C14_negation`. -/
theorem C14_resize_partial {P : Params} {s : VS α} (h : Reach P s) {es : List (Cell α)}
    (he : contents s = .ret es) (n : Nat) (init : Option (Cell α)) (hfit : Fits P n)
    (hroom : P.allocator.isSome ∨ n ≤ s.v.cap) :
    ∃ s' es' b', vecResizeEx s n (initSrc init) = .ret (stSuccess, s') ∧ contents s' = .ret es' ∧
      es'.length = n ∧ (∀ k, k < min n es.length → es'[k]? = es[k]?) ∧
      (∀ x, init = some x → ∀ k, es.length ≤ k → k < n → es'[k]? = some x) ∧
      s'.v.data = some b' ∧ n ≤ vecGetCapacity s' ∧ vecGetCapacity s' ≤ b'.cells.length := by
  obtain ⟨b, slack, R⟩ := h.rep
  rw [R.contents] at he
  injection he with he
  subst he
  obtain ⟨junk, st, s1, a1, b1, sl1, hj, hstep, hop, R1⟩ := op_ok R (.resize n init) hfit
  generalize hes : (absOf s).elems = es at *
  have hr : ∃ c, Spec.room P (absOf s).cap n = some c := by
    unfold Spec.room
    split
    · exact ⟨_, rfl⟩
    · rcases hroom with hh | hh
      · rw [if_pos hh]; exact ⟨_, rfl⟩
      · rw [R.cap] at hh; omega
  obtain ⟨c, hr⟩ := hr
  have key : st = stSuccess ∧ a1.elems.length = n ∧ (∀ k, k < min n es.length → a1.elems[k]? = es[k]?) ∧
      (∀ x, init = some x → ∀ k, es.length ≤ k → k < n → a1.elems[k]? = some x) := by
    simp only [step, hes, hr] at hstep
    by_cases h1 : n = es.length
    · rw [if_pos h1] at hstep
      simp only [Prod.mk.injEq] at hstep
      obtain ⟨rfl, rfl⟩ := hstep
      rw [hes]
      exact ⟨rfl, h1.symm, fun k _ => rfl, fun x _ k h2 h3 => by omega⟩
    · rw [if_neg h1] at hstep
      by_cases h2 : n ≤ es.length
      · rw [if_pos h2] at hstep
        simp only [Prod.mk.injEq] at hstep
        obtain ⟨rfl, rfl⟩ := hstep
        refine ⟨rfl, by simp; omega, ?_, fun x _ k h3 h4 => by omega⟩
        intro k hk
        simp only
        rw [List.getElem?_take, if_pos (by omega)]
      · rw [if_neg h2] at hstep
        simp only [Prod.mk.injEq] at hstep
        obtain ⟨rfl, rfl⟩ := hstep
        have hl : (newElems init (n - es.length) junk).length = n - es.length := by
          have hj' : junk.length = n - es.length := by simpa [junkLen, hes] using hj
          cases init <;> simp [newElems, hj']
        refine ⟨rfl, by simp [hl]; omega, ?_, ?_⟩
        · intro k hk
          simp only
          rw [List.getElem?_append_left (by omega)]
        · rintro x rfl k h3 h4
          simp only
          rw [List.getElem?_append_right h3]
          simp [newElems, List.getElem?_replicate]
          omega
  obtain ⟨rfl, hlen, hpre, hnew⟩ := key
  refine ⟨s1, a1.elems, b1, hop, R1.contents, hlen, hpre, hnew, R1.data, ?_, ?_⟩
  · rw [vecGetCapacity, R1.cap, ← hlen]; exact R1.len
  · rw [vecGetCapacity, R1.cap]; exact R1.room

/-- C14 is false for the code: resizing a default vector of 1-byte elements to `2^63` multiplies by the
growth factor 2, which wraps to 0. The call succeeds, reports size `2^63`, and owns one slot. -/
theorem C14_negation : ∃ (P : Params) (s s' : VS Nat), Reach P s ∧
    vecResize s 9223372036854775808 = .ret (stSuccess, s') ∧
    vecGetSize s' = 9223372036854775808 ∧ vecGetCapacity s' = 1 ∧ contents s' = .ub .oob := by
  refine ⟨exP, exS0, _, exS0_reach, rfl, rfl, rfl, ?_⟩
  decide +kernel

example : ∃ s', vecResizeEx exS 5 (.ext [some 7]) = .ret (stSuccess, s') ∧
    contents s' = .ret [some 10, some 20, some 30, some 7, some 7] := ⟨_, rfl, rfl⟩

/-! ## C15: emplace -/

/-- C15, success: if the constructor reports success, exactly one new element, produced by the constructor,
sits at the requested index, and all others keep their order. -/
theorem C15_emplace_success {P : Params} {s : VS α} (h : Reach P s) {es : List (Cell α)}
    (he : contents s = .ret es) (i : Nat) (f : Cell α → Status × Cell α) (hi : i ≤ es.length)
    (hfit : Fits P (es.length + 1)) (hroom : P.allocator.isSome ∨ es.length + 1 ≤ s.v.cap)
    (hok : ∀ x, failed (f x).1 = false) :
    ∃ s' x, vecEmplaceEx s i (some f) = .ret (stSuccess, s') ∧
      contents s' = .ret (es.take i ++ [(f x).2] ++ es.drop i) := by
  obtain ⟨b, slack, R⟩ := h.rep
  rw [R.contents] at he
  injection he with he
  subst he
  obtain ⟨junk, st, s1, a1, b1, sl1, hj, hstep, hop, R1⟩ := op_ok R (.emplace i (some f))
    ⟨hfit, by intro g hg _ x; injection hg with hg; subst hg; exact hok x⟩
  have hr : ∃ c, Spec.room P (absOf s).cap ((absOf s).elems.length + 1) = some c := by
    unfold Spec.room
    split
    · exact ⟨_, rfl⟩
    · rcases hroom with hh | hh
      · rw [if_pos hh]; exact ⟨_, rfl⟩
      · rw [R.cap] at hh; omega
  obtain ⟨c, hr⟩ := hr
  have hni : ¬ i > (absOf s).elems.length := by omega
  simp only [step, hni, if_false, hr, hok, Bool.false_eq_true, Prod.mk.injEq] at hstep
  obtain ⟨rfl, rfl⟩ := hstep
  exact ⟨s1, junk.head?.join, hop, R1.contents⟩

/-- C15, failure, as far as it holds: if the constructor of an element at the end reports failure, the call
returns that status and the vector holds the same elements as before, none of them destroyed. Missing
compared with C15: indices inside of the vector (`C15_negation`). -/
theorem C15_emplace_failure_partial {P : Params} {s : VS α} (h : Reach P s) {es : List (Cell α)}
    (he : contents s = .ret es) (f : Cell α → Status × Cell α) (hfit : Fits P (es.length + 1))
    (hroom : P.allocator.isSome ∨ es.length + 1 ≤ s.v.cap)
    (hbad : ∀ x, failed (f x).1 = true) :
    ∃ s' x, vecEmplace s (some f) = .ret ((f x).1, s') ∧ contents s' = .ret es ∧
      destroyedOf s'.w.trace = destroyedOf s.w.trace := by
  obtain ⟨b, slack, R⟩ := h.rep
  rw [R.contents] at he
  injection he with he
  subst he
  obtain ⟨junk, st, s1, a1, b1, sl1, hj, hstep, hop, R1⟩ := op_ok R
    (.emplace (absOf s).elems.length (some f)) ⟨hfit, by intro g hg hh; omega⟩
  have hr : ∃ c, Spec.room P (absOf s).cap ((absOf s).elems.length + 1) = some c := by
    unfold Spec.room
    split
    · exact ⟨_, rfl⟩
    · rcases hroom with hh | hh
      · rw [if_pos hh]; exact ⟨_, rfl⟩
      · rw [R.cap] at hh; omega
  obtain ⟨c, hr⟩ := hr
  have hni : ¬ (absOf s).elems.length > (absOf s).elems.length := by omega
  simp only [step, hni, if_false, hr, hbad, if_true, Prod.mk.injEq] at hstep
  obtain ⟨rfl, rfl⟩ := hstep
  refine ⟨s1, junk.head?.join, ?_, R1.contents, by rw [R1.dead, R.dead]⟩
  rw [vecEmplace, R.size]; exact hop

/-- C15 is false for the code: `ZyanVectorEmplaceEx` has shifted the elements before it calls the
constructor, and does not shift them back. Witness: a failing constructor at index 0 of `[10, 20, 30]`
loses the element 30. -/
theorem C15_negation : ∃ (P : Params) (s s' : VS Nat) (f : Cell Nat → Status × Cell Nat),
    Reach P s ∧ (∀ x, failed (f x).1 = true) ∧
    contents s = .ret [some 10, some 20, some 30] ∧
    vecEmplaceEx s 0 (some f) = .ret (stFailed, s') ∧
    contents s' = .ret [some 0, some 10, some 20] :=
  ⟨exP, exS, _, fun _ => (stFailed, some 0), exS_reach, fun _ => failed_failed, rfl, rfl, rfl⟩

example : ∃ s', vecEmplace exS (some fun _ => (stFailed, some 0)) = .ret (stFailed, s') ∧
    contents s' = contents exS := ⟨_, rfl, rfl⟩
example : ∃ s', vecEmplaceEx exS 1 (some fun _ => (stSuccess, some 0)) = .ret (stSuccess, s') ∧
    contents s' = .ret [some 10, some 0, some 20, some 30] := ⟨_, rfl, rfl⟩

/-! ## C16: amortised cost of pushing -/

/-- C16: pushing `n` elements onto a dynamic vector with `m` elements succeeds and asks the allocator `k`
times, where `k = 0` or `g^(k-1) * (capacity + 1) ≤ m + n`. So, with growth factor `g ≥ 2`, `k - 1` is at
most the logarithm to base `g` of the final size. -/
theorem C16_push_reallocations {P : Params} {s : VS α} (h : Reach P s) (hdyn : P.allocator.isSome)
    (xs : List (Cell α)) (hf : Fits P (s.v.size + xs.length)) :
    ∃ sts s' k, runVec s (xs.map .push) = .ret (sts, s') ∧ s'.w.calls = s.w.calls + k ∧
      vecGetSize s' = s.v.size + xs.length ∧
      (1 ≤ k → P.growth ^ (k - 1) * (s.v.cap + 1) ≤ s.v.size + xs.length) ∧
      (2 ≤ P.growth → 1 ≤ k → k - 1 ≤ Nat.log2 (s.v.size + xs.length)) := by
  obtain ⟨b, slack, R⟩ := h.rep
  rw [R.size] at hf
  obtain ⟨sts, s', cap', b', sl', k, e, R', hc, h0, hk⟩ := pushes_calls hdyn xs R hf
  have key : 1 ≤ k → P.growth ^ (k - 1) * (s.v.cap + 1) ≤ s.v.size + xs.length := by
    intro h1
    obtain ⟨h2, h3⟩ := hk h1
    have hkk : P.growth ^ k = P.growth * P.growth ^ (k - 1) := by
      obtain ⟨j, rfl⟩ : ∃ j, k = j + 1 := ⟨k - 1, by omega⟩
      rw [Nat.add_sub_cancel, Nat.pow_succ, Nat.mul_comm]
    have h4 := Nat.le_trans h2 h3
    rw [hkk, Nat.mul_assoc] at h4
    rw [R.size, R.cap]
    exact Nat.le_of_mul_le_mul_left h4 R.growth1
  refine ⟨sts, s', k, e, hc, ?_, key, ?_⟩
  · rw [vecGetSize, R'.size, R.size]; simp
  · intro hg h1
    have h2 := key h1
    have hpow : 2 ^ (k - 1) ≤ P.growth ^ (k - 1) := Nat.pow_le_pow_left hg _
    have hle : 2 ^ (k - 1) ≤ s.v.size + xs.length :=
      Nat.le_trans hpow (Nat.le_trans (Nat.le_mul_of_pos_right _ (by omega)) h2)
    have hne : s.v.size + xs.length ≠ 0 := by
      have := Nat.pow_pos (n := k - 1) (show 0 < 2 by omega); omega
    exact (Nat.le_log2 hne).2 hle

example : ∃ sts s', runVec exS ([some 1, some 2, some 3, some 4, some 5, some 6].map .push) =
    .ret (sts, s') ∧ s'.w.calls = exS.w.calls + 1 ∧ s'.v.cap = 10 := ⟨_, _, rfl, rfl, rfl⟩

/-! ## C17: shrinking -/

/-- C17: after deleting a range or popping from a dynamic vector with `growth ≤ threshold`, the capacity is
at most `max 1 (threshold * size)` and at least the size, and the surviving elements are unchanged. -/
theorem C17_shrink {P : Params} {s : VS α} (h : Reach P s) {es : List (Cell α)}
    (he : contents s = .ret es) (hdyn : P.allocator.isSome) (ht : P.thr ≠ 0)
    (hgt : P.growth ≤ P.thr) :
    (∀ i n, n ≠ 0 → i + n ≤ es.length →
      ∃ s', vecDeleteRange s i n = .ret (stSuccess, s') ∧
        contents s' = .ret (es.take i ++ es.drop (i + n)) ∧
        s'.v.size ≤ s'.v.cap ∧ s'.v.cap ≤ max 1 (P.thr * s'.v.size)) ∧
    (es ≠ [] → ∃ s', vecPopBack s = .ret (stSuccess, s') ∧ contents s' = .ret es.dropLast ∧
        s'.v.size ≤ s'.v.cap ∧ s'.v.cap ≤ max 1 (P.thr * s'.v.size)) := by
  obtain ⟨b, slack, R⟩ := h.rep
  rw [R.contents] at he
  injection he with he
  subst he
  have h63 := R.len63
  refine ⟨?_, ?_⟩
  · intro i n hn hle
    obtain ⟨junk, st, s1, a1, b1, sl1, hj, hstep, hop, R1⟩ := op_ok R (.deleteRange i n)
      (by show _ < _; omega)
    have hng : ¬ i + n > (absOf s).elems.length := by omega
    simp only [step, hn, if_false, hng, Prod.mk.injEq] at hstep
    obtain ⟨rfl, rfl⟩ := hstep
    refine ⟨s1, hop, R1.contents, by rw [R1.size, R1.cap]; exact R1.len, ?_⟩
    have hl : s1.v.size = (absOf s).elems.length - n := by rw [R1.size]; simp; omega
    rw [R1.cap, hl]
    exact trim_bounds hdyn ht hgt _ _
  · intro hne
    obtain ⟨junk, st, s1, a1, b1, sl1, hj, hstep, hop, R1⟩ := op_ok R .pop trivial
    simp only [step, hne, if_false, Prod.mk.injEq] at hstep
    obtain ⟨rfl, rfl⟩ := hstep
    refine ⟨s1, hop, R1.contents, by rw [R1.size, R1.cap]; exact R1.len, ?_⟩
    have hl : s1.v.size = (absOf s).elems.length - 1 := by rw [R1.size]; simp
    rw [R1.cap, hl]
    exact trim_bounds hdyn ht hgt _ _

example : ∃ s', vecDeleteRange exS 0 3 = .ret (stSuccess, s') ∧ contents s' = .ret [] ∧
    s'.v.cap ≤ max 1 (4 * s'.v.size) := by
  obtain ⟨s', h1, h2, _, h3⟩ := (C17_shrink exS_reach (es := [some 10, some 20, some 30]) rfl rfl
    (by decide) (by decide)).1 0 3 (by decide) (by decide)
  exact ⟨s', h1, h2, h3⟩

end Zy
