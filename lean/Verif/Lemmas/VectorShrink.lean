import Verif.Lemmas.VectorBounds

/-!
# Lemmas about refused reallocations in functions that remove elements
-/

namespace Zy

open Spec

variable {α : Type}

/-- The state `s` with the answers `o` of the allocator. -/
def setOracle (o : Nat → Status) (s : VS α) : VS α := ⟨s.v, { s.w with oracle := o }⟩

theorem destroyLoop_setOracle (o : Nat → Status) (n : Nat) : ∀ (s : VS α) (i : Nat),
    destroyLoop (setOracle o s) i n = (destroyLoop s i n).bind fun s' => .ret (setOracle o s') := by
  induction n with
  | zero => intro s i; rfl
  | succ n ih =>
    intro s i
    simp only [destroyLoop]
    have hd : (setOracle o s).v.data = s.v.data := rfl
    rw [hd]
    cases s.v.data with
    | none => rfl
    | some b =>
      simp only [withData]
      cases b.cells[i]? with
      | none => rfl
      | some x => exact ih ⟨s.v, s.w.log (.destroy x)⟩ (i + 1)

theorem runDtors_setOracle (o : Nat → Status) (s : VS α) (lo hi : Nat) :
    runDtors (setOracle o s) lo hi = (runDtors s lo hi).bind fun s' => .ret (setOracle o s') := by
  have hd : (setOracle o s).v.hasDtor = s.v.hasDtor := rfl
  unfold runDtors
  rw [hd]
  split
  · exact destroyLoop_setOracle o _ s lo
  · rfl

theorem destroyLoop_calls (n : Nat) : ∀ {s s' : VS α} {i : Nat}, destroyLoop s i n = .ret s' →
    s'.w.calls = s.w.calls ∧ s'.w.oracle = s.w.oracle := by
  induction n with
  | zero => intro s s' i h; simp only [destroyLoop, Out.ret.injEq] at h; rw [h]; exact ⟨rfl, rfl⟩
  | succ n ih =>
    intro s s' i h
    simp only [destroyLoop] at h
    cases hd : s.v.data with
    | none => rw [hd] at h; simp [withData] at h
    | some b =>
      rw [hd] at h
      simp only [withData] at h
      cases hx : b.cells[i]? with
      | none => rw [hx] at h; simp at h
      | some x =>
        rw [hx] at h
        exact ih (s := ⟨s.v, s.w.log (.destroy x)⟩) h

theorem runDtors_calls {s s' : VS α} {lo hi : Nat} (h : runDtors s lo hi = .ret s') :
    s'.w.calls = s.w.calls ∧ s'.w.oracle = s.w.oracle := by
  unfold runDtors at h
  split at h
  · exact destroyLoop_calls _ h
  · simp only [Out.ret.injEq] at h; rw [h]; exact ⟨rfl, rfl⟩

theorem refuseNext_eq (s : VS α) (st : Status) :
    refuseNext s st = setOracle (fun k => if k = s.w.calls then st else s.w.oracle k) s := rfl

/-- The destructor loop in an environment where the next allocator call returns `st`. -/
theorem runDtors_refuseNext {s s' : VS α} {lo hi : Nat} (h : runDtors s lo hi = .ret s') (st : Status) :
    runDtors (refuseNext s st) lo hi = .ret (refuseNext s' st) := by
  rw [refuseNext_eq, runDtors_setOracle, h, Out.ret_bind', refuseNext_eq, (runDtors_calls h).1, (runDtors_calls h).2]

/-- A refused reallocation to capacity `c`. -/
theorem refused_reallocate {P : Params} {s : VS α} {a : LState α} {b : Block α} {slack : List (Cell α)}
    (R : Rep P s a b slack) {st : Status} (hst : failed st = true) {al : Nat} (hal : P.allocator = some al)
    {c : Nat} (hc : 1 ≤ c) :
    reallocate (refuseNext s st) c = .ret (st, afterRefusal s st al c) := by
  have hv : (refuseNext s st).v = s.v := rfl
  have ho : (refuseNext s st).w.oracle (refuseNext s st).w.calls = st := if_pos rfl
  simp only [reallocate, hv, R.allocator, hal, show ¬ c < 1 by omega, if_false, reallocTo, R.data, withData,
    reallocBlock, ho, hst, if_true, World.log, afterRefusal]
  rfl

/-- A refused shrinking at the end of a deletion. -/
theorem refused_shrinkAfter {P : Params} {s : VS α} {a : LState α} {b : Block α} {slack : List (Cell α)}
    (R : Rep P s a b slack) {st : Status} (hst : failed st = true) {al : Nat} (hal : P.allocator = some al)
    (ht : P.thr ≠ 0) (hs : a.elems.length * P.thr < a.cap) :
    shrinkAfter (refuseNext s st) =
      .ret (st, afterRefusal s st al (max 1 (a.elems.length * P.growth))) := by
  have hm := R.fits.mul_growth R.growth255 R.esz1
  have htm := R.fits.mul_growth R.thr255 R.esz1
  have hv : (refuseNext s st).v = s.v := rfl
  unfold shrinkAfter shouldShrink
  rw [hv, R.size, R.cap, R.shrink, R.growth, mul64_eq hm.2.1, mul64_eq htm.2.1, if_pos (by simp [ht, hs])]
  exact refused_reallocate R hst hal (by omega)

/-- What a refused shrinking leaves: the same block, a wrong capacity, and everything else as represented. -/
theorem afterRefusal_facts {P : Params} {s : VS α} {a : LState α} {b : Block α} {slack : List (Cell α)}
    (R : Rep P s a b slack) {st : Status} {al : Nat} {c : Nat} :
    contents (afterRefusal s st al c) = .ret a.elems ∧
      destroyedOf (afterRefusal s st al c).w.trace = a.dead ∧
      (afterRefusal s st al c).v.data = some b ∧
      (afterRefusal s st al c).v.cap = c := by
  refine ⟨R.contents, ?_, R.data, rfl⟩
  simp [afterRefusal, R.dead]

theorem afterRefusal_reliable {P : Params} {s : VS α} {a : LState α} {b : Block α} {slack : List (Cell α)}
    (R : Rep P s a b slack) (st : Status) (al c : Nat) :
    failed ((afterRefusal s st al c).w.oracle (afterRefusal s st al c).w.calls) = false := by
  show failed (if s.w.calls + 1 = s.w.calls then st else s.w.oracle (s.w.calls + 1)) = false
  rw [if_neg (by omega)]
  exact R.reliable _ (by omega)

/-- Destroying a vector after a refused reallocation: all elements that it counts are destroyed, and the
deallocation passes the wrong capacity. -/
theorem afterRefusal_destroy {P : Params} {s : VS α} {a : LState α} {b : Block α} {slack : List (Cell α)}
    (R : Rep P s a b slack) {st : Status} {al : Nat} (hal : P.allocator = some al) {c : Nat} (hc : 1 ≤ c) :
    ∃ s', vecDestroy (afterRefusal s st al c) = .ret (stSuccess, s') ∧ s'.v.data = none ∧
      destroyedOf s'.w.trace = a.dead ++ killed P a.elems ∧
      (c ≠ a.cap → replay s'.w.trace = none) := by
  have hA := R.alloc
  simp only [AllocOK, hal] at hA
  have hrel := afterRefusal_reliable R st al c
  have hl : destroyLoop (afterRefusal s st al c) 0 a.elems.length = _ :=
    destroyLoop_ok (s := afterRefusal s st al c) (b := b) R.data (mid := a.elems) (pre := []) (post := slack)
      (by rw [R.cells]; simp)
  obtain ⟨w1, e1, hc1, ho1, htr⟩ : ∃ w1, runDtors (afterRefusal s st al c) 0 a.elems.length =
      .ret ⟨(afterRefusal s st al c).v, w1⟩ ∧ w1.calls = (afterRefusal s st al c).w.calls ∧
      w1.oracle = (afterRefusal s st al c).w.oracle ∧
      w1.trace = (s.w.trace ++ [.refused al]) ++ (killed P a.elems).map Event.destroy := by
    unfold runDtors
    have hd : (afterRefusal s st al c).v.hasDtor = P.dtor := R.dtor
    rw [hd]
    by_cases hdt : P.dtor
    · rw [if_pos hdt, Nat.sub_zero, hl]
      exact ⟨_, rfl, rfl, rfl, by simp [afterRefusal, killed, hdt]⟩
    · rw [if_neg hdt]
      exact ⟨_, rfl, rfl, rfl, by simp [killed, hdt]⟩
  have hal' : (afterRefusal s st al c).v.allocator = some al := by rw [← hal]; exact R.allocator
  have hsz : (afterRefusal s st al c).v.size = a.elems.length := R.size
  have hcp : (afterRefusal s st al c).v.cap = c := rfl
  have hdat : (afterRefusal s st al c).v.data = some b := R.data
  have hez : (afterRefusal s st al c).v.esz = P.esz := R.esz
  simp only [vecDestroy, hsz, e1, Out.ret_bind', hal', hcp, hdat, withData, deallocate, World.log, hc1, ho1, hrel, hez]
  rw [if_pos (by omega), if_neg (by simp [hrel]), if_neg (by simp)]
  refine ⟨_, rfl, rfl, ?_, ?_⟩
  · rw [htr]
    simp only [destroyedOf_append, destroyedOf_map, destroyedOf_dealloc, destroyedOf_refused, R.dead, List.append_nil]
  · simp only [replay_append_one, htr, replay_destroys, hA.1]
    simp only [replayStep, Live.mk.injEq, true_and]
    intro h
    rw [if_neg (Ne.symm h)]

/-- Shrinking to fit repairs a vector after a refused reallocation, unless it is empty and claims capacity 1. -/
theorem refused_repair' {P : Params} {s : VS α} {a : LState α} {b : Block α} {slack : List (Cell α)}
    (R : Rep P s a b slack) {st : Status} {al : Nat} (hal : P.allocator = some al) {c : Nat}
    (hc : 1 < c ∨ 1 ≤ a.elems.length) :
    ∃ s'' b'' sl'', vecShrinkToFit (afterRefusal s st al c) = .ret (stSuccess, s'') ∧
      Rep P s'' { a with cap := max 1 a.elems.length } b'' sl'' := by
  by_cases h1 : 1 < c
  · exact refused_repair R hal h1
  · have hs1 : 1 ≤ s.v.size := by
      rw [R.size]
      rcases hc with h | h
      · exact absurd h h1
      · exact h
    obtain ⟨t, bt, slt, e2, R2⟩ := refused_repair R (st := st) hal (c := 2) (by omega)
    refine ⟨t, bt, slt, ?_, R2⟩
    rw [← e2]
    have ha : s.v.allocator = some al := by rw [R.allocator, hal]
    simp only [vecShrinkToFit, reallocate, afterRefusal, ha, refuseNext]
    rw [if_neg (by omega), if_neg (by omega)]
    rfl

/-- A refused reallocation in `ZyanVectorResizeEx` of a vector without destructor. -/
theorem refused_resize {P : Params} {s : VS α} {a : LState α} {b : Block α} {slack : List (Cell α)}
    (R : Rep P s a b slack) {st : Status} (hst : failed st = true) {al : Nat} (hal : P.allocator = some al)
    (hnod : P.dtor = false) {m : Nat} (hm : m ≠ a.elems.length) (hf : Fits P m) (h0 : m = 0 → 1 < a.cap)
    (hc : a.cap < m ∨ (P.thr ≠ 0 ∧ m * P.thr < a.cap)) (init : Src α) :
    vecResizeEx (refuseNext s st) m init =
      .ret (st, afterRefusal s st al (max 1 (m * P.growth))) := by
  have hv : (refuseNext s st).v = s.v := rfl
  have hg := (hf.mul_growth R.growth255 R.esz1).2.1
  have ht := (hf.mul_growth R.thr255 R.esz1).2.1
  have hre : reallocate (refuseNext s st) (m * P.growth) =
      .ret (st, afterRefusal s st al (max 1 (m * P.growth))) := by
    by_cases hz : m = 0
    · have h1 := refused_reallocate R hst hal (c := 1) (by omega)
      have ha : (refuseNext s st).v.allocator = some al := by rw [hv, R.allocator, hal]
      have hcap := R.cap
      subst hz
      rw [Nat.zero_mul]
      simp only [reallocate, ha] at h1 ⊢
      rw [if_neg (by omega)] at h1
      rw [if_pos (by omega), hv, if_pos (by rw [hcap]; exact h0 rfl), h1]
      rfl
    · have hge := Nat.le_mul_of_pos_right m R.growth1
      rw [show max 1 (m * P.growth) = m * P.growth by omega]
      exact refused_reallocate R hst hal (by omega)
  have hdt : (refuseNext s st).v.hasDtor = false := by rw [hv, R.dtor, hnod]
  have hd : (if m < (refuseNext s st).v.size then runDtors (refuseNext s st) m (refuseNext s st).v.size
      else .ret (refuseNext s st)) = .ret (refuseNext s st) := by
    split
    · simp [runDtors, hdt]
    · rfl
  simp only [vecResizeEx]
  rw [if_neg (by rw [hv, R.size]; exact hm), hd, Out.ret_bind', hv, R.growth, R.shrink, R.cap, mul64_eq hg]
  rw [if_pos (by
    simp only [shouldGrow, shouldShrink, mul64_eq ht]
    rcases hc with h | h
    · simp [h]
    · simp [h.1, h.2]), hre]
  simp [hst]

/-- A refused growth in `ZyanVectorInsertRange`. -/
theorem refused_insertRange {P : Params} {s : VS α} {a : LState α} {b : Block α} {slack : List (Cell α)}
    (R : Rep P s a b slack) {st : Status} (hst : failed st = true) {al : Nat} (hal : P.allocator = some al)
    {i n : Nat} {src : Src α} (hsrc : src.isNull = false) (hn : n ≠ 0) (hi : i ≤ a.elems.length)
    (hc : a.cap < a.elems.length + n) (hf : Fits P (a.elems.length + n)) :
    vecInsertRange (refuseNext s st) i src n =
      .ret (st, afterRefusal s st al ((a.elems.length + n) * P.growth)) := by
  have hv : (refuseNext s st).v = s.v := rfl
  have hlt := (hf.mul_growth R.growth255 R.esz1).2.2
  have hgr := refused_growFor R hst (by simp [hal]) hc hf
  rw [hal] at hgr
  have hgr' : growFor (refuseNext s st) (a.elems.length + n) =
      .ret (st, afterRefusal s st al ((a.elems.length + n) * P.growth)) := hgr
  simp only [vecInsertRange, hv, R.size, add64_eq hlt, hgr', hsrc]
  rw [if_neg (by simp [hn]), if_neg (by omega)]
  simp [hst]

/-! ## Deletion -/

/-- The part of `ZyanVectorDeleteRange` before the shrink step. -/
def deletePre (s : VS α) (index count : Nat) : Out (VS α) :=
  (runDtors s index (add64 index count)).bind fun s =>
  (if add64 index count < s.v.size then shiftLeft s index count else .ret s).bind fun s =>
  .ret ⟨{ s.v with size := sub64 s.v.size count }, s.w⟩

theorem vecDeleteRange_eq (s : VS α) (i n : Nat) :
    vecDeleteRange s i n = if n = 0 then .ret (stInvalidArgument, s)
      else if add64 i n > s.v.size then .ret (stOutOfRange, s)
      else (deletePre s i n).bind shrinkAfter := by
  unfold vecDeleteRange deletePre
  split
  · rfl
  split
  · rfl
  cases runDtors s i (add64 i n) with
  | ub w => rfl
  | ret s1 =>
    simp only [Out.ret_bind']
    cases (if add64 i n < s1.v.size then shiftLeft s1 i n else .ret s1) <;> rfl

theorem shiftLeft_setOracle (o : Nat → Status) (s : VS α) (i n : Nat) :
    shiftLeft (setOracle o s) i n = (shiftLeft s i n).bind fun s' => .ret (setOracle o s') := by
  unfold shiftLeft
  have hd : (setOracle o s).v = s.v := rfl
  rw [hd]
  cases s.v.data with
  | none => rfl
  | some b =>
    simp only [withData]
    cases memmoveCells b.cells i (add64 i n) (sub64 (sub64 s.v.size i) n) <;> rfl

theorem deletePre_setOracle (o : Nat → Status) (s : VS α) (i n : Nat) :
    deletePre (setOracle o s) i n = (deletePre s i n).bind fun s' => .ret (setOracle o s') := by
  unfold deletePre
  rw [runDtors_setOracle]
  cases runDtors s i (add64 i n) with
  | ub w => rfl
  | ret s1 =>
    simp only [Out.ret_bind']
    have hd : (setOracle o s1).v.size = s1.v.size := rfl
    rw [hd]
    split
    · rw [shiftLeft_setOracle]
      cases shiftLeft s1 i n <;> rfl
    · rfl

theorem deletePre_calls {s s' : VS α} {i n : Nat} (h : deletePre s i n = .ret s') :
    s'.w.calls = s.w.calls ∧ s'.w.oracle = s.w.oracle := by
  unfold deletePre at h
  cases h1 : runDtors s i (add64 i n) with
  | ub w => rw [h1] at h; simp at h
  | ret s1 =>
    rw [h1, Out.ret_bind'] at h
    have hk := runDtors_calls h1
    rw [← hk.1, ← hk.2]
    split at h
    · unfold shiftLeft at h
      cases hd : s1.v.data with
      | none => rw [hd] at h; simp [withData] at h
      | some b =>
        rw [hd] at h
        simp only [withData] at h
        cases hm : memmoveCells b.cells i (add64 i n) (sub64 (sub64 s1.v.size i) n) with
        | ub w => rw [hm] at h; simp at h
        | ret cs =>
          rw [hm] at h
          simp only [Out.ret_bind', Out.ret.injEq] at h
          rw [← h]; exact ⟨rfl, rfl⟩
    · simp only [Out.ret_bind', Out.ret.injEq] at h
      rw [← h]; exact ⟨rfl, rfl⟩

theorem deletePre_refuseNext {s s' : VS α} {i n : Nat} (h : deletePre s i n = .ret s') (st : Status) :
    deletePre (refuseNext s st) i n = .ret (refuseNext s' st) := by
  rw [refuseNext_eq, deletePre_setOracle, h, Out.ret_bind', refuseNext_eq, (deletePre_calls h).1,
    (deletePre_calls h).2]

theorem deletePre_ok {P : Params} {s : VS α} {a : LState α} {b : Block α} {slack : List (Cell α)}
    (R : Rep P s a b slack) {i n : Nat} (hr : i + n ≤ a.elems.length) :
    ∃ s' cells sl, deletePre s i n = .ret s' ∧
      Rep P s' { a with elems := a.elems.take i ++ a.elems.drop (i + n),
                        dead := a.dead ++ killed P ((a.elems.drop i).take n) } ⟨b.id, cells⟩ sl := by
  have hlen64 := (R.fits.mul_growth R.growth255 R.esz1).2.2
  have hlt : i + n < 18446744073709551616 := by omega
  have hadd : add64 i n = i + n := add64_eq hlt
  obtain ⟨pre, mid, suf, he, hl, hm⟩ : ∃ pre mid suf, a.elems = pre ++ mid ++ suf ∧
      pre.length = i ∧ mid.length = n := by
    refine ⟨a.elems.take i, (a.elems.drop i).take n, a.elems.drop (i + n), ?_, ?_, ?_⟩
    · rw [List.append_assoc, ← List.drop_drop, List.take_append_drop, List.take_append_drop]
    · simp; omega
    · simp; omega
  have htake : a.elems.take i = pre := by
    rw [he, List.append_assoc, ← hl]; exact List.take_left
  have hdrop : a.elems.drop (i + n) = suf := by
    rw [he, ← hl, ← hm, ← List.length_append]; exact List.drop_left
  have hmid : (a.elems.drop i).take n = mid := by
    rw [he, List.append_assoc, ← hl, List.drop_left, ← hm]; exact List.take_left
  obtain ⟨s1, e1, R1⟩ := runDtors_ok R he (lo := i) (hi := i + n) hl.symm (by omega)
  have hshift : ∃ sl2, (if i + n < s1.v.size then shiftLeft s1 i n else .ret s1) =
        .ret ⟨{ s1.v with data := some ⟨b.id, pre ++ suf ++ sl2⟩ }, s1.w⟩ ∧
        (pre ++ suf ++ sl2).length = b.cells.length := by
    have hsz : s1.v.size = (pre ++ mid ++ suf).length := by rw [← he]; exact R1.size
    by_cases h : i + n < s1.v.size
    · refine ⟨(mid ++ suf ++ slack).drop suf.length, ?_, ?_⟩
      · rw [if_pos h]
        have h2 : sub64 (sub64 s1.v.size i) n = suf.length := by
          have h3 : s1.v.size < 18446744073709551616 := by rw [R1.size]; exact hlen64
          rw [sub64_eq (a := s1.v.size) (by omega) h3, sub64_eq (by omega) (by omega), hsz]
          simp; omega
        have hc : b.cells = pre ++ mid ++ suf ++ slack := by rw [R.cells, he]
        simp only [shiftLeft, R1.data, withData, hadd, h2, hc]
        rw [← hl, ← hm, memmove_left]
        simp only [Out.ret_bind']
      · rw [R.cells, he]; simp; omega
    · have : suf = [] := by
        rw [hsz] at h
        simp at h
        exact List.eq_nil_of_length_eq_zero (by omega)
      subst this
      refine ⟨mid ++ slack, ?_, ?_⟩
      · rw [if_neg h]
        have : b = ⟨b.id, pre ++ [] ++ (mid ++ slack)⟩ := by
          have := R.cells; rw [he] at this
          cases b; simp_all
        rw [← this, ← R1.data]
      · rw [R.cells, he]; simp
  obtain ⟨sl2, e2, hlen2⟩ := hshift
  have hel : (pre ++ suf).length = a.elems.length - n := by rw [he]; simp; omega
  refine ⟨⟨{ s1.v with data := some ⟨b.id, pre ++ suf ++ sl2⟩, size := (pre ++ suf).length }, s1.w⟩,
    pre ++ suf ++ sl2, sl2, ?_, ?_⟩
  · unfold deletePre
    rw [hadd, e1]
    simp only [Out.ret_bind', e2]
    have : sub64 s1.v.size n = (pre ++ suf).length := by
      have h3 : s1.v.size = a.elems.length := R1.size
      rw [h3, sub64_eq (by omega) hlen64, hel]
    simp only [this]
  · rw [htake, hdrop, hmid]
    exact { R1 with
      size := rfl
      data := rfl
      cells := rfl
      room := by simp only [hlen2]; exact R.room
      dyn := by intro h; simp only [hlen2]; exact R.dyn h
      fits := by simp only [hel]; exact R.fits.mono (by omega)
      len := by have := R.len; simp only [hel]; omega
      alloc := by have := R1.alloc; unfold AllocOK at *; exact this }

/-- The part of `ZyanVectorPopBack` before the shrink step. -/
theorem popPre_ok {P : Params} {s : VS α} {a : LState α} {b : Block α} {slack : List (Cell α)}
    (R : Rep P s a b slack) (h0 : a.elems ≠ []) :
    ∃ s' sl, (∀ st, vecPopBack (refuseNext s st) = shrinkAfter (refuseNext s' st)) ∧
      Rep P s' { a with elems := a.elems.dropLast,
                        dead := a.dead ++ killed P a.elems.getLast?.toList } b sl := by
  obtain ⟨last, hlast⟩ : ∃ l, a.elems = a.elems.dropLast ++ [l] :=
    ⟨a.elems.getLast h0, (List.dropLast_concat_getLast h0).symm⟩
  have hgl : a.elems.getLast? = some last := by rw [hlast]; simp
  have hpos : a.elems.length ≠ 0 := by simpa using h0
  have hdl : a.elems.dropLast.length = a.elems.length - 1 := by simp
  obtain ⟨s1, e1, R1⟩ := runDtors_ok R (pre := a.elems.dropLast) (mid := [last]) (post := [])
    (by rw [List.append_nil]; exact hlast) (lo := a.elems.length - 1) (hi := a.elems.length)
    hdl.symm (by simp; omega)
  have R2 := R1.truncate (keep := a.elems.dropLast) (gone := [last]) hlast
    (n := a.elems.length - 1) hdl.symm
  refine ⟨_, _, fun st => ?_, by rw [hgl]; exact R2⟩
  have hv : (refuseNext s st).v = s.v := rfl
  have hs1 : s1.v.size = a.elems.length := R1.size
  have hsr : (refuseNext s1 st).v.size = a.elems.length := R1.size
  simp only [vecPopBack, hv, R.size]
  rw [if_neg hpos, runDtors_refuseNext e1 st, Out.ret_bind', hsr]
  rfl

end Zy
