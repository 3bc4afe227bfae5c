import Verif.Lemmas.Vector

/-!
# Helper lemmas: reachable vectors are represented, and histories
-/

namespace Zy

open Spec

variable {α : Type}

theorem Rep.abs_eq {P : Params} {s : VS α} {a : LState α} {b : Block α} {slack : List (Cell α)}
    (R : Rep P s a b slack) : absOf s = a := by
  unfold absOf
  rw [R.data, R.cap, R.dead]
  simp only
  rw [R.cells, R.size, List.take_left]

theorem Rep.contents {P : Params} {s : VS α} {a : LState α} {b : Block α} {slack : List (Cell α)}
    (R : Rep P s a b slack) : contents s = .ret a.elems := by
  unfold Zy.contents
  rw [R.data]
  simp only [withData]
  rw [R.cells, R.size]
  exact readRange_at (pre := []) (mid := a.elems) (post := slack) rfl rfl

theorem init_rep {P : Params} {w w' : World α} {cap al : Nat} {st : Status} {v : Vec α}
    (hw : Fresh w) (hr : Reliable w)
    (hP : P.allocator = some al ∧ P.growth ≤ 255 ∧ P.thr ≤ 255)
    (hc : max 1 cap * P.esz < 18446744073709551616)
    (h : vecInitEx w P.esz cap P.dtor (some al) P.growth P.thr = (st, some v, w')) :
    failed st = false ∧ ∃ b slack, Rep P ⟨v, w'⟩ ⟨[], max 1 cap, []⟩ b slack := by
  unfold vecInitEx at h
  simp only at h
  split at h
  · simp at h
  · rename_i hne
    have he : 1 ≤ P.esz := by omega
    have hg := grantedCells_eq he hc
    simp only [allocate, hr w.calls, World.log, hg, hw.2, Prod.mk.injEq, Option.some.injEq] at h
    obtain ⟨h1, h2, h3⟩ := h
    subst h2 h3
    refine ⟨by rw [← h1]; exact hr _, ⟨w.nextBlk, List.replicate (max 1 cap) none⟩,
      List.replicate (max 1 cap) none, ?_⟩
    exact {
      allocator := hP.1.symm
      growth := rfl
      shrink := rfl
      esz := rfl
      dtor := rfl
      growth1 := by omega
      growth255 := hP.2.1
      thr255 := hP.2.2
      esz1 := he
      esz64 := by
        have := Nat.le_mul_of_pos_left P.esz (show 0 < max 1 cap by omega)
        omega
      fixed := by intro h; rw [hP.1] at h; simp at h
      size := rfl
      cap := rfl
      cap1 := by simp; omega
      data := rfl
      cells := by simp
      room := by simp
      dyn := by intro _; simp
      fits := by simp [Fits]
      len := by simp
      reliable := fun k _ => hr k
      alloc := by simp [AllocOK, hP.1, replay, replayStep]
      dead := by simp [destroyedOf] }

theorem initBuffer_rep {P : Params} {w : World α} {cap : Nat} {b : Block α} {st : Status}
    {v : Vec α} (hw : Fresh w) (hr : Reliable w) (hP : P.allocator = none ∧ P.growth = 1 ∧ P.thr = 0)
    (hb : cap ≤ b.cells.length) (he : P.esz < 18446744073709551616)
    (h : vecInitBuffer P.esz (some b) cap P.dtor = (st, some v)) :
    st = stSuccess ∧ 1 ≤ cap ∧ Rep P ⟨v, w⟩ ⟨[], cap, []⟩ b b.cells := by
  unfold vecInitBuffer at h
  simp only at h
  split at h
  · simp at h
  · rename_i hne
    simp only [Prod.mk.injEq, Option.some.injEq] at h
    obtain ⟨h1, h2⟩ := h
    subst h2
    refine ⟨h1.symm, by omega, ?_⟩
    exact {
      allocator := hP.1.symm
      growth := hP.2.1.symm
      shrink := hP.2.2.symm
      esz := rfl
      dtor := rfl
      growth1 := by omega
      growth255 := by omega
      thr255 := by omega
      esz1 := by omega
      esz64 := he
      fixed := fun _ => hP.2
      size := rfl
      cap := rfl
      cap1 := by simp; omega
      data := rfl
      cells := by simp
      room := hb
      dyn := by rw [hP.1]; simp
      fits := by simp [Fits]
      len := by simp
      reliable := fun k _ => hr k
      alloc := by
        simp only [AllocOK, hP.1]
        exact ⟨hw.1, by rw [hw.2]; intro e he; simp at he⟩
      dead := by simp [hw.2] }

theorem dupCopy_ok {P P₀ : Params} {s : VS α} {a : LState α} {b : Block α} {slack : List (Cell α)}
    (R : Rep P₀ s a b slack) {d : VS α} {c : Nat} {b' : Block α} {sl' : List (Cell α)}
    (R' : Rep P d ⟨[], c, []⟩ b' sl') (hc : a.elems.length ≤ c) (he : P.esz = P₀.esz) :
    ∃ v, dupCopy d.v s.v = .ret v ∧
      v.data = some ⟨b'.id, a.elems ++ sl'.drop a.elems.length⟩ ∧
      Rep P ⟨v, d.w⟩ ⟨a.elems, c, []⟩ ⟨b'.id, a.elems ++ sl'.drop a.elems.length⟩
        (sl'.drop a.elems.length) := by
  have hread : readRange b.cells 0 s.v.size = .ret a.elems := by
    rw [R.cells, R.size]
    exact readRange_at (pre := []) (mid := a.elems) (post := slack) rfl rfl
  have hroom := R'.room
  have hcells := R'.cells
  simp only [List.nil_append] at hcells
  rw [hcells] at hroom
  simp only at hroom
  have hw : writeRange b'.cells 0 a.elems = .ret (a.elems ++ sl'.drop a.elems.length) := by
    have h1 : b'.cells = [] ++ sl'.take a.elems.length ++ sl'.drop a.elems.length := by
      rw [hcells]; simp
    rw [h1]
    have := writeRange_at (pre := []) (mid := sl'.take a.elems.length)
      (post := sl'.drop a.elems.length) (xs := a.elems) (by simp; omega)
    simpa using this
  refine ⟨{ d.v with data := some ⟨b'.id, a.elems ++ sl'.drop a.elems.length⟩, size := s.v.size },
    ?_, rfl, ?_⟩
  · simp only [dupCopy, R.data, withData, R'.data, hread, Out.ret_bind', hw]
  · have hbl : (a.elems ++ sl'.drop a.elems.length).length = b'.cells.length := by
      rw [hcells]; simp; omega
    have hf : Fits P a.elems.length := by
      have := R.fits; unfold Fits at *; rw [he]; exact this
    exact { R' with
      size := R.size
      data := rfl
      cells := rfl
      room := by simp only [hbl]; exact R'.room
      dyn := by intro h; simp only [hbl]; exact R'.dyn h
      fits := hf
      len := hc
      alloc := by have := R'.alloc; unfold AllocOK at *; exact this }

theorem duplicate_rep {P P₀ : Params} {s : VS α} {a : LState α} {b : Block α} {slack : List (Cell α)}
    (R : Rep P₀ s a b slack) {w : World α} {cap al : Nat} (hw : Fresh w) (hr : Reliable w)
    (hP : P.allocator = some al ∧ P.growth ≤ 255 ∧ P.thr ≤ 255 ∧ P.esz = P₀.esz ∧ P.dtor = P₀.dtor)
    (hg : 1 ≤ P.growth) (hc : max 1 cap * P.esz < 18446744073709551616) :
    ∃ v w' b' sl', vecDuplicateEx w s.v cap (some al) P.growth P.thr = .ret (stSuccess, some v, w') ∧
      Rep P ⟨v, w'⟩ ⟨a.elems, max 1 (max cap a.elems.length), []⟩ b' sl' ∧ b'.id = w.nextBlk := by
  have hfit := R.fits.mul_growth (g := 1) (by omega) R.esz1
  have hc' : max 1 (max cap a.elems.length) * P.esz < 18446744073709551616 := by
    rcases Nat.le_total cap a.elems.length with h | h
    · by_cases h1 : a.elems.length ≤ 1
      · have : max 1 (max cap a.elems.length) = 1 := by omega
        rw [this, hP.2.2.2.1]; have := R.esz64; omega
      · have : max 1 (max cap a.elems.length) = a.elems.length * 1 := by omega
        rw [this, hP.2.2.2.1]; exact hfit.1
    · have : max 1 (max cap a.elems.length) = max 1 cap := by omega
      rw [this]; exact hc
  have hes : s.v.esz = P.esz := by rw [R.esz, hP.2.2.2.1]
  have hdt : s.v.hasDtor = P.dtor := by rw [R.dtor, hP.2.2.2.2]
  have he1 : 1 ≤ P.esz := by rw [hP.2.2.2.1]; exact R.esz1
  have hi : vecInitEx w P.esz (max cap a.elems.length) P.dtor (some al) P.growth P.thr =
      (w.oracle w.calls,
       some { allocator := some al, growth := P.growth, shrink := P.thr, size := 0,
              cap := max 1 (max cap a.elems.length), esz := P.esz, hasDtor := P.dtor,
              data := some ⟨w.nextBlk, List.replicate (max 1 (max cap a.elems.length)) none⟩ },
       { oracle := w.oracle, calls := w.calls + 1, nextBlk := w.nextBlk + 1,
         trace := w.trace ++ [.alloc al w.nextBlk P.esz (max 1 (max cap a.elems.length))] }) := by
    unfold vecInitEx
    simp only
    rw [if_neg (by omega)]
    simp [allocate, hr w.calls, World.log, grantedCells_eq he1 hc']
  obtain ⟨_, b1, sl1, R1⟩ := init_rep hw hr ⟨hP.1, hP.2.1, hP.2.2.1⟩ hc' hi
  have hb1 := R1.data
  simp only [Option.some.injEq] at hb1
  obtain ⟨v, hv, hvd, R2⟩ := dupCopy_ok R R1 (by omega) hP.2.2.2.1
  refine ⟨v, _, _, _, ?_, R2, by simp [← hb1]⟩
  simp only [vecDuplicateEx, hes, hdt, R.size, hi, hr w.calls]
  rw [if_neg (by simp), hv]
  simp

theorem duplicateBuffer_rep {P P₀ : Params} {s : VS α} {a : LState α} {b : Block α}
    {slack : List (Cell α)} (R : Rep P₀ s a b slack) {w : World α} {cap : Nat} {b' : Block α}
    (hw : Fresh w) (hr : Reliable w)
    (hP : P.allocator = none ∧ P.growth = 1 ∧ P.thr = 0 ∧ P.esz = P₀.esz ∧ P.dtor = P₀.dtor)
    (hb : cap ≤ b'.cells.length) (hc : a.elems.length ≤ cap) (hc0 : cap ≠ 0) :
    ∃ v, vecDuplicateBuffer s.v (some b') cap = .ret (stSuccess, some v) ∧
      Rep P ⟨v, w⟩ ⟨a.elems, cap, []⟩ ⟨b'.id, a.elems ++ b'.cells.drop a.elems.length⟩
        (b'.cells.drop a.elems.length) := by
  have hes : s.v.esz = P.esz := by rw [R.esz, hP.2.2.2.1]
  have hdt : s.v.hasDtor = P.dtor := by rw [R.dtor, hP.2.2.2.2]
  have he1 : 1 ≤ P.esz := by rw [hP.2.2.2.1]; exact R.esz1
  have hi : vecInitBuffer P.esz (some b') cap P.dtor =
      (stSuccess, some { allocator := none, growth := 1, shrink := 0, size := 0, cap := cap,
                         esz := P.esz, hasDtor := P.dtor, data := some b' }) := by
    unfold vecInitBuffer
    simp only
    rw [if_neg (by omega)]
  obtain ⟨_, _, R1⟩ := initBuffer_rep hw hr ⟨hP.1, hP.2.1, hP.2.2.1⟩ hb
    (by rw [hP.2.2.2.1]; exact R.esz64) hi
  obtain ⟨v, hv, hvd, R2⟩ := dupCopy_ok R R1 hc hP.2.2.2.1
  refine ⟨v, ?_, R2⟩
  simp only [vecDuplicateBuffer, R.size, hes, hdt, hi]
  rw [if_neg (by omega), if_neg (by simp), hv]
  simp

theorem Reach.rep {P : Params} {s : VS α} (h : Reach P s) :
    ∃ b slack, Rep P s (absOf s) b slack := by
  induction h with
  | init hw hr hP hc h =>
    obtain ⟨_, b, slack, R⟩ := init_rep hw hr hP hc h
    exact ⟨b, slack, by rw [R.abs_eq]; exact R⟩
  | initBuffer hw hr hP hb he h =>
    obtain ⟨_, _, R⟩ := initBuffer_rep hw hr hP hb he h
    exact ⟨_, _, by rw [R.abs_eq]; exact R⟩
  | dup h hw hr hP hc hd ih =>
    rename_i P P₀ s w w' cap al st v
    obtain ⟨b, slack, R⟩ := ih
    by_cases hg : 1 ≤ P.growth
    · obtain ⟨v', w'', b', sl', e, R', _⟩ := duplicate_rep R hw hr hP hg hc
      rw [hd] at e
      simp only [Out.ret.injEq, Prod.mk.injEq, Option.some.injEq] at e
      rw [e.2.1, e.2.2]
      exact ⟨b', sl', by rw [R'.abs_eq]; exact R'⟩
    · simp only [vecDuplicateEx, vecInitEx] at hd
      rw [if_pos (Or.inr (by omega))] at hd
      simp at hd
  | dupBuffer h hw hr hP hb hd ih =>
    rename_i P P₀ s w cap b₁ st v
    obtain ⟨b, slack, R⟩ := ih
    by_cases hc0 : cap = 0
    · simp only [vecDuplicateBuffer, vecInitBuffer, hc0] at hd
      simp at hd
      split at hd <;> simp at hd
    by_cases hc : (absOf s).elems.length ≤ cap
    · obtain ⟨v', e, R'⟩ := duplicateBuffer_rep R hw hr hP hb hc hc0
      rw [hd] at e
      simp only [Out.ret.injEq, Prod.mk.injEq, Option.some.injEq] at e
      rw [e.2]
      exact ⟨_, _, by rw [R'.abs_eq]; exact R'⟩
    · simp only [vecDuplicateBuffer, R.size] at hd
      rw [if_pos (by omega)] at hd
      simp at hd
  | step h hd hs ih =>
    obtain ⟨b, slack, R⟩ := ih
    obtain ⟨junk, st', s'', a', b', slack', hj, hstep, hop, R'⟩ := op_ok R _ hd
    rw [hs] at hop
    simp only [Out.ret.injEq, Prod.mk.injEq] at hop
    rw [hop.2]
    exact ⟨b', slack', by rw [R'.abs_eq]; exact R'⟩

/-- Histories from a represented state. -/
theorem runVec_ok {P : Params} (ops : List (VOp α)) : ∀ {s : VS α} {a : LState α} {b : Block α}
    {slack : List (Cell α)}, Rep P s a b slack → AllInDomain P a ops →
    ∃ sts s' a' b' slack', runVec s ops = .ret (sts, s') ∧ Runs P a ops sts a' ∧
      Rep P s' a' b' slack' := by
  induction ops with
  | nil =>
    intro s a b slack R _
    exact ⟨[], s, a, b, slack, rfl, .nil a, R⟩
  | cons op ops ih =>
    intro s a b slack R hd
    cases hd with
    | cons hd ht =>
      obtain ⟨junk, st, s1, a1, b1, sl1, hj, hstep, hop, R1⟩ := op_ok R op hd
      have ht' := ht junk hj
      rw [hstep] at ht'
      obtain ⟨sts, s', a', b', sl', hrun, hruns, R'⟩ := ih R1 ht'
      refine ⟨st :: sts, s', a', b', sl', ?_, .cons junk hj hstep hruns, R'⟩
      simp [runVec, hop, hrun]

/-- A reachable state stays reachable along a history. -/
theorem Reach.run {P : Params} (ops : List (VOp α)) : ∀ {s s' : VS α} {sts : List Status},
    Reach P s → AllInDomain P (absOf s) ops → runVec s ops = .ret (sts, s') → Reach P s' := by
  induction ops with
  | nil =>
    intro s s' sts h _ hr
    simp only [runVec, Out.ret.injEq, Prod.mk.injEq] at hr
    rw [← hr.2]; exact h
  | cons op ops ih =>
    intro s s' sts h hd hr
    cases hd with
    | cons hd ht =>
      obtain ⟨b, slack, R⟩ := h.rep
      obtain ⟨junk, st, s1, a1, b1, sl1, hj, hstep, hop, R1⟩ := op_ok R op hd
      have ht' := ht junk hj
      rw [hstep] at ht'
      simp only [runVec, hop, Out.ret_bind'] at hr
      have h1 : Reach P s1 := Reach.step h hd hop
      cases hq : runVec s1 ops with
      | ub w => rw [hq] at hr; simp at hr
      | ret q =>
        rw [hq] at hr
        simp only [Out.ret_bind', Out.ret.injEq, Prod.mk.injEq] at hr
        rw [← hr.2]
        refine ih h1 ?_ hq
        rw [R1.abs_eq]; exact ht'

/-- Destroying a represented vector. -/
theorem destroy_rep {P : Params} {s : VS α} {a : LState α} {b : Block α} {slack : List (Cell α)}
    (R : Rep P s a b slack) :
    ∃ s', vecDestroy s = .ret (stSuccess, s') ∧ s'.v.data = none ∧
      destroyedOf s'.w.trace = a.dead ++ killed P a.elems ∧
      (P.allocator.isSome → replay s'.w.trace = some none) ∧
      (P.allocator = none → s'.w.calls = 0 ∧ onlyDestroys s'.w.trace) := by
  obtain ⟨s1, e1, R1⟩ := runDtors_ok R (pre := []) (mid := a.elems) (post := []) (by simp)
    (lo := 0) (hi := a.elems.length) rfl (by simp)
  simp only [vecDestroy, R.size, e1, Out.ret_bind', R1.allocator]
  have hA := R1.alloc
  cases hal : P.allocator with
  | none =>
    simp only [AllocOK, hal] at hA
    refine ⟨_, rfl, rfl, R1.dead, by simp, fun _ => hA⟩
  | some al =>
    simp only [AllocOK, hal] at hA
    have hcap : s1.v.cap ≠ 0 := by rw [R1.cap]; have := R1.cap1; omega
    simp only [R1.data, withData, deallocate, R1.reliable_now, World.log]
    rw [if_pos hcap, if_neg (by simp [R1.reliable_now]), if_neg (by simp)]
    refine ⟨_, rfl, rfl, ?_, ?_, by simp⟩
    · simp [R1.dead]
    · intro _
      simp [hA.1, replayStep, R1.cap, R1.esz]

end Zy
