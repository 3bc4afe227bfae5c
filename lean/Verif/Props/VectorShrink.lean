import Verif.Lemmas.VectorShrink
import Verif.Props.Vector

/-!
# Property theorems: refused reallocations in functions that remove elements or change the capacity
-/

namespace Zy

open Spec

variable {α : Type}

/-! ## C04, the functions that change the capacity directly -/

/-- C04, the part that holds, for a growing `Resize` and for `Reserve`: when the growth is refused, the call
returns the allocator's status, the size, the elements, the live block and the destroyed elements are those of
before, and calling `ShrinkToFit` (if that succeeds) gives a vector for which everything proved for reachable
vectors holds again. Missing compared with C04: the capacity is changed. -/
theorem C04_refused_resize_partial {P : Params} {s : VS α} (h : Reach P s) {al : Nat}
    (hal : P.allocator = some al) {st : Status} (hst : failed st = true) (op : VOp α)
    (hop : (∃ n init, op = .resize n init ∧ s.v.cap < n) ∨ (∃ c, op = .reserve c ∧ s.v.cap < c))
    (hd : InDomain P (absOf s) op) :
    ∃ s', vecOp (refuseNext s st) op = .ret (st, s') ∧ vecGetSize s' = vecGetSize s ∧
      contents s' = contents s ∧ destroyedOf s'.w.trace = destroyedOf s.w.trace ∧
      replay s'.w.trace = replay s.w.trace ∧
      ∃ s'', vecShrinkToFit s' = .ret (stSuccess, s'') ∧ contents s'' = contents s ∧
        ∀ ops, AllInDomain P (absOf s'') ops → ∃ sts t a', runVec s'' ops = .ret (sts, t) ∧
          Runs P (absOf s'') ops sts a' ∧ contents t = .ret a'.elems := by
  obtain ⟨b, slack, R⟩ := h.rep
  have hA := R.alloc
  simp only [AllocOK, hal] at hA
  have key : ∃ c, 1 < c ∧ vecOp (refuseNext s st) op = .ret (st, afterRefusal s st al c) := by
    have hc1 : 1 ≤ s.v.cap := by rw [R.cap]; exact R.cap1
    have hsc : s.v.size ≤ s.v.cap := by rw [R.size, R.cap]; exact R.len
    have hv : (refuseNext s st).v = s.v := rfl
    rcases hop with ⟨n, init, rfl, hc⟩ | ⟨c, rfl, hc⟩
    · have hf : Fits P n := hd
      have hge := Nat.le_mul_of_pos_right n R.growth1
      have hm := (hf.mul_growth R.growth255 R.esz1).2.1
      refine ⟨n * P.growth, by omega, ?_⟩
      simp only [vecOp, vecResizeEx, hv]
      rw [if_neg (by omega), if_neg (by omega), Out.ret_bind', hv, if_pos (by simp [shouldGrow, hc]), R.growth, mul64_eq hm,
        refused_reallocate R hst hal (by omega)]
      simp [hst]
    · refine ⟨c, by omega, ?_⟩
      simp only [vecOp, vecReserve, hv]
      rw [if_pos hc, refused_reallocate R hst hal (by omega)]
      simp [hst]
  obtain ⟨c, hc, e⟩ := key
  obtain ⟨s'', b'', sl'', e2, R2⟩ := refused_repair R (st := st) hal hc
  refine ⟨afterRefusal s st al c, e, rfl, rfl, by simp [afterRefusal], ?_, s'', e2, ?_, ?_⟩
  · simp only [afterRefusal, replay_append_one, hA.1]; rfl
  · rw [R2.contents, R.contents]
  · intro ops hops
    rw [R2.abs_eq] at hops ⊢
    obtain ⟨sts, t, a', b', sl', hrun, hruns, R'⟩ := runVec_ok ops R2 hops
    exact ⟨sts, t, a', hrun, hruns, R'.contents⟩

example : ∃ s', vecOp (refuseNext exS0 stNoMemory) (.resize 5 (some (some 1))) = .ret (stNoMemory, s') ∧
    contents s' = contents exS0 := by
  obtain ⟨s', h1, _, h2, _⟩ := C04_refused_resize_partial exS0_reach (al := 0) rfl
    (st := stNoMemory) rfl (.resize 5 (some (some 1))) (Or.inl ⟨5, _, rfl, by decide⟩) (by show _ < _; decide)
  exact ⟨s', h1, h2⟩

/-! ## C06 with a refusing allocator -/

/-- C06 is false after a refusal: destroying the vector then passes a number of elements to the allocator that
is not the number it was last granted, because the capacity was overwritten before the allocator was asked.
For every vector that is full (a refused push) and every vector that is not (a refused `ShrinkToFit`). -/
theorem C06_refused_negation {P : Params} {s : VS α} (h : Reach P s) {al : Nat}
    (hal : P.allocator = some al) {st : Status} (hst : failed st = true) :
    (∀ x, s.v.size = s.v.cap → Fits P (s.v.size + 1) →
      ∃ s' t, vecOp (refuseNext s st) (.push x) = .ret (st, s') ∧ vecDestroy s' = .ret (stSuccess, t) ∧
        replay t.w.trace = none) ∧
    (1 ≤ s.v.size → s.v.size < s.v.cap →
      ∃ s' t, vecOp (refuseNext s st) .shrinkToFit = .ret (st, s') ∧ vecDestroy s' = .ret (stSuccess, t) ∧
        replay t.w.trace = none) := by
  obtain ⟨b, slack, R⟩ := h.rep
  have hv : (refuseNext s st).v = s.v := rfl
  have hcap := R.cap
  refine ⟨fun x hf hfit => ?_, fun h1 h2 => ?_⟩
  · have h63 : s.v.size < 9223372036854775808 := R.size ▸ R.len63
    have hge := Nat.le_mul_of_pos_right (s.v.size + 1) R.growth1
    have hgr := refused_growFor R hst (by simp [hal]) (need := s.v.size + 1) (by omega) hfit
    rw [hal] at hgr
    have hgr' : growFor (refuseNext s st) (s.v.size + 1) =
      .ret (st, afterRefusal s st al ((s.v.size + 1) * P.growth)) := hgr
    obtain ⟨t, e, _, _, hr⟩ := afterRefusal_destroy R (st := st) hal (c := (s.v.size + 1) * P.growth) (by omega)
    refine ⟨_, t, ?_, e, hr (by omega)⟩
    simp only [vecOp, vecPushBack, Src.isNull, hv, add64_eq (show s.v.size + 1 < 18446744073709551616 by omega), hgr']
    simp [hst]
  · obtain ⟨t, e, _, _, hr⟩ := afterRefusal_destroy R (st := st) hal (c := s.v.size) h1
    refine ⟨_, t, ?_, e, hr (by omega)⟩
    simp only [vecOp, vecShrinkToFit, hv]
    exact refused_reallocate R hst hal h1

example : ∃ s' t, vecOp (refuseNext exS stNoMemory) .shrinkToFit = .ret (stNoMemory, s') ∧
    vecDestroy s' = .ret (stSuccess, t) ∧ replay t.w.trace = none :=
  (C06_refused_negation exS_reach (al := 0) rfl (st := stNoMemory) rfl).2 (by decide) (by decide)

/-! ## C114 -/

/-- C114 for deletions, `PopBack` and `ShrinkToFit`: when the allocator refuses to shrink the block, the call
returns the allocator's status although elements, capacity and destroyed elements are those of a granted call
(`step` is what a list would do); the block is the old one. Destroying the vector then destroys exactly the
elements that are left. If it does not have capacity 1 without elements, `ShrinkToFit` (if granted) gives a
vector for which everything proved for reachable vectors holds again.
Missing: `Resize` and `Clear`, see `C114_resize_negation`. -/
theorem C114_removal_partial {P : Params} {s : VS α} (h : Reach P s) {al : Nat}
    (hal : P.allocator = some al) {st : Status} (hst : failed st = true) (op : VOp α)
    (hop : (P.thr ≠ 0 ∧ ∃ i n, op = .deleteRange i n ∧ n ≠ 0 ∧ i + n ≤ s.v.size ∧
        (s.v.size - n) * P.thr < s.v.cap) ∨
      (P.thr ≠ 0 ∧ op = .pop ∧ s.v.size ≠ 0 ∧ (s.v.size - 1) * P.thr < s.v.cap) ∨
      (op = .shrinkToFit ∧ (s.v.size = 0 → 1 < s.v.cap))) :
    ∃ s' b b', vecOp (refuseNext s st) op = .ret (st, s') ∧
      contents s' = .ret (step P [] (absOf s) op).2.elems ∧
      vecGetCapacity s' = (step P [] (absOf s) op).2.cap ∧
      destroyedOf s'.w.trace = (step P [] (absOf s) op).2.dead ∧
      s.v.data = some b ∧ s'.v.data = some b' ∧ b'.id = b.id ∧ b'.cells.length = b.cells.length ∧
      (∃ t, vecDestroy s' = .ret (stSuccess, t) ∧ destroyedOf t.w.trace =
        (step P [] (absOf s) op).2.dead ++ killed P (step P [] (absOf s) op).2.elems) ∧
      (1 < vecGetCapacity s' ∨ 1 ≤ vecGetSize s' →
        ∃ t, vecShrinkToFit s' = .ret (stSuccess, t) ∧ contents t = contents s' ∧
          ∀ ops, AllInDomain P (absOf t) ops → ∃ sts u a', runVec t ops = .ret (sts, u) ∧
            Runs P (absOf t) ops sts a' ∧ contents u = .ret a'.elems) := by
  obtain ⟨b, slack, R⟩ := h.rep
  have key : ∃ s1 b1 sl1 c0, Rep P s1 { (step P [] (absOf s) op).2 with cap := c0 } b1 sl1 ∧ b1.id = b.id ∧
      b1.cells.length = b.cells.length ∧ 1 ≤ (step P [] (absOf s) op).2.cap ∧
      vecOp (refuseNext s st) op = .ret (st, afterRefusal s1 st al (step P [] (absOf s) op).2.cap) := by
    have hv : (refuseNext s st).v = s.v := rfl
    rcases hop with ⟨ht, i, n, rfl, hn, hin, hc⟩ | ⟨ht, rfl, hn, hc⟩ | ⟨rfl, hc⟩
    · have hlen64 := (R.fits.mul_growth R.growth255 R.esz1).2.2
      have hsz := R.size
      obtain ⟨s1, cells, sl, e1, R1⟩ := deletePre_ok R (i := i) (n := n) (by omega)
      have hl : ((absOf s).elems.take i ++ (absOf s).elems.drop (i + n)).length = s.v.size - n := by
        rw [hsz]; simp; omega
      have hstep : step P [] (absOf s) (.deleteRange i n) = (stSuccess,
          { elems := (absOf s).elems.take i ++ (absOf s).elems.drop (i + n),
            cap := max 1 ((s.v.size - n) * P.growth),
            dead := (absOf s).dead ++ killed P (((absOf s).elems.drop i).take n) }) := by
        simp only [step]
        rw [if_neg hn, if_neg (by omega), ← hsz, trim, if_pos ⟨by simp [hal], ht, by rw [← R.cap]; exact hc⟩]
      rw [hstep]
      refine ⟨s1, ⟨b.id, cells⟩, sl, _, R1, rfl, ?_, by simp only; omega, ?_⟩
      · rw [R1.dyn (by simp [hal]), R.dyn (by simp [hal])]
      · simp only [vecOp]
        rw [vecDeleteRange_eq, if_neg hn, add64_eq (by omega), hv, if_neg (by omega), deletePre_refuseNext e1,
          Out.ret_bind', refused_shrinkAfter R1 hst hal ht (by simp only [hl]; rw [← R.cap]; exact hc)]
        simp only [hl]
    · have hsz := R.size
      have h0 : (absOf s).elems ≠ [] := by intro h; rw [h] at hsz; simp at hsz; exact hn hsz
      obtain ⟨s1, sl, e1, R1⟩ := popPre_ok R h0
      have hl : (absOf s).elems.dropLast.length = s.v.size - 1 := by rw [hsz]; simp
      have hstep : step P [] (absOf s) .pop = (stSuccess,
          { elems := (absOf s).elems.dropLast,
            cap := max 1 ((s.v.size - 1) * P.growth),
            dead := (absOf s).dead ++ killed P (absOf s).elems.getLast?.toList }) := by
        simp only [step]
        rw [if_neg h0, ← hsz, trim, if_pos ⟨by simp [hal], ht, by rw [← R.cap]; exact hc⟩]
      rw [hstep]
      refine ⟨s1, b, sl, _, R1, rfl, rfl, by simp only; omega, ?_⟩
      simp only [vecOp]
      rw [e1, refused_shrinkAfter R1 hst hal ht (by simp only [hl]; rw [← R.cap]; exact hc)]
      simp only [hl]
    · have hsz := R.size
      have hstep : step P [] (absOf s) .shrinkToFit =
          (stSuccess, { absOf s with cap := max 1 s.v.size }) := by
        simp [step, hal, hsz]
      rw [hstep]
      refine ⟨s, b, slack, _, R, rfl, rfl, by simp only; omega, ?_⟩
      simp only [vecOp, vecShrinkToFit, hv]
      by_cases h0 : s.v.size = 0
      · have h1 := refused_reallocate R hst hal (c := 1) (by omega)
        have ha : (refuseNext s st).v.allocator = some al := by rw [hv, R.allocator, hal]
        rw [h0]
        simp only [reallocate, ha] at h1 ⊢
        rw [if_neg (by omega)] at h1
        rw [if_pos (by omega), hv, if_pos (hc h0), h1]
        rfl
      · rw [show max 1 s.v.size = s.v.size by omega]
        exact refused_reallocate R hst hal (by omega)
  obtain ⟨s1, b1, sl1, c0, R1, hid, hlen, hcap, e⟩ := key
  obtain ⟨f1, f2, f3, f4⟩ := afterRefusal_facts R1 (st := st) (al := al) (c := (step P [] (absOf s) op).2.cap)
  obtain ⟨t, ht, _, hd, _⟩ := afterRefusal_destroy R1 (st := st) hal hcap
  refine ⟨_, b, b1, e, f1, f4, f2, R.data, f3, hid, hlen, ⟨t, ht, hd⟩, ?_⟩
  intro hor
  obtain ⟨t, bt, slt, e2, R2⟩ := refused_repair' R1 (st := st) hal (c := (step P [] (absOf s) op).2.cap) (by
    rcases hor with h | h
    · exact Or.inl h
    · exact Or.inr (by rw [← R1.size]; exact h))
  refine ⟨t, e2, by rw [R2.contents, f1], ?_⟩
  intro ops hops
  rw [R2.abs_eq] at hops ⊢
  obtain ⟨sts, u, a', b', sl', hrun, hruns, R'⟩ := runVec_ok ops R2 hops
  exact ⟨sts, u, a', hrun, hruns, R'.contents⟩

/-- C114 is false for `Resize` (and `Clear`, which is `Resize` to 0): for every vector with an allocator and
every smaller size that leads to shrinking, a refusal makes the call return after it has destroyed the elements
behind the new size, but before it has forgotten them. The vector still counts them, the capacity may be smaller
than the size, and destroying the vector destroys them a second time. -/
theorem C114_resize_negation {P : Params} {s : VS α} (h : Reach P s) {al : Nat}
    (hal : P.allocator = some al) {st : Status} (hst : failed st = true) {n : Nat} (init : Option (Cell α))
    (hn : n < s.v.size) (ht : P.thr ≠ 0) (hc : n * P.thr < s.v.cap) (h0 : n = 0 → 1 < s.v.cap) :
    ∃ s', vecOp (refuseNext s st) (.resize n init) = .ret (st, s') ∧
      (n = 0 → vecOp (refuseNext s st) .clear = .ret (st, s')) ∧
      contents s' = contents s ∧ vecGetCapacity s' = max 1 (n * P.growth) ∧
      destroyedOf s'.w.trace = destroyedOf s.w.trace ++ killed P ((absOf s).elems.drop n) ∧
      ∃ t, vecDestroy s' = .ret (stSuccess, t) ∧ destroyedOf t.w.trace =
        destroyedOf s.w.trace ++ killed P ((absOf s).elems.drop n) ++ killed P (absOf s).elems := by
  obtain ⟨b, slack, R⟩ := h.rep
  have hsz := R.size
  have htl : ((absOf s).elems.take n).length = n := by simp; omega
  obtain ⟨s1, e1, R1⟩ := runDtors_ok R (pre := (absOf s).elems.take n) (mid := (absOf s).elems.drop n)
    (post := []) (by simp) (lo := n) (hi := s.v.size) htl.symm (by simp; omega)
  have hf := R.fits.mono (show n ≤ _ by omega)
  have hm := (hf.mul_growth R.growth255 R.esz1).2.1
  have htm := (hf.mul_growth R.thr255 R.esz1).2.1
  have hg1 := R.growth1
  have hv : (refuseNext s st).v = s.v := rfl
  have hv1 : (refuseNext s1 st).v = s1.v := rfl
  have hcap1 : s1.v.cap = s.v.cap := by rw [R1.cap, R.cap]
  have hre : reallocate (refuseNext s1 st) (n * P.growth) =
      .ret (st, afterRefusal s1 st al (max 1 (n * P.growth))) := by
    by_cases hz : n = 0
    · have h1 := refused_reallocate R1 hst hal (c := 1) (by omega)
      have ha : (refuseNext s1 st).v.allocator = some al := by rw [hv1, R1.allocator, hal]
      subst hz
      rw [Nat.zero_mul]
      simp only [reallocate, ha] at h1 ⊢
      rw [if_neg (by omega)] at h1
      rw [if_pos (by omega), hv1, if_pos (by rw [hcap1]; exact h0 rfl), h1]
      rfl
    · have hge := Nat.le_mul_of_pos_right n hg1
      rw [show max 1 (n * P.growth) = n * P.growth by omega]
      exact refused_reallocate R1 hst hal (by omega)
  have e : ∀ i : Src α, vecResizeEx (refuseNext s st) n i =
      .ret (st, afterRefusal s1 st al (max 1 (n * P.growth))) := by
    intro i
    simp only [vecResizeEx, hv]
    rw [if_neg (by omega), if_pos hn, runDtors_refuseNext e1, Out.ret_bind', hv1, R1.growth, R1.shrink, hcap1,
      mul64_eq hm, if_pos (by simp only [shouldShrink, mul64_eq htm]; simp [ht, hc]), hre]
    simp [hst]
  obtain ⟨f1, f2, f3, f4⟩ := afterRefusal_facts R1 (st := st) (al := al) (c := max 1 (n * P.growth))
  obtain ⟨t, hd1, _, hd2, _⟩ := afterRefusal_destroy R1 (st := st) hal (c := max 1 (n * P.growth)) (by omega)
  refine ⟨_, e _, ?_, by rw [f1, R.contents], f4, f2, t, hd1, hd2⟩
  intro hz
  have := e .null
  rw [hz] at this ⊢
  exact this

/-- Deleting all three elements of a vector of capacity four. -/
example : ∃ s', vecOp (refuseNext exS stNoMemory) (.deleteRange 0 3) = .ret (stNoMemory, s') ∧
    contents s' = .ret [] ∧ destroyedOf s'.w.trace = [some 10, some 20, some 30] := by
  obtain ⟨s', _, _, h1, h2, _, h3, _⟩ := C114_removal_partial exS_reach (al := 0) rfl (st := stNoMemory) rfl
    (.deleteRange 0 3) (Or.inl ⟨by decide, 0, 3, rfl, by decide, by decide, by decide⟩)
  exact ⟨s', h1, h2, h3⟩

/-- Clearing the vector 10, 20, 30 with a refusing allocator and destroying it destroys everything twice. -/
example : ∃ s' t, vecOp (refuseNext exS stNoMemory) .clear = .ret (stNoMemory, s') ∧
    vecDestroy s' = .ret (stSuccess, t) ∧
    destroyedOf t.w.trace = [some 10, some 20, some 30, some 10, some 20, some 30] := by
  obtain ⟨s', _, h1, _, _, _, t, h2, h3⟩ := C114_resize_negation exS_reach (al := 0) rfl (st := stNoMemory) rfl
    (n := 0) none (by decide) (by decide) (by decide) (by decide)
  exact ⟨s', t, h1 rfl, h2, h3⟩

end Zy
