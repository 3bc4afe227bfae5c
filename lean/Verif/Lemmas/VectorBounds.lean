import Verif.Lemmas.VectorProps

/-!
# Lemmas about refused growth, fixed capacities and the number of reallocations
-/

namespace Zy

open Spec

variable {α : Type}

theorem step_fixed_cap {P : Params} (hf : P.allocator = none) (junk : List (Cell α)) (a : LState α)
    (op : VOp α) : (step P junk a op).2.cap = a.cap := by
  have hr : ∀ n c, Spec.room P a.cap n = some c → c = a.cap := by
    intro n c h
    simp only [Spec.room, hf] at h
    split at h
    · injection h with h; exact h.symm
    · simp at h
  have ht : ∀ n, trim P a.cap n = a.cap := by intro n; simp [trim, hf]
  cases op <;> simp only [step] <;> (repeat' split) <;>
    first | rfl | exact ht _ | (apply hr; assumption) | simp_all

theorem runs_fixed_cap {P : Params} (hf : P.allocator = none) {a a' : LState α} {ops : List (VOp α)}
    {sts : List Status} (h : Runs P a ops sts a') : a'.cap = a.cap := by
  induction h with
  | nil => rfl
  | cons junk hj h t ih =>
    have := congrArg (fun r => r.2.cap) h
    rw [step_fixed_cap hf] at this
    exact ih.trans this.symm

theorem fixed_grow_refused {P : Params} {s : VS α} {a : LState α} {b : Block α}
    {slack : List (Cell α)} (R : Rep P s a b slack) (hf : P.allocator = none) {need : Nat}
    (hn : a.cap < need) (hlt : need < 18446744073709551616) :
    growFor s need = .ret (stInsufficient, s) := by
  have hg := (R.fixed hf).1
  have hm : max 1 (mul64 need s.v.growth) = need := by
    rw [R.growth, hg, mul64_eq (by omega)]; omega
  simp only [growFor, shouldGrow, hm, R.cap, reallocate, R.allocator, hf]
  rw [if_pos (by simpa using hn), if_pos hn]

theorem refused_growFor {P : Params} {s : VS α} {a : LState α} {b : Block α} {slack : List (Cell α)}
    (R : Rep P s a b slack) {st : Status} (hst : failed st = true) (hdyn : P.allocator.isSome)
    {need : Nat} (hn : a.cap < need) (hf : Fits P need) :
    growFor (refuseNext s st) need = .ret (st,
      ⟨{ s.v with cap := need * P.growth },
       { (refuseNext s st).w with calls := s.w.calls + 1,
                                  trace := s.w.trace ++ [.refused (P.allocator.getD 0)] }⟩) := by
  obtain ⟨al, hal⟩ := Option.isSome_iff_exists.1 hdyn
  have hm := hf.mul_growth R.growth255 R.esz1
  have hge : need ≤ need * P.growth := Nat.le_mul_of_pos_right _ R.growth1
  have hmax : max 1 (mul64 need s.v.growth) = need * P.growth := by
    rw [R.growth, mul64_eq hm.2.1]; omega
  have hnz : ¬ need * P.growth < 1 := by omega
  have hcap := R.cap
  have hv : (refuseNext s st).v = s.v := rfl
  have ho : (refuseNext s st).w.oracle (refuseNext s st).w.calls = st := if_pos rfl
  simp only [growFor, shouldGrow, hv]
  rw [if_pos (by simp; omega), hmax]
  simp only [reallocate, hv, R.allocator, hal, hnz, if_false, reallocTo, R.data, withData, reallocBlock,
    ho, hst, if_true, World.log, Option.getD]
  rfl

/-- The state after a refused growth to capacity `c`. -/
def afterRefusal (s : VS α) (st : Status) (al c : Nat) : VS α :=
  ⟨{ s.v with cap := c },
   { (refuseNext s st).w with calls := s.w.calls + 1, trace := s.w.trace ++ [.refused al] }⟩

/-- Shrinking to fit repairs a vector after a refused growth. -/
theorem refused_repair {P : Params} {s : VS α} {a : LState α} {b : Block α} {slack : List (Cell α)}
    (R : Rep P s a b slack) {st : Status} {al : Nat} (hal : P.allocator = some al) {c : Nat}
    (hc : 1 < c) :
    ∃ s'' b'' sl'', vecShrinkToFit (afterRefusal s st al c) = .ret (stSuccess, s'') ∧
      Rep P s'' { a with cap := max 1 a.elems.length } b'' sl'' := by
  have hA := R.alloc
  simp only [AllocOK, hal] at hA
  -- the same state with the old capacity field is represented
  have R1 : Rep P ⟨s.v, (afterRefusal s st al c).w⟩ a b slack :=
    { R with
      reliable := by
        intro k hk
        have hk' : s.w.calls + 1 ≤ k := hk
        show failed (if k = s.w.calls then st else s.w.oracle k) = false
        rw [if_neg (by omega)]
        exact R.reliable k (by omega)
      alloc := by
        simp only [AllocOK, hal, afterRefusal, refuseNext]
        simp [hA.1, hA.2, replayStep]
      dead := by simp [afterRefusal, R.dead] }
  have hfit := R.fits.mul_growth (g := 1) (by omega) R.esz1
  obtain ⟨s'', b'', sl'', e, R2⟩ := reallocTo_ok R1 hal (c := max 1 a.elems.length) (by omega)
    (by
      have := R.esz64
      by_cases h0 : a.elems.length ≤ 1
      · have : max 1 a.elems.length = 1 := by omega
        rw [this]; omega
      · have : max 1 a.elems.length = a.elems.length * 1 := by omega
        rw [this]; exact hfit.1) (by omega)
  refine ⟨s'', b'', sl'', ?_, R2⟩
  have e' : reallocTo (afterRefusal s st al c) al (max 1 a.elems.length) = .ret (stSuccess, s'') := e
  simp only [vecShrinkToFit, reallocate]
  have hall : (afterRefusal s st al c).v.allocator = some al := by
    simp [afterRefusal, R.allocator, hal]
  have hsz : (afterRefusal s st al c).v.size = a.elems.length := R.size
  have hcp : (afterRefusal s st al c).v.cap = c := rfl
  rw [hall, hsz, hcp]
  simp only
  by_cases h0 : a.elems.length < 1
  · rw [if_pos h0, if_pos hc]
    have : max 1 a.elems.length = 1 := by omega
    rw [this] at e'; exact e'
  · rw [if_neg h0]
    have : max 1 a.elems.length = a.elems.length := by omega
    rw [this] at e'; exact e'

theorem pushes_calls {P : Params} (hdyn : P.allocator.isSome) (xs : List (Cell α)) :
    ∀ {s : VS α} {a : LState α} {b : Block α} {slack : List (Cell α)}, Rep P s a b slack →
    Fits P (a.elems.length + xs.length) →
    ∃ sts s' cap' b' sl' k, runVec s (xs.map .push) = .ret (sts, s') ∧
      Rep P s' { a with elems := a.elems ++ xs, cap := cap' } b' sl' ∧
      s'.w.calls = s.w.calls + k ∧
      (k = 0 → cap' = a.cap) ∧
      (1 ≤ k → P.growth ^ k * (a.cap + 1) ≤ cap' ∧ cap' ≤ P.growth * (a.elems.length + xs.length)) := by
  induction xs with
  | nil =>
    intro s a b slack R _
    refine ⟨[], s, a.cap, b, slack, 0, rfl, ?_, rfl, fun _ => rfl, by omega⟩
    simpa using R
  | cons x xs ih =>
    intro s a b slack R hf
    simp only [List.length_cons] at hf
    obtain ⟨s1, b1, sl1, e1, R1, hc1⟩ := push_calls R hdyn x (hf.mono (by omega))
    obtain ⟨sts, s', cap', b', sl', k, e2, R2, hc2, h0, hk⟩ := ih R1 (by
      have : (a.elems ++ [x]).length + xs.length = a.elems.length + (xs.length + 1) := by simp; omega
      simp only [this]; exact hf)
    simp only [List.length_append, List.length_cons, List.length_nil] at hk
    have hg := R.growth1
    refine ⟨stSuccess :: sts, s', cap', b', sl',
      (if a.elems.length + 1 ≤ a.cap then 0 else 1) + k, ?_, ?_, ?_, ?_, ?_⟩
    · simp [runVec, vecOp, e1, e2]
    · simpa using R2
    · rw [hc2, hc1]; omega
    · intro hz
      split at hz
      · rename_i hle
        rw [if_pos hle] at h0
        exact h0 (by omega)
      · omega
    · intro hge
      simp only [List.length_cons]
      by_cases hle : a.elems.length + 1 ≤ a.cap
      · simp only [hle, if_true, Nat.zero_add] at hge hk ⊢
        obtain ⟨h1, h2⟩ := hk hge
        refine ⟨h1, Nat.le_trans h2 (Nat.mul_le_mul_left _ (by omega))⟩
      · simp only [hle, if_false] at hge hk h0 ⊢
        have hmul : P.growth * (a.cap + 1) ≤ (a.elems.length + 1) * P.growth := by
          rw [Nat.mul_comm]
          exact Nat.mul_le_mul_right _ (by omega)
        by_cases hk0 : k = 0
        · subst hk0
          rw [h0 rfl]
          refine ⟨by simpa using hmul, ?_⟩
          rw [Nat.mul_comm]
          exact Nat.mul_le_mul_left _ (by omega)
        · obtain ⟨h1, h2⟩ := hk (by omega)
          refine ⟨?_, Nat.le_trans h2 (Nat.mul_le_mul_left _ (by omega))⟩
          refine Nat.le_trans ?_ h1
          rw [Nat.add_comm 1 k, Nat.pow_succ, Nat.mul_assoc]
          exact Nat.mul_le_mul_left _ (by omega)

theorem trim_bounds {P : Params} (hdyn : P.allocator.isSome) (ht : P.thr ≠ 0) (hgt : P.growth ≤ P.thr)
    (cap len : Nat) : trim P cap len ≤ max 1 (P.thr * len) := by
  unfold trim
  have h1 : len * P.growth ≤ P.thr * len := by
    rw [Nat.mul_comm P.thr]; exact Nat.mul_le_mul_left _ hgt
  have h2 : P.thr * len = len * P.thr := Nat.mul_comm _ _
  split
  · omega
  · rename_i h
    have : ¬ len * P.thr < cap := fun hh => h ⟨hdyn, ht, hh⟩
    omega

end Zy
