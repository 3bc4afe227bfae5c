import Verif.Lemmas.Transfer
import Verif.Props.Examples
import Verif.Props.ListSame

/-!
# Property theorems: copying a list into a vector (C201)
-/

namespace Zy

open Spec

variable {α : Type}

/-- **C201**: after every history of a list, going through it from node to node and appending each element to a vector gives
the vector the elements of the list in their order, and in the opposite order if one goes from the tail to the head. There must
be room for them. No element of the vector is destroyed. -/
theorem C201_copy {K : Source} {dt : Bool} {s : LS α} (h : Created K dt s) (ops : List (LOp α))
    (hf : LAllFit K dt emptyDeque ops) :
    ∃ sts s' d', runList s ops = .ret (sts, s') ∧ LRuns K dt emptyDeque ops sts d' ∧
      ∀ {P : Params} {v : VS α} {pre : List (Cell α)} {n : Nat}, Reach P v → contents v = .ret pre →
        RoomFor P (vecGetCapacity v) (pre.length + d'.elems.length) → d'.elems.length ≤ n →
        ∃ v1 v2, copyForwards s' n v = .ret (stSuccess, v1) ∧ contents v1 = .ret (pre ++ d'.elems) ∧
          copyBackwards s' n v = .ret (stSuccess, v2) ∧ contents v2 = .ret (pre ++ d'.elems.reverse) ∧
          destroyedOf v1.w.trace = destroyedOf v.w.trace ∧ destroyedOf v2.w.trace = destroyedOf v.w.trace := by
  obtain ⟨sts, s', d', h1, h2, hw⟩ := copies_push h ops hf
  refine ⟨sts, s', d', h1, h2, fun {P v pre n} hv hc hr hn => ?_⟩
  obtain ⟨bl, slack, R⟩ := hv.rep
  obtain rfl := Out.ret.inj (R.contents.symm.trans hc)
  obtain ⟨v1, e1, r1, g1, k1⟩ := pushList_ok d'.elems hv hr (Nat.le_refl _)
  obtain ⟨v2, e2, r2, g2, k2⟩ := pushList_ok d'.elems.reverse hv hr (by rw [List.length_reverse]; exact Nat.le_refl _)
  obtain ⟨b1, sl1, R1⟩ := r1.rep
  obtain ⟨b2, sl2, R2⟩ := r2.rep
  exact ⟨v1, v2, (hw n v hn).1.trans e1, by rw [R1.contents, g1], (hw n v hn).2.trans e2, by rw [R2.contents, g2], k1, k2⟩

/-- **C201**: a vector in a caller buffer that is too small takes the elements at the head, or at the tail, that fit, and the
program fails with "insufficient buffer". -/
theorem C201_full {K : Source} {dt : Bool} {s : LS α} (h : Created K dt s) (ops : List (LOp α))
    (hf : LAllFit K dt emptyDeque ops) :
    ∃ sts s' d', runList s ops = .ret (sts, s') ∧ LRuns K dt emptyDeque ops sts d' ∧
      ∀ {P : Params} {v : VS α} {pre : List (Cell α)} {n : Nat}, Reach P v → contents v = .ret pre →
        P.allocator = none → Fits P (pre.length + d'.elems.length) →
        vecGetCapacity v < pre.length + d'.elems.length → d'.elems.length ≤ n →
        ∃ v1 v2, copyForwards s' n v = .ret (stInsufficient, v1) ∧
          contents v1 = .ret (pre ++ d'.elems.take (vecGetCapacity v - pre.length)) ∧
          copyBackwards s' n v = .ret (stInsufficient, v2) ∧
          contents v2 = .ret (pre ++ d'.elems.reverse.take (vecGetCapacity v - pre.length)) := by
  obtain ⟨sts, s', d', h1, h2, hw⟩ := copies_push h ops hf
  refine ⟨sts, s', d', h1, h2, fun {P v pre n} hv hc hP hfit hfull hn => ?_⟩
  obtain ⟨bl, slack, R⟩ := hv.rep
  obtain rfl := Out.ret.inj (R.contents.symm.trans hc)
  have hcap : vecGetCapacity v = (absOf v).cap := R.cap
  have hle : (absOf v).elems.length ≤ (absOf v).cap := by
    have := R.len
    omega
  rw [hcap] at hfull ⊢
  have hrev : d'.elems.reverse.length = d'.elems.length := List.length_reverse
  obtain ⟨v1, e1, r1, g1, _⟩ := pushList_full hP hfit d'.elems hv (Nat.le_refl _) hle hfull
  obtain ⟨v2, e2, r2, g2, _⟩ := pushList_full hP hfit d'.elems.reverse hv (by omega) hle (by omega)
  obtain ⟨b1, sl1, R1⟩ := r1.rep
  obtain ⟨b2, sl2, R2⟩ := r2.rep
  exact ⟨v1, v2, (hw n v hn).1.trans e1, by rw [R1.contents, g1], (hw n v hn).2.trans e2, by rw [R2.contents, g2]⟩

/-- **C201**: a new list that is filled with the elements of a vector and is given its nodes shows these elements; copied into
any vector with room it gives them back. -/
theorem C201_round_trip {K : Source} {dt : Bool} {s : LS α} (h : Created K dt s) {Pv : Params} {u : VS α} (hu : Reach Pv u)
    {xs : List (Cell α)} (hx : contents u = .ret xs) (hsmall : xs.length < 18446744073709551616)
    (hg : Serves K 0 [] (xs.map .pushBack)) {m : Nat} (hm : xs.length ≤ m) :
    ∃ s', fillList u m 0 s = .ret (stSuccess, s') ∧ forward s' = .ret xs ∧
      ∀ {P : Params} {v : VS α} {pre : List (Cell α)} {n : Nat}, Reach P v → contents v = .ret pre →
        RoomFor P (vecGetCapacity v) (pre.length + xs.length) → xs.length ≤ n →
        ∃ v', copyForwards s' n v = .ret (stSuccess, v') ∧ contents v' = .ret (pre ++ xs) := by
  obtain ⟨b, sl, R⟩ := hu.rep
  obtain rfl := Out.ret.inj (R.contents.symm.trans hx)
  have hl : (((absOf u).elems.map LOp.pushBack).map lcost).sum < 18446744073709551616 := by
    have : ((absOf u).elems.map (LOp.pushBack (α := α))).map lcost = List.replicate (absOf u).elems.length 1 := by
      rw [List.map_map, List.eq_replicate_iff]
      refine ⟨by simp, fun c hc => ?_⟩
      obtain ⟨_, _, rfl⟩ := List.mem_map.1 hc
      rfl
    rw [this, List.sum_replicate_nat]
    omega
  have hsp : ∀ op ∈ (absOf u).elems.map (LOp.pushBack (α := α)), LT.Specified op := by
    intro op hop
    obtain ⟨_, _, rfl⟩ := List.mem_map.1 hop
    trivial
  have hfit := C46_short_histories_fit K dt _ hl
  obtain ⟨sts, s', d', h1, h2, hw⟩ := C201_copy h _ hfit
  obtain ⟨_, _, d'', a1, a2, a3, _⟩ := C46_list_is_a_deque h _ hfit
  obtain ⟨rfl, rfl⟩ := Prod.mk.inj (Out.ret.inj (h1.symm.trans a1))
  obtain ⟨_, e1, e2, _⟩ := lruns_served h2 hsp hg
  obtain ⟨_, _, e3, _⟩ := lruns_served a2 hsp hg
  rw [show (emptyDeque : Deque α).elems = [] from rfl, lineRun_pushBacks, List.nil_append] at e2 e3
  rw [show (emptyDeque : Deque α).elems = [] from rfl, lineRun_pushBacks] at e1
  refine ⟨s', fillList_run hu m 0 (by omega) (by rw [List.drop_zero, h1, e1]; rfl), by rw [a3, e3], ?_⟩
  intro P v pre n hv hc hr hn
  obtain ⟨v1, _, f1, f2, _⟩ := hw hv hc (by rw [e2]; exact hr) (by rw [e2]; exact hn)
  exact ⟨v1, f1, by rw [f2, e2]⟩

/-! ## Concrete examples meeting the hypotheses -/

example := C201_copy exLDyn_created exLOps (exLOps_fit _ _)
example := C201_full exLDyn_created exLOps (exLOps_fit _ _)

/-- The list of C46 has the elements 6, 1, 5, 9 (the allocator refused the 3); they come behind the 10, 20, 30 of the vector. -/
example : ((runList exLDyn exLOps).bind fun r => (copyForwards r.2 4 exS).bind fun q => contents q.2) =
    .ret [some 10, some 20, some 30, some 6, some 1, some 5, some 9] := by decide +kernel

example : ((runList exLDyn exLOps).bind fun r => (copyBackwards r.2 4 exS).bind fun q => contents q.2) =
    .ret [some 10, some 20, some 30, some 9, some 5, some 1, some 6] := by decide +kernel

/-- A fixed vector of two slots with one element takes one more. -/
example : ((runList exLDyn exLOps).bind fun r => (copyBackwards r.2 4 exFixed).bind fun q => .ret (q.1, contents q.2)) =
    .ret (stInsufficient, .ret [some 10, some 9]) := by decide +kernel

/-- The caller buffer of `exLFix` has room for the three elements of `exS`. -/
example : ∃ s', fillList exS 3 0 exLFix = .ret (stSuccess, s') ∧ forward s' = .ret [some 10, some 20, some 30] := by
  obtain ⟨s', h1, h2, _⟩ := C201_round_trip exLFix_created exS_reach rfl (by decide)
    ⟨Or.inl (by decide), Or.inl (by decide), Or.inl (by decide), trivial⟩ (m := 3) (by decide)
  exact ⟨s', h1, h2⟩

example : ((fillList exS 3 0 exLFix).bind fun r => (copyBackwards r.2 3 exS).bind fun q => contents q.2) =
    .ret [some 10, some 20, some 30, some 30, some 20, some 10] := by decide +kernel

end Zy
