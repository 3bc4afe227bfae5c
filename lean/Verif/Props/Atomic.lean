import Verif.Lemmas.Atomic

/-!
# Property theorems: atomic operations

The vocabulary (`Sequential`, `byThread`, `total`) is in `Verif.Spec.Atomic`.
-/

namespace Zy

open Zy.Spec
open scoped List

variable {w : Nat}

/-! ## C96 -/

/-- C96: for all programs of all threads there is, for every schedule, a sequential order of calls that
explains the value of the variable and all results. The orders of longer schedules extend those of shorter
ones, contain every completed call, and besides these at most the call each thread has in progress: each
call takes effect between its beginning and its return. -/
theorem C96_linearizable (v : BitVec w) (progs : List (List (AOp w))) :
    ∃ order : List Nat → List (ACall w),
      (∀ sched more, order sched <+: order (sched ++ more)) ∧
      ∀ sched, Sequential v (order sched) (sysRun (sysStart v progs) sched).value ∧
        ∀ i, returned (sysRun (sysStart v progs) sched) i <+: byThread (order sched) i ∧
          (byThread (order sched) i).length ≤ (returned (sysRun (sysStart v progs) sched) i).length + 1 ∧
          (byThread (order sched) i).map (·.1) <+: progs.getD i [] := by
  refine ⟨linLog (sysStart v progs), fun sched more => ?_, fun sched => ?_⟩
  · rw [linLog_append]; exact List.prefix_append ..
  · have I := (AtomInv.start v progs).run sched
    rw [List.nil_append] at I
    refine ⟨I.seq, fun i => ?_⟩
    unfold returned
    cases hi : (sysRun (sysStart v progs) sched).thr[i]? with
    | none =>
      have hle : progs.length ≤ i := by rw [← I.len]; exact List.getElem?_eq_none_iff.1 hi
      have e : byThread (linLog (sysStart v progs) sched) i = [] := by
        simp only [byThread, List.map_eq_nil_iff, List.filter_eq_nil_iff]
        intro c hc
        have := I.tid c hc
        simp; omega
      rw [e]
      exact ⟨List.prefix_refl _, by simp, by simp⟩
    | some t =>
      have h1 := I.res i t hi
      have h2 := I.prog i t hi
      refine ⟨?_, ?_, ?_⟩
      · rw [h1, results]; exact List.prefix_append ..
      · rw [h1, results, List.length_append]
        cases t.reg <;> simp
      · rw [List.getD_eq_getElem?_getD, h2]
        exact List.prefix_append ..

/-- Two threads; the second one runs between the intrinsic and the return of the first one. -/
example : sysRun (sysStart 5#8 [[.inc, .inc], [.dec]]) [0, 1, 0, 1, 0, 0] =
    ⟨6#8, [⟨[], none, [(.inc, 6#8), (.inc, 6#8)]⟩, ⟨[], none, [(.dec, 5#8)]⟩]⟩ := by decide

/-! ## C72 -/

/-- C72: for every number of threads with programs of increments and decrements and every schedule that
completes them, no update is lost. -/
theorem C72_no_lost_update (v : BitVec w) (progs : List (List (AOp w))) (sched : List Nat)
    (hp : ∀ p ∈ progs, ∀ op ∈ p, op = .inc ∨ op = .dec)
    (hd : sysDone (sysRun (sysStart v progs) sched)) :
    (sysRun (sysStart v progs) sched).value =
      v + BitVec.ofNat w (total (· = .inc) progs) - BitVec.ofNat w (total (· = .dec) progs) := by
  have I := (AtomInv.start v progs).run sched
  rw [List.nil_append] at I
  have hperm := I.progs_perm hd
  have hall : ∀ c ∈ linLog (sysStart v progs) sched, c.2.1 = .inc ∨ c.2.1 = .dec := by
    intro c hc
    have hm : c.2.1 ∈ progs.flatten := hperm.mem_iff.2 (List.mem_map_of_mem hc)
    obtain ⟨p, hpp, hop⟩ := List.mem_flatten.1 hm
    exact hp p hpp _ hop
  rw [seq_value I.seq hall]
  unfold total
  rw [hperm.countP_eq, hperm.countP_eq, List.countP_map, List.countP_map]
  rfl

/-- C72: concurrent increments return all values from the first to the last one, each exactly once. -/
theorem C72_increments (v : BitVec w) (progs : List (List (AOp w))) (sched : List Nat)
    (hp : ∀ p ∈ progs, ∀ op ∈ p, op = .inc) (hd : sysDone (sysRun (sysStart v progs) sched)) :
    ((List.range progs.length).flatMap fun i => (returned (sysRun (sysStart v progs) sched) i).map (·.2)) ~
      (List.range (total (· = .inc) progs)).map fun j => v + BitVec.ofNat w (j + 1) := by
  have I := (AtomInv.start v progs).run sched
  rw [List.nil_append] at I
  have hperm := I.progs_perm hd
  have hall : ∀ c ∈ linLog (sysStart v progs) sched, c.2.1 = .inc := by
    intro c hc
    have hm : c.2.1 ∈ progs.flatten := hperm.mem_iff.2 (List.mem_map_of_mem hc)
    obtain ⟨p, hpp, hop⟩ := List.mem_flatten.1 hm
    exact hp p hpp _ hop
  have hlen : total (· = .inc) progs = (linLog (sysStart v progs) sched).length := by
    unfold total
    rw [hperm.countP_eq, List.countP_map, List.countP_eq_length.2]
    intro c hc
    simp [hall c hc]
  rw [hlen, ← seq_incs I.seq hall]
  have h := (byThread_perm progs.length _ I.tid).map (·.2)
  rw [List.map_map, List.map_flatMap] at h
  have e : (byThread (linLog (sysStart v progs) sched)) = returned (sysRun (sysStart v progs) sched) :=
    funext (I.done hd).1
  rw [e] at h
  exact h

/-- C72: therefore the values returned by concurrent increments are pairwise distinct, unless there are more
increments than values. -/
theorem C72_distinct (v : BitVec w) (progs : List (List (AOp w))) (sched : List Nat)
    (hp : ∀ p ∈ progs, ∀ op ∈ p, op = .inc) (hd : sysDone (sysRun (sysStart v progs) sched))
    (hn : total (· = .inc) progs ≤ 2 ^ w) :
    ((List.range progs.length).flatMap
      fun i => (returned (sysRun (sysStart v progs) sched) i).map (·.2)).Nodup := by
  rw [(C72_increments v progs sched hp hd).nodup_iff, List.nodup_iff_pairwise_ne, List.pairwise_map]
  refine List.Pairwise.imp_of_mem ?_ (List.nodup_iff_pairwise_ne.1 List.nodup_range)
  intro a b ha hb hab heq
  have ha := List.mem_range.1 ha
  have hb := List.mem_range.1 hb
  have h1 := congrArg (fun z => z - v) heq
  simp only [BitVec.add_comm v, BitVec.add_sub_cancel] at h1
  have h2 := congrArg BitVec.toNat h1
  simp only [BitVec.toNat_ofNat] at h2
  rcases Nat.lt_or_ge (a + 1) (2 ^ w) with h3 | h3 <;> rcases Nat.lt_or_ge (b + 1) (2 ^ w) with h4 | h4
  · rw [Nat.mod_eq_of_lt h3, Nat.mod_eq_of_lt h4] at h2; omega
  · have h5 : b + 1 = 2 ^ w := by omega
    rw [h5, Nat.mod_self, Nat.mod_eq_of_lt h3] at h2; omega
  · have h5 : a + 1 = 2 ^ w := by omega
    rw [h5, Nat.mod_self, Nat.mod_eq_of_lt h4] at h2; omega
  · omega

/-- Three threads and a schedule that runs all intrinsics before all returns. -/
example : (sysRun (sysStart 254#8 [[.inc], [.inc, .inc], [.dec]]) [0, 1, 2, 1, 1, 2, 0, 1]).value =
    254#8 + 3#8 - 1#8 :=
  (C72_no_lost_update _ _ _ (by decide) (by unfold sysDone; decide)).trans rfl
example : ((List.range 2).flatMap fun i =>
    (returned (sysRun (sysStart 7#8 [[.inc, .inc], [.inc]]) [0, 1, 0, 1, 0, 0]) i).map (·.2)).Nodup :=
  C72_distinct 7#8 [[.inc, .inc], [.inc]] [0, 1, 0, 1, 0, 0] (by decide) (by unfold sysDone; decide) (by decide)

/-! ## C73 -/

/-- C73: if threads try to replace the same expected value by other values, exactly one of them gets the
expected value back, and its value is the one stored. -/
theorem C73_one_winner (e : BitVec w) (vals : List (BitVec w)) (hne : vals ≠ []) (hv : ∀ x ∈ vals, x ≠ e)
    (sched : List Nat) (hd : sysDone (sysRun (sysStart e (vals.map fun x => [.cas e x])) sched)) :
    ∃ i x, vals[i]? = some x ∧
      returned (sysRun (sysStart e (vals.map fun x => [.cas e x])) sched) i = [(.cas e x, e)] ∧
      (sysRun (sysStart e (vals.map fun x => [.cas e x])) sched).value = x ∧
      ∀ j, j < vals.length → j ≠ i → ∃ y r,
        returned (sysRun (sysStart e (vals.map fun x => [.cas e x])) sched) j = [(.cas e y, r)] ∧ r ≠ e := by
  have I := (AtomInv.start e (vals.map fun x => [.cas e x])).run sched
  rw [List.nil_append] at I
  obtain ⟨hr, hpr⟩ := I.done hd
  have hperm := I.progs_perm hd
  generalize hs : sysRun (sysStart e (vals.map fun x => [.cas e x])) sched = s at *
  generalize linLog (sysStart e (vals.map fun x => [.cas e x])) sched = l at *
  have hlen : (vals.map fun x => [AOp.cas e x]).length = vals.length := by simp
  rw [hlen] at hpr
  have hall : ∀ c ∈ l, ∃ x, x ∈ vals ∧ c.2.1 = .cas e x := by
    intro c hc
    have hm := hperm.mem_iff.2 (List.mem_map_of_mem (f := fun c : ACall w => c.2.1) hc)
    obtain ⟨p, hpp, hop⟩ := List.mem_flatten.1 hm
    obtain ⟨x, hx, rfl⟩ := List.mem_map.1 hpp
    exact ⟨x, hx, by simpa using hop⟩
  -- what each thread returned
  have hret : ∀ i x, vals[i]? = some x → ∃ r, returned s i = [(.cas e x, r)] := by
    intro i x hx
    have hi : i < vals.length := by
      rcases Nat.lt_or_ge i vals.length with h | h
      · exact h
      · rw [List.getElem?_eq_none h] at hx; cases hx
    have h := hpr i hi
    rw [List.getElem?_map, hx] at h
    simp only [Option.map_some, Option.some.injEq] at h
    cases hret : returned s i with
    | nil => rw [hret] at h; simp at h
    | cons a t =>
      rw [hret, List.map_cons] at h
      injection h with h1 h2
      have := List.map_eq_nil_iff.1 h2.symm
      subst this
      exact ⟨a.2, by rw [h1]⟩
  cases hseq : I.seq with
  | nil =>
    exfalso
    cases vals with
    | nil => exact hne rfl
    | cons x xs => simp at hperm
  | @cons _ _ op i l' h =>
    obtain ⟨x, hx, hop⟩ := hall _ (List.mem_cons_self ..)
    simp only at hop
    subst hop
    have hxe := hv x hx
    have h1 : (whole (.cas e x) e).1 = x := by simp [whole]
    have h2 : (whole (.cas e x) e).2 = e := by simp [whole]
    rw [h1] at h
    have hall' : ∀ c ∈ l', ∃ x, c.2.1 = .cas e x := by
      intro c hc
      obtain ⟨y, _, hy⟩ := hall c (by simp [hc])
      exact ⟨y, hy⟩
    have hlost := seq_cas_lost h hall' hxe
    have hkeep := seq_cas_keeps h hall' hxe
    -- the winner is the thread of the first call
    have hi : i < vals.length := by have := I.tid _ (List.mem_cons_self ..); simpa using this
    have hmem : (AOp.cas e x, e) ∈ returned s i := by
      rw [← hr i, byThread]
      simp [h2]
    obtain ⟨r, hri⟩ := hret i _ (List.getElem?_eq_getElem hi)
    rw [hri, List.mem_singleton] at hmem
    injection hmem with hm1 hm2
    injection hm1 with _ hm1
    subst hm2
    refine ⟨i, x, ?_, by rw [hri, hm1], by rw [← hkeep], ?_⟩
    · rw [List.getElem?_eq_getElem hi, hm1]
    · intro j hj hji
      obtain ⟨r, hrj⟩ := hret j _ (List.getElem?_eq_getElem hj)
      refine ⟨_, r, hrj, ?_⟩
      have hm : (AOp.cas e vals[j], r) ∈ byThread ((i, AOp.cas e x, (whole (AOp.cas e x) e).2) :: l') j := by
        rw [hr j, hrj]; simp
      simp only [byThread, List.mem_map, List.mem_filter, List.mem_cons] at hm
      obtain ⟨c, ⟨hc, hcj⟩, hcr⟩ := hm
      rcases hc with rfl | hc
      · simp at hcj; omega
      · have := hlost c hc
        rw [hcr] at this
        exact this

example : ∃ i x, [1#8, 2#8, 3#8][i]? = some x ∧
    returned (sysRun (sysStart 0#8 ([1#8, 2#8, 3#8].map fun x => [.cas 0#8 x])) [2, 0, 1, 0, 1, 2]) i =
      [(.cas 0#8 x, 0#8)] ∧
    (sysRun (sysStart 0#8 ([1#8, 2#8, 3#8].map fun x => [.cas 0#8 x])) [2, 0, 1, 0, 1, 2]).value = x ∧
    ∀ j, j < 3 → j ≠ i → ∃ y r,
      returned (sysRun (sysStart 0#8 ([1#8, 2#8, 3#8].map fun x => [.cas 0#8 x])) [2, 0, 1, 0, 1, 2]) j =
        [(.cas 0#8 y, r)] ∧ r ≠ 0#8 :=
  C73_one_winner 0#8 [1#8, 2#8, 3#8] (by decide) (by decide) _ (by unfold sysDone; decide)

end Zy
