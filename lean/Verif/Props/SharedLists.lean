import Verif.Lemmas.SharedLists

/-!
# Property theorems about lists that share the memory and the allocators (C162)

The specification (`Spec/SharedLists`): a program with several lists is a program with several queues. Requests
for memory may be refused at any time; memory is always taken back.
-/

namespace Zy

open Spec

variable {α : Type}

/-- C162: whatever a program does with several lists that live in the same memory, it is what it would do with
separate queues: the calls return the same statuses, every list shows the elements of its queue in both
directions, and the destructors receive the same elements in the same order. No call is undefined. The nodes
that are allocated are exactly those that can be reached from the lists, each once. -/
theorem C162_shared_lists {w : LWorld α} (hw : LFresh w) (hf : FreesSucceed w) (ops : List (SLOp α))
    (hs : SLSizes ops) (hc : (ops.map slcost).sum < 18446744073709551616) :
    ∃ sts h d, runSL ⟨[], fun _ => none, w⟩ ops = .ret (sts, h) ∧ SLRuns w.allocSt noDeques ops sts d ∧
      ShowsAll h d ∧ lDestroyed h.w.trace = d.dead ∧
      ∃ L, liveNodes h.w.trace = some L ∧ L.Nodup ∧ ∀ x, x ∈ L ↔ NodeOf h x := by
  obtain ⟨sts, h, d, chs, h1, h2, I, _⟩ := runSL_ok ops (SLInv.empty hw hf) hs (B := 0)
    (by intro i dt es hg; cases hg) (by omega)
  exact ⟨sts, h, d, h1, h2, I.shows, I.dead, I.nodes⟩

/-- C162: a call for one list leaves all others as they were: their structures are the same, and walking along
them shows the same elements. -/
theorem C162_others_unchanged {w : LWorld α} (hw : LFresh w) (hf : FreesSucceed w) (ops : List (SLOp α))
    (op : SLOp α) (hs : SLSizes (ops ++ [op])) (hc : ((ops ++ [op]).map slcost).sum < 18446744073709551616) :
    ∃ sts h st h', runSL ⟨[], fun _ => none, w⟩ ops = .ret (sts, h) ∧ slOp h op = .ret (st, h') ∧
      ∀ j l, op.target ≠ some j → h.get j = some l → h'.get j = some l ∧
        forward (h'.with l) = forward (h.with l) ∧ backward (h'.with l) = backward (h.with l) := by
  rw [List.map_append, List.sum_append] at hc
  have hc : (ops.map slcost).sum + slcost op < 18446744073709551616 := by simpa using hc
  obtain ⟨sts, h, d, chs, h1, h2, I, hB⟩ := runSL_ok ops (SLInv.empty hw hf)
    (fun esz dt a e => hs esz dt a (List.mem_append_left _ e)) (B := 0) (by intro i dt es hg; cases hg) (by omega)
  obtain ⟨junk, h', chs', hj, h3, I'⟩ := slOp_ok I op
    (fun esz dt a e => hs esz dt a (by rw [e]; simp)) hB (by omega)
  refine ⟨sts, h, _, h', h1, h3, fun j l hne hg => ?_⟩
  have hlt : j < h.lists.length := by
    by_cases hlt : j < h.lists.length
    · exact hlt
    · unfold LHeap.get at hg
      rw [List.getElem?_eq_none (by omega)] at hg; cases hg
  have hg' : h'.get j = some l := (slOp_other h3 hne hlt).trans hg
  have hd := slstep_other w.allocSt junk d op hne (I.len ▸ hlt)
  have s1 := I.shows.2 j
  have s2 := I'.shows.2 j
  rw [hg] at s1
  rw [hg', hd] at s2
  cases hdj : d.get j with
  | none => rw [hdj] at s1; exact s1.elim
  | some p =>
    rw [hdj] at s1 s2
    exact ⟨hg', by rw [s2.1, s1.1], by rw [s2.2.1, s1.2.1]⟩

/-- C162: when all lists have been destroyed, all memory has been given back, to the allocator it came from and
with the right size. -/
theorem C162_nothing_left {w : LWorld α} (hw : LFresh w) (hf : FreesSucceed w) (ops : List (SLOp α))
    (hs : SLSizes ops) (hc : (ops.map slcost).sum < 18446744073709551616) :
    ∃ sts h, runSL ⟨[], fun _ => none, w⟩ ops = .ret (sts, h) ∧
      ((∀ o ∈ h.lists, o = none) → liveNodes h.w.trace = some []) := by
  obtain ⟨sts, h, d, h1, _, _, _, L, hL, _, hm⟩ := C162_shared_lists hw hf ops hs hc
  refine ⟨sts, h, h1, fun hall => ?_⟩
  cases L with
  | nil => exact hL
  | cons x L =>
    obtain ⟨i, l, k, hi, _⟩ := (hm x).1 (List.mem_cons_self ..)
    unfold LHeap.get at hi
    cases ho : h.lists[i]? with
    | none => rw [ho] at hi; cases hi
    | some o => rw [ho, hall o (List.mem_of_getElem? ho)] at hi; cases hi

/-! ## Examples -/

/-- Two lists with nodes of different sizes and different allocators. The fourth request for a node is refused. -/
def exSLW : LWorld Nat := ⟨fun k => if k = 3 then stNoMemory else stSuccess, fun _ => stSuccess, 0, 0, 0, []⟩

def exSLOps : List (SLOp Nat) :=
  [.create 8 true 0, .create 4 false 1, .on 0 (.pushBack (some 1)), .on 1 (.pushBack (some 2)),
   .on 0 (.pushFront (some 3)), .on 1 (.pushBack (some 4)), .copyBack 1 0 0, .copyFront 0 1 0, .on 0 .popBack,
   .destroy 1, .on 1 .popBack, .on 0 (.resize 3 (some (some 7)))]

theorem exSLOps_sizes : SLSizes exSLOps := by
  intro esz dt a h
  simp only [exSLOps, List.mem_cons, List.not_mem_nil, SLOp.create.injEq, reduceCtorEq, or_false] at h
  omega

example : ∃ sts h d, runSL ⟨[], fun _ => none, exSLW⟩ exSLOps = .ret (sts, h) ∧
    SLRuns exSLW.allocSt noDeques exSLOps sts d ∧ ShowsAll h d ∧ lDestroyed h.w.trace = d.dead ∧
    ∃ L, liveNodes h.w.trace = some L ∧ L.Nodup ∧ ∀ x, x ∈ L ↔ NodeOf h x :=
  C162_shared_lists ⟨rfl, rfl, rfl⟩ (fun _ => failed_success) exSLOps exSLOps_sizes (by decide)

/-- What was returned, if anything. -/
def Out.toOption' {β : Type} : Out β → Option β
  | .ret x => some x
  | .ub _ => none

/-- Which calls failed, the elements of the lists and the live nodes, for evaluation. -/
structure SLShow where
  failures : List Bool
  elems : List (Option (List (Option Nat)))
  live : Option (List (Nat × Nat × Nat))
deriving DecidableEq

/-- What the final state of a program shows. -/
def slshow (r : Out (List Status × LHeap Nat)) : Option SLShow :=
  match r with
  | .ret q => some ⟨q.1.map failed, q.2.lists.map (fun o => o.bind fun l => (forward (q.2.with l)).toOption'),
      liveNodes q.2.w.trace⟩
  | .ub _ => none

example : slshow (runSL ⟨[], fun _ => none, exSLW⟩ (exSLOps.take 9)) =
    some ⟨[false, false, false, false, false, true, false, false, false],
      [some [some 2, some 3], some [some 2, some 3]],
      some [(0, 4, 24), (1, 3, 20), (0, 2, 24), (1, 1, 20)]⟩ := by decide +kernel

example : slshow (runSL ⟨[], fun _ => none, exSLW⟩ exSLOps) =
    some ⟨[false, false, false, false, false, true, false, false, false, false, true, false],
      [some [some 2, some 3, some 7], none], some [(0, 5, 24), (0, 4, 24), (0, 2, 24)]⟩ := by decide +kernel

example : ∃ sts h st h', runSL ⟨[], fun _ => none, exSLW⟩ exSLOps = .ret (sts, h) ∧
    slOp h (.on 0 .popFront) = .ret (st, h') ∧
    ∀ j l, (SLOp.on 0 .popFront : SLOp Nat).target ≠ some j → h.get j = some l → h'.get j = some l ∧
      forward (h'.with l) = forward (h.with l) ∧ backward (h'.with l) = backward (h.with l) :=
  C162_others_unchanged ⟨rfl, rfl, rfl⟩ (fun _ => failed_success) exSLOps _ (by
    intro esz dt a h
    rcases List.mem_append.1 h with h | h
    · exact exSLOps_sizes esz dt a h
    · cases h with | tail _ h => cases h) (by decide)

example : slshow (runSL ⟨[], fun _ => none, exSLW⟩ (exSLOps ++ [.destroy 0])) =
    some ⟨[false, false, false, false, false, true, false, false, false, false, true, false, false],
      [none, none], some []⟩ := by decide +kernel

end Zy
