import Verif.Lemmas.ListNodes
import Verif.Props.List

/-!
# Property theorems about the nodes of lists (C181)

`Spec.track` says to which position an operation moves an element of a queue, or that it removes the element. A
caller gets the node of a position by walking from the head (`nodeAt`) and reads the element through it
(`listGet`).
-/

namespace Zy

open Spec

variable {α : Type}

/-- The state after a history, for evaluation. -/
def afterList (s : LS Nat) (ops : List (LOp Nat)) : LS Nat :=
  match runList s ops with
  | .ret r => r.2
  | .ub _ => s

/-- Pushes at both ends and an assignment. -/
def exNOps : List (LOp Nat) :=
  [.pushBack (some 1), .pushFront (some 2), .pushBack (some 3), .pushBack (some 4), .set 1 (some 5)]

/-! ## C181: nodes stay where they are -/

/-- After every history, a call moves no node: if the element at position `k` is afterwards at position `k'`, the
node there is the same, and the element read through it is the same unless the call assigned to it. If the call
removed the element, its node is at no position any more. -/
theorem C181_call {K : Source} {dt : Bool} {s0 s s' : LS α} (h : Created K dt s0) (ops : List (LOp α)) (op : LOp α)
    (hf : LAllFit K dt emptyDeque (ops ++ [op])) {sts : List Status} (hr : runList s0 ops = .ret (sts, s))
    {st : Status} (hs : listOp s op = .ret (st, s')) {k a : Nat} (hk : nodeAt s k = .ret (some a)) :
    (∀ k', track (listGetSize s).2 (!failed st) k op = some k' →
      nodeAt s' k' = .ret (some a) ∧ ((∀ v, op ≠ .set k v) → listGet s' (some a) = listGet s (some a))) ∧
    (track (listGetSize s).2 (!failed st) k op = none → ∀ j, nodeAt s' j ≠ .ret (some a)) := by
  obtain ⟨ch, fs, d, ch', fs', d', R, R', hc⟩ := late_call h hf hr hs
  rw [nodeAt_ok R] at hk
  obtain ⟨x, hx, rfl⟩ : ∃ x, ch[k]? = some x ∧ x.1 = a := by
    cases hx : ch[k]? with
    | none => rw [hx] at hk; cases hk
    | some x => rw [hx] at hk; cases hk; exact ⟨x, rfl, rfl⟩
  have hz : (listGetSize s).2 = ch.length := R.ends.size
  rw [hz]
  obtain ⟨c1, c2⟩ := hc k x hx
  refine ⟨fun k' hk' => ⟨?_, fun hv => ?_⟩, fun hn j hj => c2 hn ?_⟩
  · rw [nodeAt_ok R', (c1 k' hk').1]
  · obtain ⟨n, hn, hd⟩ := seg_data R.core.seg hx
    obtain ⟨n', hn', hd'⟩ := seg_data R'.core.seg ((c1 k' hk').2 hv)
    rw [get_of_mem hn, get_of_mem hn', hd, hd']
  · rw [nodeAt_ok R'] at hj
    cases hy : ch'[j]? with
    | none => rw [hy] at hj; cases hj
    | some y =>
      rw [hy] at hj
      rw [← show y.1 = x.1 by cases y; cases hj; rfl]
      exact List.mem_map_of_mem (List.mem_of_getElem? hy)

theorem exNOps_fit (K : Source) (dt : Bool) (op : LOp Nat) (h : lcost op < 100) :
    LAllFit K dt emptyDeque (exNOps ++ [op]) :=
  C46_short_histories_fit K dt _ (by
    simp only [exNOps, List.cons_append, List.nil_append, List.map, List.sum_cons, List.sum_nil, lcost] at h ⊢
    omega)

/-- Assignment, push at the front, and removal: the node of the last element stays. -/
example : nodeAt (afterList exLDyn exNOps) 1 = .ret (some 0) ∧
    nodeAt (afterList exLDyn (exNOps ++ [.pushFront (some 9)])) 2 = .ret (some 0) ∧
    nodeAt (afterList exLDyn (exNOps ++ [.pushFront (some 9), .popFront, .popFront])) 0 = .ret (some 0) ∧
    listGet (afterList exLDyn (exNOps ++ [.pushFront (some 9), .popFront, .popFront])) (some 0) = .ret (some 5) := by
  decide +kernel

example : (∀ k', track 3 true 1 (.pushFront (some 9) : LOp Nat) = some k' → k' = 2) ∧
    track 3 true 2 (.popBack : LOp Nat) = none ∧ track 3 true 1 (.popBack : LOp Nat) = some 1 ∧
    track 3 true 1 (.resize 1 none : LOp Nat) = none ∧ track 3 false 1 (.pushFront (some 9) : LOp Nat) = some 1 := by
  decide

/-- A node of a list with an allocator that is removed by a call is given back: to read through it is then a use
after free, now and after any further calls. No later node has its address. -/
theorem C181_removed {answer : Nat → Status} {dt : Bool} {s0 s s' : LS α} (h : Created (.dynamic answer) dt s0)
    (ops : List (LOp α)) (op : LOp α) (hf : LAllFit (.dynamic answer) dt emptyDeque (ops ++ [op]))
    {sts : List Status} (hr : runList s0 ops = .ret (sts, s)) {st : Status} (hs : listOp s op = .ret (st, s'))
    {k a : Nat} (hk : nodeAt s k = .ret (some a)) (hn : track (listGetSize s).2 (!failed st) k op = none) :
    listGet s' (some a) = .ub .uaf ∧
      ∀ more sts' s'', runList s' more = .ret (sts', s'') → listGet s'' (some a) = .ub .uaf := by
  obtain ⟨ch, fs, d, ch', fs', d', R, R', hc⟩ := late_call h hf hr hs
  rw [nodeAt_ok R] at hk
  obtain ⟨x, hx, rfl⟩ : ∃ x, ch[k]? = some x ∧ x.1 = a := by
    cases hx : ch[k]? with
    | none => rw [hx] at hk; cases hk
    | some x => rw [hx] at hk; cases hk; exact ⟨x, rfl, rfl⟩
  have hz : (listGetSize s).2 = ch.length := R.ends.size
  rw [hz] at hn
  have h1 : NoRevive s0 s := runList_noRevive ops s0 _ hr
  have h2 : NoRevive s s' := listOp_noRevive s op _ hs
  have hg : s'.mem x.1 = none := gone_of_not_mem R' (h2.1 (h1.1 (created_allLive h))) ((hc k x hx).2 hn)
  obtain ⟨n, hm, _⟩ := seg_data R.core.seg hx
  have hb : x.1 < s.w.nextBlk := by
    obtain ⟨_, _, _, _, _, _, h6, _⟩ := R.core.src
    refine Nat.lt_of_not_le fun hle => ?_
    rw [h6 _ hle] at hm
    cases hm
  refine ⟨get_gone hg, fun more sts' s'' hm' => get_gone ?_⟩
  exact (runList_noRevive more s' _ hm').2.2 _ (Nat.lt_of_lt_of_le hb h2.2.1) hg

/-- The node of the third of three elements, popped, and then two more elements pushed. -/
example : nodeAt (afterList exLDyn exNOps) 2 = .ret (some 2) ∧
    listGet (afterList exLDyn exNOps) (some 2) = .ret (some 4) ∧
    track 3 true 2 (.popBack : LOp Nat) = none ∧
    listGet (afterList exLDyn (exNOps ++ [.popBack])) (some 2) = .ub .uaf ∧
    listGet (afterList exLDyn (exNOps ++ [.popBack, .pushBack (some 7), .pushFront (some 8)])) (some 2) = .ub .uaf := by
  decide +kernel

/-- The same does not hold for a list on a caller buffer: there the node removed last is the next to be used. After a
pop, a push at either end succeeds and puts the new element into the node that the pop removed. -/
theorem C181_caller_buffer {n : Nat} {dt : Bool} {s0 s s1 s2 : LS α} (h : Created (.fixed n) dt s0)
    (ops : List (LOp α)) (hf : LAllFit (.fixed n) dt emptyDeque ops) {sts : List Status}
    (hr : runList s0 ops = .ret (sts, s)) (hne : 0 < (listGetSize s).2) (x : Cell α) {st1 st2 : Status} :
    (listOp s .popBack = .ret (st1, s1) → listOp s1 (.pushBack x) = .ret (st2, s2) →
      st2 = stSuccess ∧ (listGetTail s2).2 = (listGetTail s).2) ∧
    (listOp s .popBack = .ret (st1, s1) → listOp s1 (.pushFront x) = .ret (st2, s2) →
      st2 = stSuccess ∧ (listGetHead s2).2 = (listGetTail s).2) ∧
    (listOp s .popFront = .ret (st1, s1) → listOp s1 (.pushBack x) = .ret (st2, s2) →
      st2 = stSuccess ∧ (listGetTail s2).2 = (listGetHead s).2) ∧
    (listOp s .popFront = .ret (st1, s1) → listOp s1 (.pushFront x) = .ret (st2, s2) →
      st2 = stSuccess ∧ (listGetHead s2).2 = (listGetHead s).2) := by
  obtain ⟨sts1, s1', ch, fs, d, h1, h2, R⟩ := runList_ok (freeFor_ok (.fixed n) s0.l) ops (created_ok h) hf
  obtain ⟨rfl, rfl⟩ : sts1 = sts ∧ s1' = s := by rw [h1] at hr; cases hr; exact ⟨rfl, rfl⟩
  have ha : s1'.l.allocator = none := R.core.src.1
  have hl : 0 < ch.length := by rw [← R.ends.size]; exact hne
  have hc : ch ≠ [] := fun e => by rw [e] at hl; cases hl
  obtain ⟨t, ht⟩ : ∃ t, s1'.l.tail = some t := by
    rw [R.ends.tail, ← List.dropLast_concat_getLast hc, lastOf_concat]
    exact ⟨_, rfl⟩
  obtain ⟨q, hq⟩ : ∃ q, s1'.l.head = some q := by
    rw [R.ends.head]
    cases ch with
    | nil => exact absurd rfl hc
    | cons y ys => exact ⟨_, rfl⟩
  simp only [listGetTail, listGetHead]
  refine ⟨fun e1 e2 => ?_, fun e1 e2 => ?_, fun e1 e2 => ?_, fun e1 e2 => ?_⟩
  · obtain ⟨h3, h4⟩ := popBack_buffer s1' ha (by rw [ht]; rfl) _ e1
    rw [ht] at h4 ⊢
    exact pushBack_buffer s1 t x h3 h4 _ e2
  · obtain ⟨h3, h4⟩ := popBack_buffer s1' ha (by rw [ht]; rfl) _ e1
    rw [ht] at h4 ⊢
    exact pushFront_buffer s1 t x h3 h4 _ e2
  · obtain ⟨h3, h4⟩ := popFront_buffer s1' ha (by rw [hq]; rfl) _ e1
    rw [hq] at h4 ⊢
    exact pushBack_buffer s1 q x h3 h4 _ e2
  · obtain ⟨h3, h4⟩ := popFront_buffer s1' ha (by rw [hq]; rfl) _ e1
    rw [hq] at h4 ⊢
    exact pushFront_buffer s1 q x h3 h4 _ e2

/-- Two elements; the second is popped and the next one takes its node. -/
example : (listGetTail (afterList exLFix [.pushBack (some 1), .pushBack (some 2)])).2 = some 20 ∧
    (listGetHead (afterList exLFix [.pushBack (some 1), .pushBack (some 2), .popBack, .pushFront (some 3)])).2 =
      some 20 ∧
    listGet (afterList exLFix [.pushBack (some 1), .pushBack (some 2), .popBack, .pushFront (some 3)]) (some 20) =
      .ret (some 3) := by decide +kernel

end Zy
