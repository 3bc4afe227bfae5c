import Verif.Lemmas.ListSame
import Verif.Props.List

/-!
# Property theorems: lists do the same wherever their nodes come from (C185)

`Spec.lineStep` is a queue that always has memory. `Spec.Serves` says that a source of nodes (an allocator with arbitrary
answers, or a caller buffer with room for `n` nodes) has all the nodes that a history wants.
-/

namespace Zy

open Spec

open Zy.LT (Specified)

variable {α : Type}

/-- **C185**: as long as no memory is refused, every list shows the same statuses and the same elements, those of a queue
that always has memory. -/
theorem C185_ample {K : Source} {dt : Bool} {s : LS α} (h : Created K dt s) {ops : List (LOp α)}
    (hs : ∀ op ∈ ops, Specified op) (hl : (ops.map lcost).sum < 18446744073709551616) (hg : Serves K 0 [] ops) :
    ∃ s', runList s ops = .ret ((lineRun [] ops).1, s') ∧ forward s' = .ret (lineRun [] ops).2 ∧
      backward s' = .ret (lineRun [] ops).2.reverse ∧ listGetSize s' = (stSuccess, (lineRun [] ops).2.length) := by
  obtain ⟨sts, s', d', h1, h2, h3, h4, h5, _⟩ := C46_list_is_a_deque h ops (C46_short_histories_fit K dt ops hl)
  obtain ⟨_, e1, e2, _⟩ := lruns_served h2 hs hg
  rw [show (emptyDeque : Deque α).elems = [] from rfl] at e1 e2
  rw [e2] at h3 h4 h5
  exact ⟨s', by rw [h1, e1], h3, h4, h5⟩

/-- **C185**: two lists, one on a caller buffer and one with an allocator or with two different allocators, cannot be told
apart as long as no memory is refused. Their destructors receive the same elements in the same order. -/
theorem C185_two {K₁ K₂ : Source} {dt : Bool} {s₁ s₂ s₁' s₂' : LS α} (h₁ : Created K₁ dt s₁) (h₂ : Created K₂ dt s₂)
    {ops : List (LOp α)} (hs : ∀ op ∈ ops, Specified op) (hl : (ops.map lcost).sum < 18446744073709551616)
    (hg₁ : Serves K₁ 0 [] ops) (hg₂ : Serves K₂ 0 [] ops) {sts₁ sts₂ : List Status}
    (hr₁ : runList s₁ ops = .ret (sts₁, s₁')) (hr₂ : runList s₂ ops = .ret (sts₂, s₂')) :
    sts₁ = sts₂ ∧ forward s₁' = forward s₂' ∧ lDestroyed s₁'.w.trace = lDestroyed s₂'.w.trace := by
  obtain ⟨_, _, d₁, a1, a2, a3, _, _, a4⟩ := C46_list_is_a_deque h₁ ops (C46_short_histories_fit K₁ dt ops hl)
  obtain ⟨_, _, d₂, b1, b2, b3, _, _, b4⟩ := C46_list_is_a_deque h₂ ops (C46_short_histories_fit K₂ dt ops hl)
  obtain ⟨rfl, rfl⟩ := Prod.mk.inj (Out.ret.inj (hr₁.symm.trans a1))
  obtain ⟨rfl, rfl⟩ := Prod.mk.inj (Out.ret.inj (hr₂.symm.trans b1))
  obtain ⟨e1, e2⟩ := LT.lruns_unique hs (lruns_served a2 hs hg₁).1 (lruns_served b2 hs hg₂).1
  subst e1 e2
  exact ⟨rfl, by rw [a3, b3], by rw [a4, b4]⟩

/-- **C185**: a list does not run out of memory unnoticed. The first call that is not given all the nodes it wants returns
a failure. -/
theorem C185_noticed {K : Source} {dt : Bool} {s s' : LS α} (h : Created K dt s) {ops : List (LOp α)} {op : LOp α}
    (hs : ∀ o ∈ ops ++ [op], Specified o) (hl : ((ops ++ [op]).map lcost).sum < 18446744073709551616)
    (hg : Serves K 0 [] ops) (hn : ¬ Granted K (wantsAll [] ops) (lineRun [] ops).2 op) {sts : List Status}
    (hr : runList s (ops ++ [op]) = .ret (sts, s')) :
    ∃ st, sts = (lineRun [] ops).1 ++ [st] ∧ failed st = true := by
  obtain ⟨_, _, d', h1, h2, _⟩ := C46_list_is_a_deque h _ (C46_short_histories_fit K dt (ops ++ [op]) hl)
  obtain ⟨rfl, rfl⟩ := Prod.mk.inj (Out.ret.inj (hr.symm.trans h1))
  obtain ⟨sts₁, d₁, st, rfl, r1, junk, r2⟩ := lruns_snoc h2
  obtain ⟨_, e1, e2, e3⟩ := lruns_served r1 (fun o ho => hs o (by simp [ho])) hg
  rw [show (emptyDeque : Deque α).elems = [] from rfl] at e1 e2 e3
  rw [show (emptyDeque : Deque α).asked = 0 from rfl, Nat.zero_add] at e3
  refine ⟨st, by rw [e1], ?_⟩
  have := lstep_refused (dt := dt) junk (hs op (by simp)) (d := d₁) (by rw [e2, e3]; exact hn)
  rwa [r2] at this

/-! ## Examples -/

/-- A history that never needs more than three nodes at a time and four altogether. -/
def exSameOps : List (LOp Nat) :=
  [.pushBack (some 1), .pushFront (some 2), .popBack, .popBack, .popBack, .pushBackOf 0, .resize 2 (some (some 9)),
   .set 1 (some 5)]

/-- A dynamic list without a destructor whose allocator refuses the fifth request. -/
def exSameDyn : LS Nat :=
  ⟨⟨some 0, 0, 8, false, none, none, none, 0, none⟩, fun _ => none,
    ⟨fun k => if k = 4 then stNoMemory else stSuccess, fun _ => stSuccess, 0, 0, 0, []⟩⟩

theorem exSameDyn_created : Created (.dynamic fun k => if k = 4 then stNoMemory else stSuccess) false exSameDyn :=
  Created.dynamic (esz := 8) (a := 0) (dtor := false)
    (w := ⟨fun k => if k = 4 then stNoMemory else stSuccess, fun _ => stSuccess, 0, 0, 0, []⟩) (st := stSuccess)
    ⟨rfl, rfl, rfl⟩ (fun _ => failed_success) (by decide) rfl

theorem exSameOps_specified : ∀ op ∈ exSameOps, Specified op := by
  intro op hop
  simp only [exSameOps, List.mem_cons, List.not_mem_nil, or_false] at hop
  rcases hop with rfl | rfl | rfl | rfl | rfl | rfl | rfl | rfl <;> trivial

theorem exSameOps_dynamic :
    Serves (.dynamic fun k => if k = 4 then stNoMemory else stSuccess) 0 [] exSameOps := by
  simp only [exSameOps, Serves, Granted]
  decide

theorem exSameOps_fixed : Serves (.fixed 3) 0 [] exSameOps := by
  simp only [exSameOps, Serves, Granted]
  decide

example : (lineRun [] exSameOps).1.map failed = [false, false, false, false, true, true, false, false] ∧
    (lineRun [] exSameOps).2 = [some 9, some 5] := by decide

example : ∃ s', runList exLFix exSameOps = .ret ((lineRun [] exSameOps).1, s') ∧ forward s' = .ret [some 9, some 5] := by
  obtain ⟨s', h1, h2, _⟩ := C185_ample exLFix_created exSameOps_specified (by decide) exSameOps_fixed
  exact ⟨s', h1, h2⟩

example {s₁' s₂' : LS Nat} {sts₁ sts₂ : List Status} (hr₁ : runList exLFix exSameOps = .ret (sts₁, s₁'))
    (hr₂ : runList exSameDyn exSameOps = .ret (sts₂, s₂')) : forward s₁' = forward s₂' :=
  (C185_two exLFix_created exSameDyn_created exSameOps_specified (by decide) exSameOps_fixed exSameOps_dynamic hr₁
    hr₂).2.1

/-- The buffer with room for three nodes cannot take four elements, the allocator refuses the fifth request. -/
example : ¬ Granted (.fixed 3) (wantsAll [] exSameOps) (lineRun [] exSameOps).2 (.resize 4 (some (some 0))) ∧
    ¬ Granted (.dynamic fun k => if k = 4 then stNoMemory else stSuccess) (wantsAll [] exSameOps)
      (lineRun [] exSameOps).2 (.pushBack (some 0)) := by
  simp only [Granted]
  decide

end Zy
