import Verif.Lemmas.Work
import Verif.Props.List
import Verif.Props.VectorSame

/-!
# Property theorems: lists as queues, vectors as stacks (C188)

`Spec.levels` and `Spec.depths` say in which order items are visited level by level and depth first.
-/

namespace Zy

open Spec

variable {α : Type}

/-- **C188**, the queue: after any history of calls, a program that takes items from the front of a list and appends what
it finds there visits everything level by level. Each visited item went to the destructor, once and in this order; the
list has the items that are not visited yet. There must be room for `b` new items in each round. -/
theorem C188_queue {K : Source} {dt : Bool} {s₀ s : LS α} (h : Created K dt s₀) {ops : List (LOp α)}
    (hf : LAllFit K dt emptyDeque ops) {sts : List Status} (hr : runList s₀ ops = .ret (sts, s)) {q : List (Cell α)}
    (hq : forward s = .ret q) {f : Cell α → List (Cell α)} {b : Nat} (hb : ∀ x, (f x).length ≤ b) {n : Nat}
    (hp : Plenty K (q.length + n * b)) :
    ∃ s', workList f n s = .ret ((levels f n q).1, s') ∧ forward s' = .ret (levels f n q).2 ∧
      listGetSize s' = (stSuccess, (levels f n q).2.length) ∧
      lDestroyed s'.w.trace = lDestroyed s.w.trace ++ (if dt then (levels f n q).1 else []) := by
  obtain ⟨sts', s1, ch, fs, d, h1, _, R⟩ := runList_ok (freeFor_ok K s₀.l) ops (created_ok h) hf
  obtain ⟨rfl, rfl⟩ := Prod.mk.inj (Out.ret.inj (hr.symm.trans h1))
  obtain rfl := Out.ret.inj (hq.symm.trans (forward_ok R))
  obtain ⟨s', ch', fs', k, e, R'⟩ := workList_ok (freeFor_ok K s₀.l) hb hp n R (Nat.le_refl _)
  refine ⟨s', e, forward_ok R', ?_, ?_⟩
  · have := R'.elems
    dsimp only at this
    rw [listGetSize, R'.ends.size, this, List.length_map]
  · rw [R'.core.dead, R.core.dead]; rfl

/-- **C188**, the stack: the same with the end of a vector, in depth first order. -/
theorem C188_stack {P : Params} {s : VS α} (h : Reach P s) {q : List (Cell α)} (hq : contents s = .ret q)
    {f : Cell α → List (Cell α)} {b : Nat} (hb : ∀ x, (f x).length ≤ b) {n : Nat}
    (hp : RoomFor P (vecGetCapacity s) (q.length + n * b)) :
    ∃ s', workVec f n s = .ret ((depths f n q).1, s') ∧ contents s' = .ret (depths f n q).2 ∧
      vecGetSize s' = (depths f n q).2.length ∧
      destroyedOf s'.w.trace = destroyedOf s.w.trace ++ (if P.dtor then (depths f n q).1 else []) := by
  obtain ⟨bl, slack, R⟩ := h.rep
  rw [R.contents] at hq
  injection hq with hq
  subst hq
  obtain ⟨s', e, h', g, d⟩ := workVec_ok hb n h hp (Nat.le_refl _)
  obtain ⟨bl', slack', R'⟩ := h'.rep
  refine ⟨s', e, by rw [R'.contents, g], ?_, d⟩
  show s'.v.size = _
  rw [R'.size, g]

/-- **C188**, queue and stack: if the queue is empty after `n` rounds, then so is the stack, and both visited the same
items, each as often as the other. -/
theorem C188_same {K : Source} {dt : Bool} {s₀ s : LS α} (h : Created K dt s₀) {ops : List (LOp α)}
    (hf : LAllFit K dt emptyDeque ops) {sts : List Status} (hr : runList s₀ ops = .ret (sts, s)) {P : Params} {t : VS α}
    (ht : Reach P t) {q : List (Cell α)} (hq : forward s = .ret q) (hc : contents t = .ret q)
    {f : Cell α → List (Cell α)} {b : Nat} (hb : ∀ x, (f x).length ≤ b) {n : Nat} (hp : Plenty K (q.length + n * b))
    (hp' : RoomFor P (vecGetCapacity t) (q.length + n * b)) {xs : List (Cell α)} {s' : LS α}
    (hw : workList f n s = .ret (xs, s')) (he : (listGetSize s').2 = 0) :
    ∃ ys t', workVec f n t = .ret (ys, t') ∧ vecGetSize t' = 0 ∧ ys.Perm xs := by
  obtain ⟨_, e1, _, e3, _⟩ := C188_queue h hf hr hq hb hp
  obtain ⟨rfl, rfl⟩ := Prod.mk.inj (Out.ret.inj (hw.symm.trans e1))
  rw [e3] at he
  obtain ⟨k, hk, hbag⟩ := bag_levels (List.length_eq_zero_iff.1 he)
  obtain ⟨d1, d2⟩ := bag_depths hbag hk
  obtain ⟨t', g1, _, g3, _⟩ := C188_stack ht hc hb hp'
  exact ⟨_, t', g1, by rw [g3, d1]; rfl, d2⟩

/-! ## Examples -/

/-- A tree with root 10, its children 1 and 2, and one child of each of these. -/
def exTree : Cell Nat → List (Cell Nat)
  | some 10 => [some 1, some 2]
  | some 1 => [some 3]
  | some 2 => [some 4]
  | _ => []

theorem exTree_two (x : Cell Nat) : (exTree x).length ≤ 2 := by
  unfold exTree
  split <;> decide

example : levels exTree 5 [some 10] = ([some 10, some 1, some 2, some 3, some 4], []) := rfl

example : depths exTree 5 [some 10] = ([some 10, some 2, some 4, some 1, some 3], []) := rfl

theorem exWork_fit {K : Source} {dt : Bool} : LAllFit K dt (emptyDeque : Deque Nat) [.pushBack (some 10)] := by
  refine .cons ?_ fun _ _ => .nil _
  cases K with
  | dynamic answer => show 0 + 1 < _; decide
  | fixed n => trivial

/-- An empty dynamic list with a destructor, with an allocator that never refuses. -/
def exWorkL : LS Nat :=
  ⟨⟨some 0, 0, 8, true, none, none, none, 0, none⟩, fun _ => none, ⟨fun _ => stSuccess, fun _ => stSuccess, 0, 0, 0, []⟩⟩

theorem exWorkL_created : Created (.dynamic fun _ => stSuccess) true exWorkL :=
  Created.dynamic (esz := 8) (a := 0) (dtor := true) (w := ⟨fun _ => stSuccess, fun _ => stSuccess, 0, 0, 0, []⟩)
    (st := stSuccess) ⟨rfl, rfl, rfl⟩ (fun _ => failed_success) (by decide) rfl

/-- The tree is visited by a list with destructor, and by a vector. -/
example : ∃ sts s xs s', runList exWorkL [.pushBack (some 10)] = .ret (sts, s) ∧ forward s = .ret [some 10] ∧
    workList exTree 5 s = .ret (xs, s') ∧ xs = [some 10, some 1, some 2, some 3, some 4] ∧
    lDestroyed s'.w.trace = lDestroyed s.w.trace ++ xs ∧
    ∃ ys t', workVec exTree 5 exWide = .ret (ys, t') ∧ vecGetSize t' = 0 ∧ ys.Perm xs := by
  obtain ⟨sts, s, d, h1, h2, h3, _⟩ := C46_list_is_a_deque exWorkL_created _ exWork_fit
  have hq : forward s = .ret [some 10] := by
    cases h2 with
    | cons junk hj h t => cases t; cases h; exact h3
  have hp : Plenty (.dynamic fun _ => stSuccess) (([some 10] : List (Cell Nat)).length + 5 * 2) :=
    ⟨fun _ => failed_success, by decide⟩
  obtain ⟨s', e1, e2, e3, e4⟩ := C188_queue exWorkL_created exWork_fit h1 hq exTree_two hp
  exact ⟨sts, s, _, s', h1, hq, e1, rfl, e4, C188_same exWorkL_created exWork_fit h1 exWide_reach hq rfl exTree_two hp
    ⟨by show _ < _; decide, Or.inl rfl⟩ e1 (by rw [e3]; rfl)⟩

end Zy
