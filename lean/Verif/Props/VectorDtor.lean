import Verif.Lemmas.VectorDtor
import Verif.Props.Vector

/-!
# Property theorems about destructors that modify the elements (C160)
-/

namespace Zy

open Spec

variable {α : Type}

/-- C160: whatever the destructor writes to the elements it destroys, the vector behaves like the list: statuses,
elements, size, capacity and the elements that were destroyed, in their order, are the same as with a destructor that
only looks at them. -/
theorem C160_behaves_like_list (d : DtorFn α) {P : Params} {s : VS α} (h : ReachBy d P s) (ops : List (VOp α))
    (hd : AllInDomain P (absOf s) ops) :
    ∃ sts s' a', runVecBy d s ops = .ret (sts, s') ∧ Runs P (absOf s) ops sts a' ∧
      contents s' = .ret a'.elems ∧ vecGetSize s' = a'.elems.length ∧
      vecGetCapacity s' = a'.cap ∧ destroyedOf s'.w.trace = a'.dead := by
  obtain ⟨b, slack, R⟩ := h.rep
  obtain ⟨sts, s', a', b', sl', hrun, hruns, R'⟩ := runVecBy_ok d ops R hd
  exact ⟨sts, s', a', hrun, hruns, R'.contents, R'.size, R'.cap, R'.dead⟩

/-- C160: destroying the vector destroys the elements that are left, and returns the memory. -/
theorem C160_destroy (d : DtorFn α) {P : Params} {s : VS α} (h : ReachBy d P s) {es : List (Cell α)}
    (he : contents s = .ret es) :
    ∃ s' rest, vecDestroyBy d s = .ret (stSuccess, s', rest) ∧
      destroyedOf s'.w.trace = destroyedOf s.w.trace ++ killed P es ∧
      (P.allocator.isSome → replay s'.w.trace = some none) := by
  obtain ⟨b, slack, R⟩ := h.rep
  rw [R.contents] at he
  injection he with he
  obtain ⟨s', rest, e, _, h1, h2, _⟩ := destroyBy_rep d R
  exact ⟨s', rest, e, by rw [h1, R.dead, he], h2⟩

/-- C160: in a caller buffer the slots of the removed elements hold what the destructor has left there, until the
elements behind them move up: removing `mid` from `pre ++ mid ++ suf`. -/
theorem C160_delete_storage (d : DtorFn α) {P : Params} {s : VS α} (h : ReachBy d P s) (hf : P.allocator = none)
    (hdt : P.dtor = true) {b : Block α} (hb : s.v.data = some b) {pre mid suf slack : List (Cell α)}
    (hc : b.cells = pre ++ mid ++ suf ++ slack) (hs : s.v.size = (pre ++ mid ++ suf).length) (hm : mid ≠ []) :
    ∃ s', vecDeleteRangeBy d s pre.length mid.length = .ret (stSuccess, s') ∧
      s'.v.data = some { b with cells :=
        pre ++ suf ++ (remains d s.w.trace.length mid ++ suf ++ slack).drop suf.length } := by
  obtain ⟨b', slack', R⟩ := h.rep
  exact deleteBy_storage d R hf hdt hb hc hs hm

/-- C160: the slot of an element that was popped from a caller buffer. -/
theorem C160_pop_storage (d : DtorFn α) {P : Params} {s : VS α} (h : ReachBy d P s) (hf : P.allocator = none)
    (hdt : P.dtor = true) {b : Block α} (hb : s.v.data = some b) {pre slack : List (Cell α)} {x : Cell α}
    (hc : b.cells = pre ++ x :: slack) (hs : s.v.size = pre.length + 1) :
    ∃ s', vecPopBackBy d s = .ret (stSuccess, s') ∧
      s'.v.data = some { b with cells := pre ++ d s.w.trace.length x :: slack } := by
  obtain ⟨b', slack', R⟩ := h.rep
  exact popBy_storage d R hf hdt hb hc hs

/-- C160: all slots after clearing a vector on a caller buffer. -/
theorem C160_clear_storage (d : DtorFn α) {P : Params} {s : VS α} (h : ReachBy d P s) (hf : P.allocator = none)
    (hdt : P.dtor = true) {b : Block α} (hb : s.v.data = some b) {es slack : List (Cell α)}
    (hc : b.cells = es ++ slack) (hs : s.v.size = es.length) :
    ∃ s', vecClearBy d s = .ret (stSuccess, s') ∧
      s'.v.data = some { b with cells := remains d s.w.trace.length es ++ slack } := by
  obtain ⟨b', slack', R⟩ := h.rep
  exact clearBy_storage d R hf hdt hb hc hs

/-- C160: all slots after destroying a vector on a caller buffer. -/
theorem C160_destroy_storage (d : DtorFn α) {P : Params} {s : VS α} (h : ReachBy d P s) (hf : P.allocator = none)
    (hdt : P.dtor = true) {b : Block α} (hb : s.v.data = some b) {es slack : List (Cell α)}
    (hc : b.cells = es ++ slack) (hs : s.v.size = es.length) :
    ∃ s', vecDestroyBy d s =
      .ret (stSuccess, s', some { b with cells := remains d s.w.trace.length es ++ slack }) := by
  obtain ⟨b', slack', R⟩ := h.rep
  exact destroyBy_storage d R hf hdt hb hc hs

/-- C160, where the promise ends: an element that is set to itself is destroyed first and copied onto itself then, so
the vector keeps what the destructor has left of it. -/
theorem C160_set_self_negation (d : DtorFn α) {P : Params} {s : VS α} (h : ReachBy d P s) (hdt : P.dtor = true)
    {es : List (Cell α)} (he : contents s = .ret es) {b : Block α} (hb : s.v.data = some b) {i : Nat}
    (hi : i < es.length) :
    ∃ s', vecSetBy d s i (.self b.id i) = .ret (stSuccess, s') ∧
      contents s' = .ret (es.set i (d s.w.trace.length es[i])) ∧
      destroyedOf s'.w.trace = destroyedOf s.w.trace ++ [es[i]] := by
  obtain ⟨b', slack, R⟩ := h.rep
  have hbb : b' = b := by rw [R.data] at hb; injection hb
  subst hbb
  rw [R.contents] at he
  injection he with he
  have hsplit : es = es.take i ++ [es[i]] ++ es.drop (i + 1) := by
    rw [List.append_assoc, List.singleton_append, ← List.drop_eq_getElem_cons hi, List.take_append_drop]
  have htl : (es.take i).length = i := by simp; omega
  obtain ⟨s', e, R'⟩ := runDtorsBy_ok d R (pre := es.take i) (mid := [es[i]]) (post := es.drop (i + 1))
    (by rw [he]; exact hsplit) (lo := i) (hi := i + 1) htl.symm rfl
  have hset : es.set i (d s.w.trace.length es[i]) =
      es.take i ++ leftIn d P s [es[i]] ++ es.drop (i + 1) := by
    rw [leftIn, if_pos hdt, List.set_eq_take_append_cons_drop, if_pos hi]
    simp [remains]
  rw [← hset] at R'
  have hel : (es.set i (d s.w.trace.length es[i])).length = es.length := by simp
  have hw : writeRange (es.set i (d s.w.trace.length es[i]) ++ slack) i [d s.w.trace.length es[i]] =
      .ret (es.set i (d s.w.trace.length es[i]) ++ slack) := by
    have := writeRange_at (pre := es.take i) (mid := [d s.w.trace.length es[i]]) (post := es.drop (i + 1) ++ slack)
      (xs := [d s.w.trace.length es[i]]) rfl
    rw [htl] at this
    rw [hset, leftIn, if_pos hdt]
    simpa [remains] using this
  have hr : readRange (es.set i (d s.w.trace.length es[i]) ++ slack) i 1 = .ret [d s.w.trace.length es[i]] := by
    rw [hset, leftIn, if_pos hdt]
    simp only [remains, List.append_assoc]
    rw [← List.append_assoc]
    exact readRange_at htl.symm rfl
  refine ⟨s', ?_, R'.contents, by rw [R'.dead, R.dead, killed, if_pos hdt]⟩
  have hsz : s.v.size = es.length := by rw [R.size, he]
  have hd' : s'.v.data = some { b' with cells := es.set i (d s.w.trace.length es[i]) ++ slack } := R'.data
  unfold vecSetBy
  rw [if_neg (by simp [Src.isNull]), if_neg (by omega), e]
  simp only [Out.ret_bind', hd', withData, memcpyIn, if_true]
  rw [if_neg (by simp)]
  simp only [hr, hw, Out.ret_bind']
  rw [← hd']

/-! ## Examples -/

/-- `FreeZyanU16` of tests/Vector.cpp lines 132-136. -/
def exZero : DtorFn Nat := fun _ _ => some 0

theorem exFixed_reachBy (d : DtorFn Nat) : ReachBy d exFixedP exFixed :=
  ⟨exFixed, [], [], exFixed_reach, .nil _, rfl⟩

/-- A history with all functions that call the destructor: the removed slots are zero. -/
example : ((runVecBy exZero exFixed [.push (some 20), .pop, .push (some 21), .set 0 (some 30), .deleteRange 1 1]).bind
    fun r => .ret (r.1, r.2.v.data, destroyedOf r.2.w.trace)) =
      .ret ([stSuccess, stSuccess, stSuccess, stSuccess, stSuccess], some ⟨7, [some 30, some 0]⟩,
        [some 20, some 10, some 21]) := by decide +kernel

/-- The last slot after a deletion in front of it is not what the destructor left, but the old copy. -/
example : ((runVecBy exZero exFixed [.push (some 20), .deleteRange 0 1]).bind fun r => .ret r.2.v.data) =
    .ret (some ⟨7, [some 20, some 20]⟩) := by decide +kernel

/-- An element that is set to itself is gone. -/
example : ∃ s', vecSetBy exZero exFixed 0 (.self 7 0) = .ret (stSuccess, s') ∧ contents s' = .ret [some 0] :=
  ⟨_, rfl, rfl⟩

end Zy
