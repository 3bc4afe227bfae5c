import Verif.Lemmas.VectorEach
import Verif.Props.Vector

/-!
# Property theorems: the loop macros of the vector

`Reach P s` are the vectors a program can obtain, `contents` is the list of elements (both in
`Verif.Spec.VectorRun`).
-/

namespace Zy

open Spec

variable {α σ : Type}

/-! ## C108 -/

/-- C108, for bodies that leave the vector alone: the body is run once for each element, in order, and nothing
is undefined. Missing: bodies that shorten the vector, see `C108_foreach_negation`. -/
theorem C108_foreach_partial {P : Params} {s : VS α} (h : Reach P s) (g : σ → Cell α → σ) (a : σ) :
    ∃ es, contents s = .ret es ∧
      vecForeach (fun x s a => .ret (s, g a x)) s a = .ret (s, es.foldl g a) := by
  obtain ⟨b, sl, R⟩ := h.rep
  refine ⟨_, R.contents, ?_⟩
  unfold vecForeach
  rw [R.size]
  exact eachLoop_fold R g (absOf s).elems [] a rfl

/-- C108, for bodies that change the vector with any calls, but never shorten it: nothing is undefined.
Missing: bodies that shorten the vector, see `C108_foreach_negation`. -/
theorem C108_foreach_defined_partial {P : Params} {body : Cell α → VS α → σ → Out (VS α × σ)}
    (hb : ∀ x s a, Reach P s → ∃ s' a', body x s a = .ret (s', a') ∧ Reach P s' ∧ s.v.size ≤ s'.v.size)
    {s : VS α} (h : Reach P s) (a : σ) :
    ∃ s' a', vecForeach body s a = .ret (s', a') ∧ Reach P s' ∧ s.v.size ≤ s'.v.size :=
  eachLoop_defined hb _ 0 a h (by omega)

/-- C108: elements that the body appends are not visited, so the loop ends. A body that appends something for
each element it sees appends once for each element that was there before the loop. -/
theorem C108_foreach_push {P : Params} {s : VS α} (h : Reach P s) (hdyn : P.allocator.isSome)
    (f : Cell α → Cell α) {es : List (Cell α)} (he : contents s = .ret es) (hf : Fits P (2 * es.length)) :
    ∃ s', vecForeach (fun x s a => (vecPushBack s (.ext [f x])).bind fun r => .ret (r.2, a)) s () = .ret (s', ()) ∧
      contents s' = .ret (es ++ es.map f) := by
  obtain ⟨b, sl, R⟩ := h.rep
  have h1 := R.contents
  rw [he, Out.ret.injEq] at h1
  subst h1
  obtain ⟨s', l', b', sl', e, R', hl⟩ := eachLoop_push hdyn f (absOf s).elems [] [] R (by simp)
    (by rw [show (absOf s).elems.length + (absOf s).elems.length = 2 * (absOf s).elems.length by omega]; exact hf)
  refine ⟨s', ?_, by rw [R'.contents, hl]⟩
  unfold vecForeach
  rw [R.size]
  exact e

/-- C108 is false for bodies that shorten the vector: the number of rounds is fixed before the first one. A
body that removes the last element dereferences a null pointer, for every vector of two or more elements. -/
theorem C108_foreach_negation {P : Params} {s : VS α} (h : Reach P s) (h2 : 2 ≤ s.v.size) :
    vecForeach (fun _ s a => (vecPopBack s).bind fun r => .ret (r.2, a)) s () = .ub .null := by
  obtain ⟨b, sl, R⟩ := h.rep
  exact eachLoop_pop _ 0 R R.size.symm (by omega) (by omega)

example : vecForeach (fun x s (a : Nat) => .ret (s, a + x.getD 0)) exS 0 = .ret (exS, 60) := by
  obtain ⟨es, h1, h2⟩ := C108_foreach_partial exS_reach (fun (a : Nat) x => a + x.getD 0) 0
  have h3 : contents exS = .ret [some 10, some 20, some 30] := by decide
  rw [h3, Out.ret.injEq] at h1
  rw [h2, ← h1]
  rfl
/-- A body that overwrites the first element in each round. -/
example : ∀ (x : Cell Nat) (s : VS Nat) (a : Unit), Reach exP s →
    ∃ s' a', ((vecSet s 0 (.ext [x])).bind fun r => Out.ret (r.2, a)) = .ret (s', a') ∧ Reach exP s' ∧
      s.v.size ≤ s'.v.size := by
  intro x s a h
  obtain ⟨b, sl, R⟩ := h.rep
  obtain ⟨junk, st, s', l', b', sl', _, hstep, hop, R'⟩ := op_ok R (.set 0 x) trivial
  have hop' : vecSet s 0 (.ext [x]) = .ret (st, s') := hop
  refine ⟨s', a, by rw [hop', Out.ret_bind'], .step h (op := .set 0 x) trivial hop, ?_⟩
  rw [R.size, R'.size]
  simp only [step] at hstep
  split at hstep <;> (rw [Prod.mk.injEq] at hstep; rw [← hstep.2]; simp)
example : (vecForeach (fun x s a => (vecPushBack s (.ext [x])).bind fun r => .ret (r.2, a)) exS ()).bind
    (fun r => contents r.1) = .ret [some 10, some 20, some 30, some 10, some 20, some 30] := by decide
example : Fits exP (2 * 3) ∧ exP.allocator.isSome := ⟨by show _ < _; decide, rfl⟩
example : 2 ≤ exS.v.size := by decide

/-! ## C109 -/

/-- C109: the statement `*item = f(*item)` as the body replaces each element by its image, without destroying
anything and without changing the capacity. Missing: bodies after which the pointer is used although the
vector has moved, see `C109_mutable_negation`. -/
theorem C109_mutable_partial {P : Params} {s : VS α} (h : Reach P s) (f : Cell α → Cell α) :
    ∃ es s', contents s = .ret es ∧
      vecForeachMut (fun p s a => (updateThrough p f s).bind fun s => .ret (s, a)) s () = .ret (s', ()) ∧
      contents s' = .ret (es.map f) ∧ s'.v.cap = s.v.cap ∧
      destroyedOf s'.w.trace = destroyedOf s.w.trace := by
  obtain ⟨b, sl, R⟩ := h.rep
  obtain ⟨s', b', e, R'⟩ := eachMutLoop_map f (absOf s).elems [] R rfl
  refine ⟨_, s', R.contents, ?_, by rw [R'.contents]; simp, by rw [R'.cap, R.cap], by rw [R'.dead, R.dead]⟩
  unfold vecForeachMut
  rw [R.size]
  exact e

/-- C109 is false for bodies that use the pointer after an append: for every full dynamic vector that is not
empty, the append moves the elements to another block, and the pointer dangles. -/
theorem C109_mutable_negation {P : Params} {s : VS α} (h : Reach P s) (hdyn : P.allocator.isSome)
    (h0 : 0 < s.v.size) (hfull : s.v.size = s.v.cap) (hf : Fits P (s.v.size + 1)) (x : Cell α)
    (f : Cell α → Cell α) :
    vecForeachMut (fun p s a => (vecPushBack s (.ext [x])).bind fun r =>
      (updateThrough p f r.2).bind fun s => .ret (s, a)) s () = .ub .uaf := by
  obtain ⟨b, sl, R⟩ := h.rep
  rw [R.size] at h0 hf
  obtain ⟨s1, b1, sl1, e1, _, _⟩ := push_calls R hdyn x hf
  obtain ⟨b', hb', hne⟩ := push_full_moves R hdyn (by rw [← R.size, ← R.cap]; exact hfull) hf e1
  obtain ⟨n, hn⟩ : ∃ n, s.v.size = n + 1 := ⟨s.v.size - 1, by rw [R.size]; omega⟩
  unfold vecForeachMut
  rw [hn, eachMutLoop, R.getMutable h0, e1, Out.ret_bind']
  simp only [updateThrough, hb', withData]
  rw [if_neg fun h => hne h.symm]
  rfl

example : (vecForeachMut (fun p s a => (updateThrough p (·.map (· + 1)) s).bind fun s => .ret (s, a)) exS ()).bind
    (fun r => contents r.1) = .ret [some 11, some 21, some 31] := by decide

/-- The vector 10, 20, 30, 40 of capacity four. -/
def exFull : VS Nat :=
  ⟨{ allocator := some 0, growth := 2, shrink := 4, size := 4, cap := 4, esz := 8, hasDtor := true,
     data := some ⟨1, [some 10, some 20, some 30, some 40]⟩ },
   ⟨fun _ => stSuccess, 2, 2, [.alloc 0 0 8 1, .realloc 0 0 1 8 4]⟩⟩

theorem exFull_reach : Reach exP exFull :=
  Reach.step (op := .push (some 40)) exS_reach (by show _ < _; decide) rfl

example : vecForeachMut (fun p s a => (vecPushBack s (.ext [some 5])).bind fun r =>
      (updateThrough p id r.2).bind fun s => .ret (s, a)) exFull () = .ub .uaf :=
  C109_mutable_negation exFull_reach rfl (by decide) rfl (by show _ < _; decide) _ _

end Zy
