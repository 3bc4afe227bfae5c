import Verif.Lemmas.Examples
import Verif.Lemmas.ExampleProgram

/-!
# Property theorems about the example program examples/Vector.c (C140, C142)
-/

namespace Zy

open Spec

variable {α : Type}

/-- C140: inserting every value at the index that binary search returns keeps the vector sorted, for every
comparison of a total preorder. On a dynamic vector all values are inserted. On a fixed one as many as fit
are inserted, and the first that does not fit is reported. Equal elements end up in reverse order of
insertion, before the equal ones that were there. -/
theorem C140_sorted_insertion {P : Params} {s : VS α} (h : Reach P s) {es : List (Cell α)}
    (he : contents s = .ret es) {cmp : Cell α → Cell α → Int} (hc : Comparator cmp) (hs : Ascending cmp es)
    (xs : List (Cell α)) (hf : Fits P (es.length + xs.length)) :
    ∃ st s' n l, sortedFill cmp s xs = .ret (st, s') ∧ contents s' = .ret l ∧
      SortedInto cmp es (xs.take n) l ∧
      (P.allocator.isSome = true → n = xs.length) ∧
      (P.allocator = none → n = min xs.length (vecGetCapacity s - es.length)) ∧
      st = if n = xs.length then stSuccess else stInsufficient := by
  obtain ⟨st, s', n, l, h1, _, h2, h3, h4, h5, h6, h7⟩ := sortedFill_ok hc xs h he hs hf
  refine ⟨st, s', n, l, h1, h2, h3, fun ha => ?_, fun ha => (h7 ha).1, ?_⟩
  · rcases Nat.lt_or_eq_of_le h4 with hlt | heq
    · rw [(h6 hlt).1] at ha; cases ha
    · exact heq
  · split
    · exact h5 ‹_›
    · exact (h6 (by omega)).2

/-- The comparison of the example: numbers (indeterminate cells first). -/
def exNumCmp (x y : Cell Nat) : Int := (x.elim 0 (· + 1) : Nat) - (y.elim 0 (· + 1) : Nat)

theorem exNumCmp_ok : Comparator exNumCmp := by
  constructor
  · intro x y; unfold exNumCmp; omega
  · intro x y z; unfold exNumCmp; omega

example : ∃ st s' l, sortedFill exNumCmp exS [some 15, some 5, some 25, some 15] = .ret (st, s') ∧
    contents s' = .ret l ∧ SortedInto exNumCmp [some 10, some 20, some 30] [some 15, some 5, some 25, some 15] l ∧
    st = stSuccess := by
  obtain ⟨st, s', n, l, h1, h2, h3, h4, _, h5⟩ := C140_sorted_insertion exS_reach rfl exNumCmp_ok
    (by unfold Ascending; decide) [some 15, some 5, some 25, some 15] (by show _ < _; decide)
  have hn : n = 4 := h4 rfl
  subst hn
  exact ⟨st, s', l, h1, h2, h3, h5⟩

example : (sortedFill exNumCmp exS [some 15, some 5, some 25, some 15]).bind (fun r => contents r.2) =
    .ret [some 5, some 10, some 15, some 15, some 20, some 25, some 30] := by decide

/-- The fixed vector of two slots with one element takes one more. -/
example : (sortedFill exNumCmp exFixed [some 5, some 7]).bind (fun r => .ret (r.1, contents r.2)) =
    .ret (stInsufficient, .ret [some 5, some 10]) := by decide

/-- C142: for every sequence of random numbers and all answers of the allocators, the example program has no
undefined behaviour. It makes eight requests. If none of them is refused, it exits with success, prints
what its comments promise with the drawn numbers in ascending order, and has given all memory back. If one
is refused, it exits with failure and has printed a part of this. -/
theorem C142_example_program (rand : Nat → Nat) (o : Nat → Status) :
    ∃ l₁ l₂ run, SortedDraw rand 0 20 l₁ ∧ SortedDraw rand 20 20 l₂ ∧ exMain rand o = .ret run ∧
      ((∀ k, k < 8 → failed (o k) = false) → run.code = 0 ∧ run.out = programLines l₁ l₂ ∧
        run.traces = programRequests ∧ ∀ t ∈ run.traces, replay t = some none) ∧
      ((∃ k, k < 8 ∧ failed (o k) = true) → run.code = 1 ∧ run.out <+: programLines l₁ l₂) := by
  obtain ⟨l₁, hl₁, h1⟩ := exTestDynamic_ends rand o
  obtain ⟨l₂, hl₂, h2⟩ := exTestStatic_ends rand fun i => o (5 + i)
  have h3 := exTestAllocator_ends fun i => o (5 + 0 + i)
  refine ⟨l₁, l₂, ?_⟩
  unfold exMain programLines
  rcases h1 with ⟨hk, t1, hx1, ho1, ht1, hc1, hr1⟩ | ⟨⟨k, hk, hf⟩, st, t1, hx1, hst, hp⟩
  · rw [hx1, Out.ret_bind', if_neg (show ¬ failed stSuccess = true by decide)]
    dsimp only
    rw [hc1, hr1]
    rcases h2 with ⟨_, t2, hx2, ho2, ht2, hc2, hr2⟩ | ⟨⟨k, hk', _⟩, _⟩
    · rw [hx2, Out.ret_bind', if_neg (show ¬ failed stSuccess = true by decide)]
      dsimp only
      rw [hc2, hr2]
      rcases h3 with ⟨hk3, t3, hx3, ho3, ht3, _, _⟩ | ⟨⟨k, hk3, hf⟩, st, t3, hx3, hst, hp⟩
      · rw [hx3, Out.ret_bind', if_neg (show ¬ failed stSuccess = true by decide), ho1, ho2, ho3, ht1, ht2, ht3]
        refine ⟨_, hl₁, hl₂, rfl, fun _ => ⟨rfl, rfl, rfl, ?_⟩, ?_⟩
        · dsimp only; decide
        · rintro ⟨k, hk8, hf⟩
          by_cases hlt : k < 5
          · rw [hk k hlt] at hf; cases hf
          · have := hk3 (k - 5) (by omega)
            dsimp only at this
            rw [show 5 + 0 + (k - 5) = k by omega, hf] at this
            cases this
      · rw [hx3, Out.ret_bind', if_pos hst, ho1, ho2]
        refine ⟨_, hl₁, hl₂, rfl, fun h => ?_, fun _ => ⟨rfl, ?_⟩⟩
        · have := h (5 + 0 + k) (by omega)
          rw [hf] at this
          cases this
        · exact (List.prefix_append_right_inj _).2 hp
    · omega
  · rw [hx1, Out.ret_bind', if_pos hst]
    refine ⟨_, hl₁, hl₂, rfl, fun h => ?_, fun _ => ⟨rfl, ?_⟩⟩
    · have := h k (by omega)
      rw [hf] at this
      cases this
    · refine hp.trans ?_
      rw [List.append_assoc]
      exact List.prefix_append _ _

/-- The fourth request is refused: it is made when the vector is to hold twenty elements again. -/
example : (exMain (fun i => 37 * i) fun k => if k = 3 then stNoMemory else stSuccess).bind
    (fun r => .ret (r.code, r.out.length)) = .ret (1, 40) := by decide +kernel

example : (exMain (fun i => 37 * i) fun _ => stSuccess).bind
    (fun r => .ret (r.code, r.out.length, r.out.getLast?)) = .ret (0, 125, some (.capacity 60)) := by decide +kernel

end Zy
