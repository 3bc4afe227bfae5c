import Verif.Lemmas.SharedVec

/-!
# Properties: many vectors that share allocators
-/

namespace Zy

open Spec

variable {α : Type}

/-- **C145**. Any program with any number of vectors, which share their allocators: if every command is sensible,
nothing undefined happens; every vector behaves as if it were alone (statuses, contents, capacities, destroyed
elements); no two vectors are ever in the same memory; the blocks in use are exactly those of the vectors that
exist and have an allocator, with the extent that the vector has in mind. -/
theorem C145_together {w : World α} (hw : Fresh w) (hr : Reliable w) {cs : List (Cmd α)}
    (h : AllSensible ⟨[], []⟩ cs) :
    ∃ sts p S, Prog.run ⟨[], w⟩ cs = .ret (sts, p) ∧ Tells ⟨[], []⟩ cs sts S ∧ p.shows S ∧
      Separate p.places p.w.trace := by
  obtain ⟨sts, p, S, e, t, I⟩ := run_ok cs (start_inv hw hr) h
  exact ⟨sts, p, S, e, t, I.shows, I.tidy.sep⟩

/-- **C145**, at the end: when all vectors have been destroyed, no block is in use. -/
theorem C145_all_returned {w : World α} (hw : Fresh w) (hr : Reliable w) {cs : List (Cmd α)}
    (h : AllSensible ⟨[], []⟩ cs) {sts : List Status} {p : Prog α} (e : Prog.run ⟨[], w⟩ cs = .ret (sts, p))
    (hd : ∀ o ∈ p.vecs, o = none) : heapOf p.w.trace = some .empty := by
  obtain ⟨sts', p', S, e', t, I⟩ := run_ok cs (start_inv hw hr) h
  rw [e] at e'
  cases e'
  obtain ⟨hp, h1, h2⟩ := I.tidy.sep.heap
  rw [h1]
  congr 1
  funext k
  cases hk : hp k with
  | none => rfl
  | some x =>
    obtain ⟨i, hi⟩ := (h2 k x).1 hk
    unfold Prog.places at hi
    rw [List.getElem?_map] at hi
    cases hv : p.vecs[i]? with
    | none => rw [hv] at hi; cases hi
    | some o =>
      rw [hv, hd o (List.mem_of_getElem? hv)] at hi
      cases hi

/-! ## Example -/

/-- Two vectors with memory of allocator 5, the second a copy of the first, and one in memory of the program; the
first one is destroyed. -/
def threeVectors : List (Cmd Nat) :=
  [.create 5 2 4 8 1 true, .createOn [none, none] 4 2 false, .call 0 (.push (some 7)), .duplicate 0 5 2 4 0,
    .call 1 (.push (some 9)), .call 2 (.push (some 8)), .destroy 0]

example : AllSensible ⟨[], []⟩ threeVectors := by
  refine .cons (by simp [Sensible]) fun st S h => ?_
  cases h
  refine .cons (by simp [Sensible]) fun st S h => ?_
  cases h
  refine .cons ⟨_, rfl, by show _ < _; decide⟩ fun st S h => ?_
  cases h with
  | call h junk hj hs =>
  cases h; cases hs
  refine .cons ⟨by omega, by omega, by omega, _, rfl, by decide⟩ fun st S h => ?_
  cases h with
  | duplicate h =>
  cases h
  refine .cons ⟨_, rfl, by show _ < _; decide⟩ fun st S h => ?_
  cases h with
  | call h junk hj hs =>
  cases h; cases hs
  refine .cons ⟨_, rfl, by show _ < _; decide⟩ fun st S h => ?_
  cases h with
  | call h junk hj hs =>
  cases h; cases hs
  refine .cons ⟨_, rfl⟩ fun st S h => ?_
  exact .nil _

/-- The block of the copy was moved when it grew; block 1 belongs to the program. -/
example : ∃ sts p, Prog.run ⟨[], { oracle := fun _ => stSuccess, calls := 0, nextBlk := 0, trace := [] }⟩ threeVectors = .ret (sts, p) ∧
    p.places = [none, some ⟨1, none⟩, some ⟨3, some ⟨5, 8, 4⟩⟩] ∧
    p.w.trace = [.alloc 5 0 8 1, .alloc 5 2 8 1, .realloc 5 2 3 8 4, .destroy (some 7), .dealloc 5 0 8 1] := by
  refine ⟨_, _, rfl, ?_, ?_⟩
  · cbv
  · cbv

end Zy
