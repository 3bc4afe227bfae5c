import Verif.Lemmas.SharedMixed

/-!
# Properties: vectors, strings and bitsets that share allocators
-/

namespace Zy

open Spec

/-- **C146**. Any program with any number of vectors, strings and bitsets, which share their allocators and are
sources of each other's operations: if every command is reasonable, nothing undefined happens; every object
behaves as if it were alone; no two objects are ever in the same memory; the blocks in use are exactly those of
the objects that exist and have an allocator. -/
theorem C146_mixed {w : World Byte} (hw : Fresh w) (hr : Reliable w) {cs : List Deed}
    (h : AllReasonable ⟨[], []⟩ cs) :
    ∃ sts p S, Desk.run ⟨[], w⟩ cs = .ret (sts, p) ∧ Story ⟨[], []⟩ cs sts S ∧ p.shows S ∧
      Separate p.places p.w.trace := by
  obtain ⟨sts, p, S, e, t, I⟩ := deeds_ok cs (desk_start hw hr) h
  exact ⟨sts, p, S, e, t, I.shows, I.tidy.sep⟩

/-- **C146**, at the end: when all objects have been destroyed, no block is in use. -/
theorem C146_all_returned {w : World Byte} (hw : Fresh w) (hr : Reliable w) {cs : List Deed}
    (h : AllReasonable ⟨[], []⟩ cs) {sts : List Status} {p : Desk} (e : Desk.run ⟨[], w⟩ cs = .ret (sts, p))
    (hd : ∀ o ∈ p.objs, o = none) : heapOf p.w.trace = some .empty := by
  obtain ⟨sts', p', S, e', t, I⟩ := deeds_ok cs (desk_start hw hr) h
  rw [e] at e'
  cases e'
  obtain ⟨hp, h1, h2⟩ := I.tidy.sep.heap
  rw [h1]
  congr 1
  funext k
  cases hk : hp k with
  | none => rfl
  | some x =>
    obtain ⟨i, hi⟩ := (h2 k x).1 hk
    unfold Desk.places at hi
    rw [List.getElem?_map] at hi
    cases hv : p.objs[i]? with
    | none => rw [hv] at hi; cases hi
    | some o =>
      rw [hv, hd o (List.mem_of_getElem? hv)] at hi
      cases hi

/-! ## Example -/

/-- A string of the program, a copy of it from allocator 5, a bitset and a vector from the same allocator; the
first string is appended to the copy, and then both end. -/
def smallProgram : List Deed :=
  [.newStringOn (List.replicate 8 none) 8, .stringCall 0 (.append [some 104#8, some 105#8]),
    .copyString 0 5 2 4 0, .newBits 8 5 2 2, .newVector 5 2 4 1 1 true, .bitsCall 2 (.set 3),
    .appendString 1 0, .vectorCall 3 (.push (some 7#8)), .destroy 0, .destroy 1, .destroy 3]

example : AllReasonable ⟨[], []⟩ smallProgram := by
  refine .cons ⟨by decide, by decide⟩ fun st S h => ?_
  cases h
  refine .cons ⟨_, _, rfl, by show _ < _; decide⟩ fun st S h => ?_
  cases h with
  | stringCall h junk hj hs =>
  cases h; cases hs
  refine .cons ⟨⟨by decide, by decide, by decide⟩, by decide, _, _, rfl, by show _ < _; decide⟩ fun st S h => ?_
  cases h with
  | copyString h =>
  cases h
  refine .cons ⟨⟨by decide, by decide, by decide⟩, by decide, by decide⟩ fun st S h => ?_
  cases h
  refine .cons ⟨⟨by decide, by decide, by decide⟩, by decide, by decide⟩ fun st S h => ?_
  cases h
  refine .cons ⟨_, _, rfl, trivial⟩ fun st S h => ?_
  cases h with
  | bitsCall h =>
  cases h
  refine .cons ⟨by decide, _, _, _, _, rfl, rfl, by show _ < _; decide⟩ fun st S h => ?_
  cases h with
  | appendString h h' =>
  cases h; cases h'
  refine .cons ⟨_, rfl, by show _ < _; decide⟩ fun st S h => ?_
  cases h with
  | vectorCall h junk hj hs =>
  cases h; cases hs
  refine .cons ⟨_, rfl⟩ fun st S h => ?_
  cases h
  refine .cons ⟨_, rfl⟩ fun st S h => ?_
  cases h
  refine .cons ⟨_, rfl⟩ fun st S h => ?_
  exact .nil _

/-- Only the bitset is left. The copy of the string had to move to a smaller block when it was appended to. -/
example : ∃ sts p, Desk.run ⟨[], { oracle := fun _ => stSuccess, calls := 0, nextBlk := 0, trace := [] }⟩ smallProgram =
      .ret (sts, p) ∧ p.places = [none, none, some ⟨2, some ⟨5, 1, 1⟩⟩, none] ∧
    p.w.trace = [.alloc 5 1 1 33, .alloc 5 2 1 1, .alloc 5 3 1 1, .realloc 5 1 4 1 10, .dealloc 5 4 1 10,
      .destroy (some 7#8), .dealloc 5 3 1 1] := by
  refine ⟨_, _, rfl, ?_, ?_⟩
  · cbv
  · cbv

end Zy
