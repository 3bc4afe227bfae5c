import Verif.Lemmas.AnyAnswers
import Verif.Lemmas.AnyAnswersCount

/-!
# Properties: programs whose allocators may refuse
-/

namespace Zy

open Spec

/-- **C147**. Any program with any number of vectors, strings and bitsets, whatever the arguments of its calls are and
whichever requests the allocators refuse: as long as the calls return, every request was proper (a size and a number
that are not zero, a block that is in use, with the allocator and the element size it was handed out with), no two
objects are ever in the same memory, and the blocks in use are exactly those of the objects that exist and have an
allocator. What is missing is the number of elements with which a block is given back (`C147_count_negation`). -/
theorem C147_disjoint_partial {w : World Byte} (hw : w.trace = []) {p : Desk} (h : Program w p) :
    Disjoint p.seats p.w.trace := (h.inv hw).neat.sep

/-- **C147**, at the end: when all objects have been destroyed, no block is in use. -/
theorem C147_all_returned {w : World Byte} (hw : w.trace = []) {p : Desk} (h : Program w p)
    (hd : ∀ o ∈ p.objs, o = none) : blocksOf p.w.trace = some .empty := by
  obtain ⟨hp, h1, h2⟩ := (C147_disjoint_partial hw h).blocks
  rw [h1]
  congr 1
  funext k
  cases hk : hp k with
  | none => rfl
  | some x =>
    obtain ⟨i, hi⟩ := (h2 k x).1 hk
    unfold Desk.seats at hi
    rw [List.getElem?_map] at hi
    cases hv : p.objs[i]? with
    | none => rw [hv] at hi; cases hi
    | some o =>
      rw [hv, hd o (List.mem_of_getElem? hv)] at hi
      cases hi

/-- **C147**, the number of elements: after a growing `Reserve` was refused, the vector is given back with the number
of elements that was refused instead of the number of elements of the block. -/
theorem C147_count_negation {s s1 s2 : VS Byte} {a c : Nat} {b : Block Byte} {st : Status} {h : Heap}
    (ha : s.v.allocator = some a) (hb : s.v.data = some b) (hh : heapOf s.w.trace = some h)
    (hx : h b.id = some ⟨a, s.v.esz, s.v.cap⟩) (hc : s.v.cap < c) (h1 : vecReserve s c = .ret (st, s1))
    (hst : failed st = true) (h2 : vecDestroy s1 = .ret (stSuccess, s2)) : heapOf s2.w.trace = none :=
  refused_count ha hb hh hx hc h1 hst h2

/-! ## Examples -/

/-- An allocator that refuses its second and its fourth request. -/
def moody : World Byte :=
  { oracle := fun n => if n = 1 ∨ n = 3 then stNoMemory else stSuccess, calls := 0, nextBlk := 0, trace := [] }

/-- A vector with one element cannot grow; a string of the program and a bitset are created; the vector is destroyed
at the second attempt (its destructor is called twice, and the block with one element is given back as one with
four). -/
example : ∃ p, Program moody p ∧ p.seats = [none, some ⟨1, none⟩, some ⟨2, some ⟨5, 1⟩⟩] ∧
    p.w.trace = [.alloc 5 0 1 1, .refused 5, .alloc 5 2 1 1, .destroy (some 7#8), .refused 5, .destroy (some 7#8),
      .dealloc 5 0 1 4] := by
  have p1 : Program moody _ := .next .start
    (.newVec (.init (esz := 1) (cap := 1) (g := 2) (th := 4) (dt := true) (al := some 5) rfl rfl) (by simp))
  have p2 := p1.next (.vec (i := 0) rfl (.step (op := .push (some 7#8)) (.refl _) rfl))
  have p3 := p2.next (.vec (i := 0) rfl (.step (op := .push (some 8#8)) (.refl _) rfl))
  have p4 := p3.next (.newStrOn (.buffer (cap := 4) (b := some ⟨1, List.replicate 4 none⟩) rfl) rfl rfl)
  have p5 := p4.next (.newBits (.init (count := 8) (g := 2) (th := 2) (al := some 5) rfl) (by simp))
  have p6 := p5.next (.vecEnd (i := 0) rfl rfl)
  have p7 := p6.next (.vecEnd (i := 0) rfl rfl)
  exact ⟨_, p7, by cbv, by cbv⟩

/-- The hypotheses of `C147_count_negation` hold for a vector whose `Reserve` is refused by the same allocator. -/
example : ∃ (s s1 s2 : VS Byte) (b : Block Byte) (st : Status) (h : Heap),
    s.v.allocator = some 5 ∧ s.v.data = some b ∧ heapOf s.w.trace = some h ∧
    h b.id = some ⟨5, s.v.esz, s.v.cap⟩ ∧ s.v.cap < 9 ∧ vecReserve s 9 = .ret (st, s1) ∧ failed st = true ∧
    vecDestroy s1 = .ret (stSuccess, s2) ∧ s2.w.trace = [.alloc 5 0 1 2, .refused 5, .dealloc 5 0 1 9] := by
  refine ⟨⟨⟨some 5, 2, 4, 0, 2, 1, false, some ⟨0, [none, none]⟩⟩,
    { moody with calls := 1, nextBlk := 1, trace := [.alloc 5 0 1 2] }⟩, _, _, _, _, _, rfl, rfl, rfl, ?_, ?_, rfl, ?_,
    rfl, ?_⟩
  · cbv
  · decide
  · cbv
  · cbv

end Zy
