import Verif.Lemmas.Undo
import Verif.Props.ListSame
import Verif.Props.VectorSame
import Verif.Props.Bitset

/-!
# Property theorems: whatever was done to a container can be undone (C191)

`Spec.undoListAll`, `Spec.undoVecAll` and `Spec.undoBitsAll` are the calls that take a history back.
-/

namespace Zy

open Spec

open Zy.LT (Specified)

variable {α : Type}

/-- **C191**: every change of a list can be undone with the functions of the list. After any history `ops`, whatever
`change` does, the calls `undoListAll` succeed and restore the elements. (Memory must be there, as in C185.) -/
theorem C191_list {K : Source} {dt : Bool} {s : LS α} (h : Created K dt s) {ops change : List (LOp α)}
    (hs : ∀ op ∈ ops ++ change, Specified op)
    (hl : ((ops ++ change ++ undoListAll (lineRun [] ops).2 change).map lcost).sum < 18446744073709551616)
    (hg : Serves K 0 [] (ops ++ change ++ undoListAll (lineRun [] ops).2 change)) :
    ∃ sts sts' s₁ s₂ s₃, runList s ops = .ret (sts, s₁) ∧ runList s (ops ++ change) = .ret (sts', s₂) ∧
      runList s (ops ++ change ++ undoListAll (lineRun [] ops).2 change) =
        .ret (sts' ++ List.replicate (undoListAll (lineRun [] ops).2 change).length stSuccess, s₃) ∧
      forward s₃ = forward s₁ ∧ listGetSize s₃ = listGetSize s₁ := by
  have e1 : (lineRun [] (ops ++ change)).2 = (lineRun (lineRun [] ops).2 change).2 := by rw [lineRun_append]
  have e2 := undoListAll_ok change (lineRun [] ops).2
  rw [List.map_append, List.map_append, List.sum_append, List.sum_append] at hl
  obtain ⟨s₁, a1, a2, _, a3⟩ := C185_ample h (ops := ops) (fun o ho => hs o (by simp [ho])) (by omega)
    (serves_left (serves_left hg))
  obtain ⟨s₂, b1, _⟩ := C185_ample h (ops := ops ++ change) hs (by rw [List.map_append, List.sum_append]; omega)
    (serves_left hg)
  obtain ⟨s₃, c1, c2, _, c3⟩ := C185_ample h (ops := ops ++ change ++ undoListAll (lineRun [] ops).2 change)
    (fun o ho => by
      rcases List.mem_append.1 ho with ho | ho
      · exact hs o ho
      · exact undoListAll_specified change _ o ho)
    (by rw [List.map_append, List.map_append, List.sum_append, List.sum_append]; omega) hg
  rw [lineRun_append, e1, e2] at c1 c2 c3
  exact ⟨_, _, s₁, s₂, s₃, a1, b1, c1, by rw [c2, a2], by rw [c3, a3]⟩

/-- **C191**: the same of a vector. -/
theorem C191_vector {P : Params} {s : VS α} (h : Reach P s) {es : List (Cell α)} (he : contents s = .ret es)
    {change : List (VOp α)} (hd : AllInDomain P (absOf s) (change ++ undoVecAll es change)) (hp : ∀ op ∈ change, Plain op)
    (hw : P.allocator.isSome ∨ Within (vecGetCapacity s) es (change ++ undoVecAll es change)) :
    ∃ sts s', runVec s (change ++ undoVecAll es change) = .ret (sts, s') ∧ contents s' = .ret es ∧
      sts = (plainRun es change).1 ++ List.replicate (undoVecAll es change).length stSuccess := by
  obtain ⟨s', h1, h2, _⟩ := C186_plain h he hd
    (fun o ho => by
      rcases List.mem_append.1 ho with ho | ho
      · exact hp o ho
      · exact undoVecAll_plain change es hp o ho) hw
  have e1 := plainRun_append change (undoVecAll es change) es
  have e2 := undoVecAll_ok change es hp
  simp only [shown, Prod.mk.injEq] at e1 e2
  rw [e2.1, e2.2] at e1
  exact ⟨_, s', h1, by rw [h2, e1.2], e1.1⟩

/-- **C191**: the same of a bitset. -/
theorem C191_bitset {P : Params} {t : Bits} (h : BReach P t) {change : List BOp}
    (hd : BAllInDomain P (babsOf t) (change ++ undoBitsAll (babsOf t).bits change)) :
    ∃ sts t', runBits t (change ++ undoBitsAll (babsOf t).bits change) = .ret (sts, t') ∧
      bsGetSize t' = bsGetSize t ∧ ∀ i, bsTest t' i = bsTest t i := by
  obtain ⟨t', h1, _, _, h2, h3⟩ := C38_sequence_of_booleans_partial h _ hd
  obtain ⟨t₀, g1, _, _, g2, g3⟩ := C38_sequence_of_booleans_partial h [] trivial
  have e : t₀ = t := by
    have : runBits t [] = .ret ([], t) := rfl
    rw [this] at g1
    exact (Prod.mk.inj (Out.ret.inj g1)).2.symm
  subst e
  rw [List.foldl_append, undoBitsAll_ok change _ (noEmptyPop_of change hd)] at h2 h3
  exact ⟨_, t', h1, by rw [h2]; exact g2.symm, fun i => by rw [h3]; exact (g3 i).symm⟩

/-! ## Examples -/

/-- A list with the elements 2 and 1 on a buffer for three nodes: everything is changed and undone. -/
def exUndoChange : List (LOp Nat) := [.popBack, .clear, .pushBack (some 5), .set 0 (some 7), .pushFrontOf 0]

example : undoListAll [some 2, some 1] exUndoChange =
    [.popFront, .set 0 (some 5), .popBack, .pushBack (some 2), .pushBack (some 1)] := rfl

example : ∃ sts s', runList exLFix ([.pushBack (some 1), .pushFront (some 2)] ++ exUndoChange ++
      undoListAll [some 2, some 1] exUndoChange) = .ret (sts, s') ∧ forward s' = .ret [some 2, some 1] := by
  obtain ⟨_, _, s₁, _, s₃, h1, _, h3, h4, _⟩ := C191_list exLFix_created (ops := [.pushBack (some 1), .pushFront (some 2)])
    (change := exUndoChange)
    (by
      intro op hop
      simp only [exUndoChange, List.cons_append, List.nil_append, List.mem_cons, List.not_mem_nil, or_false] at hop
      rcases hop with rfl | rfl | rfl | rfl | rfl | rfl | rfl <;> trivial)
    (by decide)
    (by
      show Serves _ _ _ [.pushBack (some 1), .pushFront (some 2), .popBack, .clear, .pushBack (some 5), .set 0 (some 7),
        .pushFrontOf 0, .popFront, .set 0 (some 5), .popBack, .pushBack (some 2), .pushBack (some 1)]
      simp only [Serves, Granted]
      decide)
  refine ⟨_, s₃, h3, h4.trans ?_⟩
  have : runList exLFix [.pushBack (some 1), .pushFront (some 2)] = _ := h1
  obtain ⟨s', g1, g2, _⟩ := C185_ample exLFix_created (ops := [.pushBack (some 1), .pushFront (some 2)])
    (by
      intro op hop
      simp only [List.mem_cons, List.not_mem_nil, or_false] at hop
      rcases hop with rfl | rfl <;> trivial)
    (by decide) (by simp only [Serves, Granted]; decide)
  rw [g1] at this
  obtain ⟨_, rfl⟩ := Prod.mk.inj (Out.ret.inj this)
  exact g2

/-- A vector on a buffer with two slots. -/
example : ∃ sts s', runVec exFixed [.push (some 20), .set 0 (some 30), .set 0 (some 10), .pop] = .ret (sts, s') ∧
    contents s' = .ret [some 10] := by
  obtain ⟨sts, s', h1, h2, _⟩ := C191_vector exFixed_reach (es := [some 10]) (by decide)
    (change := [.push (some 20), .set 0 (some 30)])
    (.cons (show Fits _ 2 by unfold Fits; decide) fun _ _ => .cons trivial fun _ _ => .cons trivial fun _ _ =>
      .cons trivial fun _ _ => .nil _)
    (by
      intro op hop
      simp only [List.mem_cons, List.not_mem_nil, or_false] at hop
      rcases hop with rfl | rfl <;> trivial)
    (Or.inr (by
      show Within _ _ [.push (some 20), .set 0 (some 30), .set 0 (some 10), .pop]
      simp only [Within]
      decide))
  exact ⟨sts, s', h1, h2⟩

/-- A bitset: all bits are flipped, one is popped, all are set; then everything is undone. -/
example : ∃ sts t', runBits exBits ([.flip, .pop, .setAll, .toggle 2] ++
      undoBitsAll (babsOf exBits).bits [.flip, .pop, .setAll, .toggle 2]) = .ret (sts, t') ∧
    bsGetSize t' = bsGetSize exBits :=
  let ⟨sts, t', h1, h2, _⟩ := C191_bitset exBits_reach (change := [.flip, .pop, .setAll, .toggle 2])
    (bDomains_sound _ (by decide +kernel))
  ⟨sts, t', h1, h2⟩

end Zy
