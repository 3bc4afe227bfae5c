import Verif.Lemmas.Dictionary
import Verif.Props.Examples

/-!
# Properties: a sorted vector used as a dictionary
-/

namespace Zy

open Spec

variable {α : Type}

/-! ## C154: a dictionary -/

/-- **C154**. Programs of any length that store, discard and look up entries of a strictly ascending vector with an
allocator, at the places that binary search returns, succeed; every lookup answers what a dictionary answers; the
vector stays strictly ascending, and its entries are those of the dictionary. For every comparison of a total preorder;
`hf` says that the sizes fit into the machine word. -/
theorem C154_dictionary {P : Params} {s : VS α} (h : Reach P s) (hP : P.allocator.isSome) {es : List (Cell α)}
    (he : contents s = .ret es) {cmp : Cell α → Cell α → Int} (hc : Comparator cmp) (hs : StrictlyAscending cmp es)
    (cs : List (DictCmd (Cell α))) (hf : Fits P (es.length + cs.length)) :
    ∃ s' es', dictRun cmp s cs = .ret (stSuccess, s', dictAnswers cmp (entryIn cmp es) cs) ∧
      contents s' = .ret es' ∧ StrictlyAscending cmp es' ∧
      ∀ k, entryIn cmp es' k = cs.foldl (dictAfter cmp) (entryIn cmp es) k :=
  let ⟨s', es', h1, _, h2, h3, h4⟩ := dict_run hP hc cs h he hs hf
  ⟨s', es', h1, h2, h3, h4⟩

/-- **C154**: the entries determine a strictly ascending vector, when equal keys mean equal entries; so what the
vector holds does not depend on the order in which entries were stored. -/
theorem C154_canonical {cmp : Cell α → Cell α → Int} (hc : Comparator cmp) (hx : ∀ x y, cmp x y = 0 → x = y)
    {es fs : List (Cell α)} (h1 : StrictlyAscending cmp es) (h2 : StrictlyAscending cmp fs)
    (h : ∀ k, entryIn cmp es k = entryIn cmp fs k) : es = fs := by
  have hmem : ∀ {l : List (Cell α)} {x : Cell α}, x ∈ l ↔ entryIn cmp l x = some x := by
    intro l x
    unfold entryIn
    constructor
    · intro hx'
      cases e : l.find? (fun y => cmp y x == 0) with
      | none =>
        rw [List.find?_eq_none] at e
        have := e x hx'
        simp [hc.refl] at this
      | some y =>
        have := List.find?_some e
        simp only [beq_iff_eq] at this
        rw [hx y x this]
    · exact fun e => List.mem_of_find?_eq_some e
  have key : ∀ {es fs : List (Cell α)}, StrictlyAscending cmp es → StrictlyAscending cmp fs →
      (∀ x, x ∈ es ↔ x ∈ fs) → es = fs := by
    intro es
    induction es with
    | nil =>
      intro fs _ _ hm
      cases fs with
      | nil => rfl
      | cons b fs => exact absurd ((hm b).2 List.mem_cons_self) (by simp)
    | cons a es ih =>
      intro fs ha hb hm
      cases fs with
      | nil => exact absurd ((hm a).1 List.mem_cons_self) (by simp)
      | cons b fs =>
        have ha' := List.pairwise_cons.1 ha
        have hb' := List.pairwise_cons.1 hb
        have hab : a = b := by
          rcases List.mem_cons.1 ((hm a).1 List.mem_cons_self) with e | e
          · exact e
          · rcases List.mem_cons.1 ((hm b).2 List.mem_cons_self) with e' | e'
            · exact e'.symm
            · have h1 := hb'.1 a e
              have h2 := ha'.1 b e'
              have := (hc.gt_iff b a).2 h2
              omega
        subst hab
        congr 1
        refine ih ha'.2 hb'.2 fun x => ?_
        have hne : ∀ {l : List (Cell α)}, (∀ y ∈ l, cmp a y < 0) → a ∉ l := by
          intro l hl hmem
          have := hl a hmem
          rw [hc.refl] at this
          omega
        constructor
        · intro hx
          rcases List.mem_cons.1 ((hm x).1 (List.mem_cons_of_mem _ hx)) with rfl | h
          · exact absurd hx (hne ha'.1)
          · exact h
        · intro hx
          rcases List.mem_cons.1 ((hm x).2 (List.mem_cons_of_mem _ hx)) with rfl | h
          · exact absurd hx (hne hb'.1)
          · exact h
  exact key h1 h2 fun x => by rw [hmem, hmem, h x]

/-- A program on the vector 10, 20, 30. -/
def exDict : List (DictCmd (Cell Nat)) :=
  [.lookup (some 20), .store (some 15), .discard (some 20), .lookup (some 20), .lookup (some 15), .store (some 15)]

example : ∃ s' es', dictRun exNumCmp exS exDict = .ret (stSuccess, s', [some (some 20), none, some (some 15)]) ∧
    contents s' = .ret es' ∧ StrictlyAscending exNumCmp es' :=
  let ⟨s', es', h1, h2, h3, _⟩ := C154_dictionary exS_reach rfl rfl exNumCmp_ok
    (by unfold StrictlyAscending; decide) exDict (by show _ < _; decide)
  ⟨s', es', h1, h2, h3⟩
example : (dictRun exNumCmp exS exDict).bind (fun r => contents r.2.1) = .ret [some 10, some 15, some 30] := by
  decide +kernel
example : ∀ x y, exNumCmp x y = 0 → x = y := by
  intro x y h
  unfold exNumCmp at h
  cases x <;> cases y <;> simp [Option.elim] at h ⊢ <;> omega

end Zy
