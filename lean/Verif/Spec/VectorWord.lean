import Verif.Model.VectorWord

/-!
# Requests that fit into a `size_t` with `m` values

The domain of the vector specification (`Fits`, `InDomain`, `AllInDomain`, `Reach` in `Spec/Vector.lean`
and `Spec/VectorRun.lean`), with the number `m` of values of `size_t` as a parameter.
-/

namespace Zy

open Spec

variable {α : Type}

/-- `n` elements are few enough that the size computations of the library fit into `size_t`. -/
def FitsW (m : Nat) (P : Params) (n : Nat) : Prop := n * 255 * P.esz < m

/-- The requests for which the library keeps the promise of `Spec.step` on a target whose `size_t` has
`m` values. -/
def InDomainW (m : Nat) (P : Params) (s : LState α) : VOp α → Prop
  | .push _ => FitsW m P (s.elems.length + 1)
  | .insertRange _ xs => FitsW m P (s.elems.length + xs.length)
  | .emplace i c =>
    FitsW m P (s.elems.length + 1) ∧
      ∀ f, c = some f → i < s.elems.length → ∀ x, failed (f x).1 = false
  | .deleteRange i n => i + n < m
  | .resize n _ => FitsW m P n
  | .reserve c => c * P.esz < m
  | _ => True

/-- Every operation of the history is in the domain, whatever the unspecified elements are. -/
inductive AllInDomainW (m : Nat) (P : Params) : LState α → List (VOp α) → Prop where
  | nil (s : LState α) : AllInDomainW m P s []
  | cons {s : LState α} {op : VOp α} {ops : List (VOp α)} (h : InDomainW m P s op)
      (t : ∀ junk, junk.length = junkLen s op → AllInDomainW m P (step P junk s op).2 ops) :
      AllInDomainW m P s (op :: ops)

/-- Vectors that a program can obtain on a target whose `size_t` has `m` values (compare `Reach`). -/
inductive ReachW (m : Nat) : Params → VS α → Prop where
  | init {P : Params} {w w' : World α} {cap a : Nat} {st : Status} {v : Vec α} (hw : Fresh w)
      (hr : Reliable w) (hP : P.allocator = some a ∧ P.growth ≤ 255 ∧ P.thr ≤ 255)
      (hc : max 1 cap * P.esz < m)
      (h : vecInitExW m w P.esz cap P.dtor (some a) P.growth P.thr = (st, some v, w')) :
      ReachW m P ⟨v, w'⟩
  | initBuffer {P : Params} {w : World α} {cap : Nat} {b : Block α} {st : Status} {v : Vec α}
      (hw : Fresh w) (hr : Reliable w) (hP : P.allocator = none ∧ P.growth = 1 ∧ P.thr = 0)
      (hb : cap ≤ b.cells.length) (he : P.esz < m)
      (h : vecInitBuffer P.esz (some b) cap P.dtor = (st, some v)) :
      ReachW m P ⟨v, w⟩
  | dup {P P₀ : Params} {s : VS α} {w w' : World α} {cap a : Nat} {st : Status} {v : Vec α}
      (h : ReachW m P₀ s) (hw : Fresh w) (hr : Reliable w)
      (hP : P.allocator = some a ∧ P.growth ≤ 255 ∧ P.thr ≤ 255 ∧ P.esz = P₀.esz ∧ P.dtor = P₀.dtor)
      (hc : max 1 cap * P.esz < m)
      (hd : vecDuplicateExW m w s.v cap (some a) P.growth P.thr = .ret (st, some v, w')) :
      ReachW m P ⟨v, w'⟩
  | dupBuffer {P P₀ : Params} {s : VS α} {w : World α} {cap : Nat} {b : Block α} {st : Status}
      {v : Vec α} (h : ReachW m P₀ s) (hw : Fresh w) (hr : Reliable w)
      (hP : P.allocator = none ∧ P.growth = 1 ∧ P.thr = 0 ∧ P.esz = P₀.esz ∧ P.dtor = P₀.dtor)
      (hb : cap ≤ b.cells.length)
      (hd : vecDuplicateBuffer s.v (some b) cap = .ret (st, some v)) :
      ReachW m P ⟨v, w⟩
  | step {P : Params} {s s' : VS α} {st : Status} {op : VOp α} (h : ReachW m P s)
      (hd : InDomainW m P (absOf s) op) (hs : vecOpW m s op = .ret (st, s')) : ReachW m P s'

end Zy
