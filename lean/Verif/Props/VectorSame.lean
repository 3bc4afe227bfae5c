import Verif.Lemmas.VectorSame
import Verif.Props.Vector

/-!
# Property theorems: the capacity of a vector is not seen (C186)

`Spec.plainStep` is a list without capacity. `Spec.Within` says that a history never needs more slots than a caller buffer
has.
-/

namespace Zy

open Spec

variable {α : Type}

/-- **C186**: whatever its allocator, growth factor, threshold and capacity, a vector returns the statuses of a plain list
and has its elements; the destructor receives the same elements in the same order. For a vector on a caller buffer, the
buffer must have the slots that the history needs. -/
theorem C186_plain {P : Params} {s : VS α} (h : Reach P s) {es : List (Cell α)} (he : contents s = .ret es)
    {ops : List (VOp α)} (hd : AllInDomain P (absOf s) ops) (hp : ∀ op ∈ ops, Plain op)
    (hw : P.allocator.isSome ∨ Within (vecGetCapacity s) es ops) :
    ∃ s', runVec s ops = .ret ((plainRun es ops).1, s') ∧ contents s' = .ret (plainRun es ops).2.1 ∧
      destroyedOf s'.w.trace = destroyedOf s.w.trace ++ (if P.dtor then (plainRun es ops).2.2 else []) := by
  obtain ⟨b, slack, R⟩ := h.rep
  rw [R.contents] at he
  injection he with he
  obtain ⟨sts, s', a', h1, h2, h3, _, _, h4⟩ := C01_vector_behaves_like_list h ops hd
  obtain ⟨e1, e2, e3⟩ := runs_plain h2 hp (by rw [he]; exact hw)
  rw [he] at e1 e2 e3
  exact ⟨s', by rw [h1, e1], by rw [h3, e2], by rw [h4, e3]; rfl⟩

/-- **C186**: two vectors with the same elements that differ in all parameters cannot be told apart by their statuses,
their elements, and what the destructor receives. -/
theorem C186_two {P₁ P₂ : Params} {s₁ s₂ s₁' s₂' : VS α} (h₁ : Reach P₁ s₁) (h₂ : Reach P₂ s₂)
    (hdt : P₁.dtor = P₂.dtor) {es : List (Cell α)} (he₁ : contents s₁ = .ret es) (he₂ : contents s₂ = .ret es)
    {ops : List (VOp α)} (hd₁ : AllInDomain P₁ (absOf s₁) ops) (hd₂ : AllInDomain P₂ (absOf s₂) ops)
    (hp : ∀ op ∈ ops, Plain op) (hw₁ : P₁.allocator.isSome ∨ Within (vecGetCapacity s₁) es ops)
    (hw₂ : P₂.allocator.isSome ∨ Within (vecGetCapacity s₂) es ops) {sts₁ sts₂ : List Status}
    (hr₁ : runVec s₁ ops = .ret (sts₁, s₁')) (hr₂ : runVec s₂ ops = .ret (sts₂, s₂')) :
    sts₁ = sts₂ ∧ contents s₁' = contents s₂' ∧ ∃ dead, destroyedOf s₁'.w.trace = destroyedOf s₁.w.trace ++ dead ∧
      destroyedOf s₂'.w.trace = destroyedOf s₂.w.trace ++ dead := by
  obtain ⟨_, a1, a2, a3⟩ := C186_plain h₁ he₁ hd₁ hp hw₁
  obtain ⟨_, b1, b2, b3⟩ := C186_plain h₂ he₂ hd₂ hp hw₂
  obtain ⟨rfl, rfl⟩ := Prod.mk.inj (Out.ret.inj (hr₁.symm.trans a1))
  obtain ⟨rfl, rfl⟩ := Prod.mk.inj (Out.ret.inj (hr₂.symm.trans b1))
  exact ⟨rfl, by rw [a2, b2], _, a3, by rw [b3, hdt]⟩

/-- **C186**, the exception in the documentation: swapping needs a free slot. Of two vectors with the same elements, one
full and one not, the first refuses every swap that the second does. -/
theorem C186_swap {P₁ P₂ : Params} {s₁ s₂ : VS α} (h₁ : Reach P₁ s₁) (h₂ : Reach P₂ s₂) {es : List (Cell α)}
    (he₁ : contents s₁ = .ret es) (he₂ : contents s₂ = .ret es) (hf₁ : vecGetCapacity s₁ = es.length)
    (hf₂ : es.length < vecGetCapacity s₂) {i j : Nat} (hi : i < es.length) (hj : j < es.length) :
    vecSwap s₁ i j = .ret (stInsufficient, s₁) ∧ ∃ s', vecSwap s₂ i j = .ret (stSuccess, s') := by
  have hz : ∀ {P : Params} {s : VS α}, Reach P s → contents s = .ret es → s.v.size = es.length := by
    intro P s h he
    obtain ⟨b, slack, R⟩ := h.rep
    rw [R.contents] at he
    injection he with he
    rw [R.size, he]
  have z₁ := hz h₁ he₁
  have z₂ := hz h₂ he₂
  refine ⟨C12_swap_full i j (by omega) (by omega) (by rw [z₁]; exact hf₁.symm), ?_⟩
  obtain ⟨s', _, e, _⟩ := C12_swap h₂ he₂ i j hi hj (by rw [z₂]; exact hf₂)
  exact ⟨s', e⟩

/-! ## Examples -/

/-- One element, on a vector with allocator, growth factor 3 and no shrinking. -/
def exWideP : Params := ⟨some 4, 3, 0, 8, true⟩

def exWide0 : VS Nat :=
  ⟨{ allocator := some 4, growth := 3, shrink := 0, size := 0, cap := 1, esz := 8, hasDtor := true,
     data := some ⟨0, [none]⟩ }, ⟨fun _ => stSuccess, 1, 1, [.alloc 4 0 8 1]⟩⟩

def exWide : VS Nat :=
  ⟨{ allocator := some 4, growth := 3, shrink := 0, size := 1, cap := 1, esz := 8, hasDtor := true,
     data := some ⟨0, [some 10]⟩ }, ⟨fun _ => stSuccess, 1, 1, [.alloc 4 0 8 1]⟩⟩

theorem exWide_reach : Reach exWideP exWide := by
  have h0 : Reach exWideP exWide0 :=
    Reach.init (w := exW) (cap := 1) (a := 4) ⟨rfl, rfl⟩ (fun _ => failed_success) ⟨rfl, by decide, by decide⟩
      (by decide) rfl
  exact Reach.step (op := .push (some 10)) h0 (by show _ < _; decide) rfl

/-- A history that needs two slots. -/
def exPlainOps : List (VOp Nat) :=
  [.push (some 20), .set 0 (some 30), .pop, .deleteRange 5 1, .insertRange 0 [some 1]]

theorem exPlainOps_plain : ∀ op ∈ exPlainOps, Plain op := by
  intro op hop
  simp only [exPlainOps, List.mem_cons, List.not_mem_nil, or_false] at hop
  rcases hop with rfl | rfl | rfl | rfl | rfl <;> trivial

theorem exPlainOps_domain {P : Params} (hP : P.esz = 8) {a : LState Nat} (ha : a.elems = [some 10])
    (hc : a.cap = 1 ∧ P.allocator.isSome ∨ a.cap = 2) :
    AllInDomain P a exPlainOps := by
  have fits : ∀ n, n < 1000 → Fits P n := by intro n h; unfold Fits; rw [hP]; omega
  have hk : P.allocator.isSome ∨ Within a.cap a.elems exPlainOps := by
    rcases hc with ⟨_, h⟩ | h
    · exact Or.inl h
    · refine Or.inr ?_
      rw [ha, h]
      simp only [exPlainOps, Within]
      decide
  obtain ⟨elems, cap, dead⟩ := a
  dsimp only at ha
  subst ha
  refine .cons (fits 2 (by decide)) fun j1 _ => ?_
  obtain ⟨_, e1, _, c1⟩ := step_plain j1 (show Plain (.push (some 20)) from trivial) (hk.imp_right fun h => h.1)
  refine .cons trivial fun j2 _ => .cons trivial fun j3 _ => .cons ?_ fun j4 _ => .cons ?_ fun j5 _ => .nil _
  · show 5 + 1 < _; decide
  · refine fits _ ?_
    generalize hs1 : (step P j1 ⟨[some 10], cap, dead⟩ (.push (some 20))).2 = s1 at e1 c1 ⊢
    have e1 : s1.elems = [some 10, some 20] := e1
    obtain ⟨_, e2, _⟩ := step_plain (a := s1) j2 (show Plain (.set 0 (some 30)) from trivial) (Or.inr (Nat.zero_le _))
      (P := P)
    generalize (step P j2 s1 (.set 0 (some 30))).2 = s2 at e2 ⊢
    have e2 : s2.elems = [some 30, some 20] := by rw [e2, e1]; rfl
    obtain ⟨_, e3, _⟩ := step_plain (a := s2) j3 (show Plain .pop from trivial) (Or.inr (Nat.zero_le _)) (P := P)
    generalize (step P j3 s2 .pop).2 = s3 at e3 ⊢
    have e3 : s3.elems = [some 30] := by rw [e3, e2]; rfl
    obtain ⟨_, e4, _⟩ := step_plain (a := s3) j4 (show Plain (.deleteRange 5 1) from trivial) (Or.inr (Nat.zero_le _))
      (P := P)
    rw [e4, e3]
    decide

example : plainRun [some 10] exPlainOps =
    ([stSuccess, stSuccess, stSuccess, stOutOfRange, stSuccess], [some 1, some 30], [some 10, some 20]) := by decide

example : contents exWide = .ret [some 10] ∧ contents exFixed = .ret [some 10] ∧
    Within (vecGetCapacity exFixed) [some 10] exPlainOps := by
  refine ⟨by decide, by decide, ?_⟩
  simp only [exPlainOps, Within]
  decide

example {s₁' s₂' : VS Nat} {sts₁ sts₂ : List Status} (hr₁ : runVec exWide exPlainOps = .ret (sts₁, s₁'))
    (hr₂ : runVec exFixed exPlainOps = .ret (sts₂, s₂')) : contents s₁' = contents s₂' :=
  (C186_two exWide_reach exFixed_reach rfl (es := [some 10]) (by decide) (by decide)
    (exPlainOps_domain rfl rfl (Or.inl ⟨rfl, rfl⟩)) (exPlainOps_domain rfl rfl (Or.inr rfl))
    exPlainOps_plain (Or.inl rfl) (Or.inr (by simp only [exPlainOps, Within]; decide)) hr₁ hr₂).2.1

example : vecSwap exWide 0 0 = .ret (stInsufficient, exWide) ∧ ∃ s', vecSwap exFixed 0 0 = .ret (stSuccess, s') :=
  C186_swap exWide_reach exFixed_reach (es := [some 10]) (by decide) (by decide) rfl (by decide) (by decide) (by decide)

end Zy
