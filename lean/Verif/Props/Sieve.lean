import Verif.Lemmas.Sieve
import Verif.Props.Vector

/-!
# Properties: removing elements while going through a vector
-/

namespace Zy

open Spec

variable {α : Type}

/-- **C184**, forwards: the loop ends after at most as many rounds as there are elements. The elements that are not to
be removed are left, in their order; the others went to the destructor, each once and in their order. -/
theorem C184_forward {P : Params} {s : VS α} (h : Reach P s) {es : List (Cell α)} (he : contents s = .ret es)
    (p : Cell α → Bool) {n : Nat} (hn : es.length ≤ n) :
    ∃ s', sieveUp p n 0 s = .ret (s', s'.v.size) ∧ Reach P s' ∧ contents s' = .ret (es.filter fun x => !p x) ∧
      destroyedOf s'.w.trace = destroyedOf s.w.trace ++ killed P (es.filter p) := by
  obtain ⟨b, slack, R⟩ := h.rep
  rw [R.contents] at he
  injection he with he
  obtain ⟨s', e, h', he', hd'⟩ := sieveUp_ok p n es [] h he hn
  obtain ⟨b', slack', R'⟩ := h'.rep
  exact ⟨s', e, h', by rw [R'.contents, he']; rfl, hd'⟩

/-- **C184**, backwards: the same, in the reverse order of destruction. -/
theorem C184_backward {P : Params} {s : VS α} (h : Reach P s) {es : List (Cell α)} (he : contents s = .ret es)
    (p : Cell α → Bool) :
    ∃ s', sieveDown p s.v.size s = .ret s' ∧ Reach P s' ∧ contents s' = .ret (es.filter fun x => !p x) ∧
      destroyedOf s'.w.trace = destroyedOf s.w.trace ++ killed P (es.filter p).reverse := by
  obtain ⟨b, slack, R⟩ := h.rep
  rw [R.contents] at he
  injection he with he
  obtain ⟨s', e, h', he', hd'⟩ := sieveDown_ok p s.v.size es [] h (by rw [he, List.append_nil]) (by rw [R.size, he])
  obtain ⟨b', slack', R'⟩ := h'.rep
  exact ⟨s', e, h', by rw [R'.contents, he', List.append_nil], hd'⟩

/-- **C184**, in the loop macro, if at most the last element is to be removed. Missing: all other elements, see
`C184_foreach_negation`. -/
theorem C184_foreach_partial {P : Params} {s : VS α} (h : Reach P s) {es : List (Cell α)} (he : contents s = .ret es)
    {p : Cell α → Bool} (hp : ∀ x ∈ es.dropLast, p x = false) :
    ∃ s', vecForeach (sieveBody p) s 0 = .ret (s', es.length) ∧ Reach P s' ∧
      contents s' = .ret (es.filter fun x => !p x) ∧
      destroyedOf s'.w.trace = destroyedOf s.w.trace ++ killed P (es.filter p) := by
  obtain ⟨b, slack, R⟩ := h.rep
  rw [R.contents] at he
  injection he with he
  obtain ⟨s', e, h', he', hd'⟩ := sieve_last p es [] h he hp
  obtain ⟨b', slack', R'⟩ := h'.rep
  refine ⟨s', ?_, h', by rw [R'.contents, he']; rfl, hd'⟩
  unfold vecForeach
  rw [R.size, he]
  simpa using e

/-- **C184** is false of the loop macro: whenever an element is to be removed that is not the last one, the loop runs
behind the end of the vector and dereferences a null pointer. -/
theorem C184_foreach_negation {P : Params} {s : VS α} (h : Reach P s) {es : List (Cell α)} (he : contents s = .ret es)
    {p : Cell α → Bool} (hp : ∃ x ∈ es.dropLast, p x = true) : vecForeach (sieveBody p) s 0 = .ub .null := by
  obtain ⟨b, slack, R⟩ := h.rep
  rw [R.contents] at he
  injection he with he
  unfold vecForeach
  rw [R.size, he]
  exact sieve_each p es [] h he hp

/-! ## Examples -/

/-- The numbers above 15. -/
def above15 (x : Cell Nat) : Bool := decide (15 < x.getD 0)

example : Reach exP exS ∧ contents exS = .ret [some 10, some 20, some 30] := ⟨exS_reach, by decide⟩

example : (sieveUp above15 3 0 exS).bind (fun r => contents r.1) = .ret [some 10] := by decide

example : (sieveDown above15 3 exS).bind (fun s => .ret (destroyedOf s.w.trace)) =
    .ret (destroyedOf exS.w.trace ++ [some 30, some 20]) := by decide

example : ∀ x ∈ [some 10, some 20, some 30].dropLast, decide (25 < (x : Cell Nat).getD 0) = false := by decide

example : (vecForeach (sieveBody fun x => decide (25 < x.getD 0)) exS 0).bind (fun r => contents r.1) =
    .ret [some 10, some 20] := by decide

example : ∃ x ∈ [some 10, some 20, some 30].dropLast, above15 x = true := ⟨some 20, by decide, by decide⟩

end Zy
