import Verif.Spec.Numbers
import Verif.Lemmas.Split
import Verif.Lemmas.NumOrder

/-!
# Lemmas: numbers written one behind the other
-/

namespace Zy

open Spec

/-- What is written for one number. -/
abbrev entry (w n : Nat) : List Byte := padded w (numeral 10 false n)

theorem entry_length {w n : Nat} (hn : n < 18446744073709551616) (hw : w ≤ 255) : (entry w n).length ≤ 255 := by
  have := padded_length_le (w := w) hn 10 (by decide) false
  unfold entry
  omega

theorem entry_free {c : Byte} (hc : Separates c) (w n : Nat) : c ∉ entry w n := by
  unfold entry
  rw [padded_numeral]
  intro h
  obtain ⟨d, hd, rfl⟩ := List.mem_map.1 h
  exact hc.2 d (paddedDigits_bound (by decide) w n d hd) rfl

theorem appendNumber_ok {P : Params} (hP : P.allocator.isSome) {t : Str} {c : Nat} {b : Block Byte}
    {sl : List (Cell Byte)} {pre : List Byte} (R : SRep P t ⟨pre.map some, c⟩ b sl) {n w : Nat}
    (hn : n < 18446744073709551616) (hw : w ≤ 255) (hf : SFits (pre.length + 300)) :
    ∃ t' c' b' sl', strAppendDecU t n w = .ret (stSuccess, t') ∧ SRep P t' ⟨(pre ++ entry w n).map some, c'⟩ b' sl' := by
  obtain ⟨h1, _, h3⟩ := decU_res R hn hw (by simpa using hf)
  have hd : P.allocator ≠ none := by
    intro h
    rw [h] at hP
    cases hP
  by_cases hle : (pre.map (some : Byte → Cell Byte)).length + ((entry w n).map (some : Byte → Cell Byte)).length + 1 ≤ c
  · obtain ⟨t', b', sl', e, R'⟩ := h1 hle
    exact ⟨t', c, b', sl', e, by rw [List.map_append]; exact R'⟩
  · obtain ⟨c', _, _, t', b', sl', e, R'⟩ := h3 (Nat.lt_of_not_le hle) hd
    exact ⟨t', c', b', sl', e, by rw [List.map_append]; exact R'⟩

theorem writeNumbers_ok {P : Params} (hP : P.allocator.isSome) {y : List Byte} {w : Nat} (hw : w ≤ 255) :
    ∀ (ns : List Nat) {t : Str} {c : Nat} {b : Block Byte} {sl : List (Cell Byte)} {pre : List Byte},
      SRep P t ⟨pre.map some, c⟩ b sl → (∀ n ∈ ns, n < 18446744073709551616) →
      SFits (pre.length + ns.length * (300 + y.length) + 1) →
      ∃ t' c' b' sl', writeNumbers (litView y) w t ns = .ret (stSuccess, t') ∧
        SRep P t' ⟨(pre ++ joined y (ns.map (entry w))).map some, c'⟩ b' sl' := by
  intro ns
  induction ns with
  | nil =>
    intro t c b sl pre R _ _
    exact ⟨t, c, b, sl, rfl, by simpa [joined] using R⟩
  | cons n ns ih =>
    intro t c b sl pre R hr hf
    have hlen : (entry w n).length ≤ 255 := entry_length (hr n (List.mem_cons_self)) hw
    have hmul : (ns.length + 1) * (300 + y.length) = ns.length * (300 + y.length) + (300 + y.length) := Nat.succ_mul _ _
    rw [List.length_cons, hmul] at hf
    obtain ⟨t1, c1, b1, sl1, e1, R1⟩ := appendNumber_ok hP R (hr n (List.mem_cons_self)) hw (hf.mono (by omega))
    cases ns with
    | nil => exact ⟨t1, c1, b1, sl1, e1, by simpa [joined] using R1⟩
    | cons n' ns =>
      obtain ⟨t2, c2, b2, sl2, e2, R2⟩ := appendLit_ok hP (y := y) R1 (hf.mono (by simp only [List.length_append]; omega))
      obtain ⟨t', c', b', sl', e3, R'⟩ := ih R2 (fun q hq => hr q (List.mem_cons_of_mem _ hq))
        (hf.mono (by simp only [List.length_append]; omega))
      refine ⟨t', c', b', sl', ?_, ?_⟩
      · rw [writeNumbers]
        · rw [e1, Out.ret_bind']
          dsimp only
          rw [if_neg (by rw [failed_success]; decide), e2, Out.ret_bind']
          dsimp only
          rw [if_neg (by rw [failed_success]; decide), e3]
        · exact List.cons_ne_nil _ _
      · simpa [joined, List.append_assoc] using R'

theorem joined_length {y : List Byte} {k : Nat} : ∀ (ps : List (List Byte)), (∀ p ∈ ps, p.length ≤ k) →
    (joined y ps).length ≤ ps.length * (k + y.length)
  | [], _ => by simp [joined]
  | [p], h => by
    have := h p (by simp)
    simp only [joined, List.length_cons, List.length_nil, Nat.zero_add, Nat.one_mul]
    omega
  | p :: q :: ps, h => by
    have h1 := h p (by simp)
    have ih := joined_length (y := y) (q :: ps) (fun x hx => h x (List.mem_cons_of_mem _ hx))
    have hm : ((q :: ps).length + 1) * (k + y.length) = (q :: ps).length * (k + y.length) + (k + y.length) :=
      Nat.succ_mul _ _
    show (p ++ y ++ joined y (q :: ps)).length ≤ ((q :: ps).length + 1) * (k + y.length)
    rw [hm, List.length_append, List.length_append]
    omega

end Zy
