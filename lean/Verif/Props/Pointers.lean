import Verif.Lemmas.Pointers
import Verif.Props.Examples

/-!
# Property theorems: how long a pointer to an element is good (C180)

`Reach P s` are the vectors a program can obtain, `absOf` what is observable of them (both in `Verif.Spec.VectorRun`);
`Moves`, `Spares` and `AtRest` are in `Verif.Spec.Pointers`.
-/

namespace Zy

open Spec

variable {α : Type}

/-- C180, a fresh pointer: it is given for exactly the positions of elements, and the element is behind it. -/
theorem C180_fresh {P : Params} {s : VS α} (h : Reach P s) (k : Nat) :
    (∀ x, (absOf s).elems[k]? = some x → ∃ p, vecGetMutable s k = some p ∧ readThrough s p = .ret x) ∧
      ((absOf s).elems[k]? = none → vecGetMutable s k = none) := by
  obtain ⟨b, slack, R⟩ := h.rep
  refine ⟨fun x hx => ⟨⟨b.id, k⟩, (getMutable_rep R _ _).2 ⟨(List.getElem?_eq_some_iff.1 hx).1, rfl⟩,
    readThrough_rep R hx⟩, fun hn => ?_⟩
  cases hp : vecGetMutable s k with
  | none => rfl
  | some p =>
    have h1 := ((getMutable_rep R _ _).1 hp).1
    have h2 := List.getElem?_eq_none_iff.1 hn
    omega

/-- C180, one call: a request that needs other memory makes the pointer dangling; one that does not, and leaves the
element alone, leaves the pointer good: the same element is behind it, and asking again gives the same pointer. -/
theorem C180_call {P : Params} {s s' : VS α} (h : Reach P s) {k : Nat} {p : EPtr} (hp : vecGetMutable s k = some p)
    {op : VOp α} (hd : InDomain P (absOf s) op) {st : Status} (hs : vecOp s op = .ret (st, s')) :
    (Moves P (absOf s) op → readThrough s' p = .ub .uaf) ∧
      (¬ Moves P (absOf s) op → Spares (absOf s) k op →
        ∃ x, (absOf s).elems[k]? = some x ∧ readThrough s' p = .ret x ∧ vecGetMutable s' k = some p) := by
  obtain ⟨b, slack, R⟩ := h.rep
  obtain ⟨hk, rfl⟩ := (getMutable_rep R _ _).1 hp
  obtain ⟨junk, b', slack', _, R', hm, hn⟩ := step_loc R hd hs
  refine ⟨fun hmv => readThrough_gone R' ?_, fun hmv hsp => ?_⟩
  · have h1 := hm hmv
    have h2 := R.old (moves_dyn hmv)
    show b.id ≠ b'.id
    omega
  · have hx : (absOf s).elems[k]? = some (absOf s).elems[k] := List.getElem?_eq_getElem hk
    have hx' := (spares_elem (P := P) (junk := junk) hk hsp).trans hx
    refine ⟨_, hx, ?_⟩
    rw [← hn hmv]
    exact ⟨readThrough_rep R' hx', (getMutable_rep R' _ _).2 ⟨(List.getElem?_eq_some_iff.1 hx').1, rfl⟩⟩

/-- C180, any history of calls none of which needs other memory or touches the element: the pointer stays good. -/
theorem C180_history {P : Params} {s s' : VS α} (h : Reach P s) {k : Nat} {p : EPtr}
    (hp : vecGetMutable s k = some p) {ops : List (VOp α)} (hd : AllInDomain P (absOf s) ops)
    (hq : AtRest P k (absOf s) ops) {sts : List Status} (hr : runVec s ops = .ret (sts, s')) :
    ∃ x, (absOf s).elems[k]? = some x ∧ readThrough s' p = .ret x ∧ vecGetMutable s' k = some p := by
  obtain ⟨b, slack, R⟩ := h.rep
  obtain ⟨hk, rfl⟩ := (getMutable_rep R _ _).1 hp
  exact ⟨_, List.getElem?_eq_getElem hk, quiet_run ops R (List.getElem?_eq_getElem hk) hd hq hr⟩

/-- C180, a pointer that is dangling is never good again, whatever is called afterwards. -/
theorem C180_forever {P : Params} {s s1 s' : VS α} (h : Reach P s) {k : Nat} {p : EPtr}
    (hp : vecGetMutable s k = some p) {op : VOp α} (hd : InDomain P (absOf s) op) (hm : Moves P (absOf s) op)
    {st : Status} (hs : vecOp s op = .ret (st, s1)) {ops : List (VOp α)} (hds : AllInDomain P (absOf s1) ops)
    {sts : List Status} (hr : runVec s1 ops = .ret (sts, s')) : readThrough s' p = .ub .uaf := by
  obtain ⟨b, slack, R⟩ := h.rep
  obtain ⟨hk, rfl⟩ := (getMutable_rep R _ _).1 hp
  obtain ⟨junk, b', slack', _, R', hmv, _⟩ := step_loc R hd hs
  rw [R'.abs_eq] at hds
  have h1 := hmv hm
  have h2 := R.old (moves_dyn hm)
  exact gone_run ops R' (moves_dyn hm) (show b.id < b'.id by omega) hds hr

/-- C180, a vector on a buffer of the caller: no call makes a pointer dangling. -/
theorem C180_buffer {P : Params} (hP : P.allocator = none) (l : LState α) (op : VOp α) : ¬ Moves P l op := by
  intro h
  have := moves_dyn h
  simp [hP] at this

/-- C180, room reserved in advance: after `ZyanVectorReserve` for `c` elements, elements can be appended up to `c` in
total, and every pointer to an element that was taken after the reservation is still good. -/
theorem C180_reserved {P : Params} {s s1 s' : VS α} (h : Reach P s) (hP : P.allocator.isSome) {c : Nat}
    (hd : c * P.esz < 18446744073709551616) {st : Status} (hs : vecReserve s c = .ret (st, s1)) {xs : List (Cell α)}
    (hc : (absOf s).elems.length + xs.length ≤ c) (hf : Fits P ((absOf s).elems.length + xs.length))
    {sts : List Status} (hr : runVec s1 (xs.map .push) = .ret (sts, s')) {k : Nat} {p : EPtr}
    (hp : vecGetMutable s1 k = some p) :
    ∃ x, (absOf s).elems[k]? = some x ∧ readThrough s' p = .ret x ∧ vecGetMutable s' k = some p := by
  have h1 : Reach P s1 := Reach.step (op := .reserve c) h hd hs
  obtain ⟨b, slack, R⟩ := h.rep
  obtain ⟨junk, b', slack', _, R', _⟩ := step_loc R (op := .reserve c) hd hs
  have e : (absOf s1).elems = (absOf s).elems ∧ c ≤ (absOf s1).cap := by
    rw [R'.abs_eq]
    simp only [step]
    by_cases hle : c ≤ (absOf s).cap
    · rw [if_pos hle]
      exact ⟨rfl, hle⟩
    · rw [if_neg hle, if_pos hP]
      exact ⟨rfl, Nat.le_refl _⟩
  have hl : (absOf s1).elems.length + xs.length ≤ (absOf s1).cap := by
    rw [e.1]
    exact Nat.le_trans hc e.2
  have := C180_history h1 hp (domain_pushes xs hl (by rw [e.1]; exact hf)) (quiet_pushes xs hl) hr
  rw [e.1] at this
  exact this

/-! ## Examples -/

/-- One more element fits: a pointer to the second element is still good. -/
example : vecGetMutable exS 1 = some ⟨1, 1⟩ ∧ ∃ st s', vecOp exS (.push (some 40)) = .ret (st, s') ∧
    readThrough s' ⟨1, 1⟩ = .ret (some 20) := by
  obtain ⟨x, hx, h1, _⟩ := (C180_call exS_reach (k := 1) (p := ⟨1, 1⟩) rfl (op := .push (some 40))
    (by show _ < _; decide) rfl).2 (by rintro ⟨_, h⟩; revert h; decide) trivial
  have : x = some 20 := by
    have e : (absOf exS).elems[1]? = some (some 20) := rfl
    rw [e] at hx
    exact (Option.some.inj hx).symm
  subst this
  exact ⟨rfl, _, _, rfl, h1⟩

/-- Two more do not: it dangles, also when the vector has been emptied again. -/
example : ∃ sts s', runVec exS [.insertRange 3 [some 40, some 50], .clear, .push (some 1)] = .ret (sts, s') ∧
    readThrough s' ⟨1, 1⟩ = .ub .uaf := ⟨_, _, rfl, rfl⟩

example : ∀ s' st, vecOp exS (.insertRange 3 [some 40, some 50]) = .ret (st, s') →
    readThrough s' ⟨1, 1⟩ = .ub .uaf := fun _ _ h =>
  (C180_call exS_reach (k := 1) (p := ⟨1, 1⟩) rfl (op := .insertRange 3 [some 40, some 50])
    (by show _ < _; decide) h).1 ⟨rfl, ⟨by simp, by decide⟩, by decide⟩

/-- After a reservation for six elements, three can be appended. -/
example : ∃ s1 s' sts, vecReserve exS 6 = .ret (stSuccess, s1) ∧
    runVec s1 ([some 1, some 2, some 3].map .push) = .ret (sts, s') ∧ vecGetMutable s1 2 = some ⟨2, 2⟩ ∧
    readThrough s' ⟨2, 2⟩ = .ret (some 30) := by
  obtain ⟨x, hx, h1, _⟩ := C180_reserved exS_reach rfl (c := 6) (by decide) (st := stSuccess) rfl
    (xs := [some 1, some 2, some 3]) (by decide) (by show _ < _; decide) rfl (k := 2) (p := ⟨2, 2⟩) rfl
  have : x = some 30 := by
    have e : (absOf exS).elems[2]? = some (some 30) := rfl
    rw [e] at hx
    exact (Option.some.inj hx).symm
  subst this
  exact ⟨_, _, _, rfl, rfl, rfl, h1⟩

example : ¬ Moves exFixedP (⟨[some 1], 2, []⟩ : LState Nat) (.push (some 5)) := C180_buffer rfl _ _

end Zy
