import Verif.Spec.NullPointers
import Verif.Lemmas.VectorAlias
import Verif.Lemmas.StringProps
import Verif.Lemmas.VectorProps

/-!
# Lemmas about calls with null pointers
-/

namespace Zy

open Spec

variable {α σ : Type}

theorem dropRes_plain (r : Out (Status × σ)) : dropRes (plain r) = keepObj r := by
  cases r <;> rfl

theorem writeRes_null (s : σ) (st : Status) (x : Int) : writeRes s false (st, some x) = .ub .null := rfl

/-- A search that is not refused writes its result. -/
theorem findEx_writes {s : VS α} {eq : Cell α → Bool} {i n : Nat}
    (hr : ¬ (add64 i n > s.v.size ∨ i = s.v.size)) {r : Status × Option Int} (e : vecFindEx s eq i n = .ret r) :
    ∃ st x, r = (st, some x) := by
  unfold vecFindEx at e
  rw [if_neg hr] at e
  split at e
  · cases e; exact ⟨_, _, rfl⟩
  · unfold withData at e
    cases hd : s.v.data with
    | none => rw [hd] at e; cases e
    | some b =>
      rw [hd] at e
      simp only at e
      cases hf : findLoop b.cells eq i (add64 i n - i) with
      | ub w => rw [hf] at e; cases e
      | ret q => rw [hf] at e; cases e; exact ⟨_, _, rfl⟩

theorem binarySearchEx_writes {s : VS α} {cmp : Cell α → Int} {i n : Nat}
    (hr : ¬ ((i ≥ s.v.size ∧ n > 0) ∨ add64 i n > s.v.size)) {r : Status × Option Nat × List Nat}
    (e : vecBinarySearchEx s cmp i n = .ret r) : ∃ st x l, r = (st, some x, l) := by
  unfold vecBinarySearchEx at e
  rw [if_neg hr] at e
  split at e
  · cases e; exact ⟨_, _, _, rfl⟩
  · unfold withData at e
    cases hd : s.v.data with
    | none => rw [hd] at e; cases e
    | some b =>
      rw [hd] at e
      simp only at e
      cases hf : bsearchLoop b.cells cmp (n + 1) (toI64 i) (toI64 (sub64 (add64 i n) 1)) stFalse [] with
      | ub w => rw [hf] at e; cases e
      | ret q => rw [hf] at e; cases e; exact ⟨_, _, _, rfl⟩

/-- Emplacing with all pointers: the pointer to the new element is written exactly if room was made. -/
theorem emplaceAt_given (s : VS α) (i : Nat) (c : Ctor α) :
    dropRes (emplaceAt s i true c) = keepObj (vecEmplaceEx s i c) := by
  unfold emplaceAt
  by_cases hi : i > s.v.size
  · rw [if_pos hi]
    unfold vecEmplaceEx
    rw [if_pos hi]; rfl
  · rw [if_neg hi]
    cases hg : growFor s (add64 s.v.size 1) with
    | ub w =>
      unfold vecEmplaceEx
      rw [if_neg hi, hg]; rfl
    | ret g =>
      rw [Out.ret_bind']
      by_cases hf : failed g.1 = true
      · rw [if_pos hf]
        unfold vecEmplaceEx
        rw [if_neg hi, hg, Out.ret_bind', if_pos hf]; rfl
      · rw [if_neg hf, if_pos rfl]
        cases vecEmplaceEx s i c <;> rfl

/-- Emplacing without a place for the pointer. -/
theorem emplace_null {P : Params} {s : VS α} {a : LState α} {b : Block α} {slack : List (Cell α)}
    (R : Rep P s a b slack) {i : Nat} (hi : i ≤ s.v.size) (hf : Fits P (s.v.size + 1))
    (hroom : P.allocator.isSome ∨ s.v.size < s.v.cap) (c : Ctor α) : emplaceAt s i false c = .ub .null := by
  have h63 := R.len63
  have hs := R.size
  have hc := R.cap
  have hr : ∃ c, room P a.cap (a.elems.length + 1) = some c := by
    unfold room
    split
    · exact ⟨_, rfl⟩
    · rw [if_pos (hroom.resolve_right (by omega))]; exact ⟨_, rfl⟩
  obtain ⟨cap, hcap⟩ := hr
  obtain ⟨hn, s', b', sl', e, R'⟩ := growFor_some R (need := a.elems.length + 1) (by rw [← hs]; exact hf) (by omega) hcap
  unfold emplaceAt
  rw [if_neg (by omega), add64_eq (by omega), hs, e, Out.ret_bind']
  simp only [show failed stSuccess = false from rfl, Bool.false_eq_true, if_false]
  have hs' := R'.size
  split
  · obtain ⟨sx, ex⟩ : ∃ sx, shiftRight s' i 1 = .ret sx := by
      unfold shiftRight withData
      rw [R'.data]
      simp only
      have hl : b'.cells.length = a.elems.length + sl'.length := by rw [R'.cells]; simp
      have hroom' := R'.room
      simp only at hs' hroom'
      have hsub : sub64 s'.v.size i = s'.v.size - i := sub64_eq (by omega) (by omega)
      rw [hsub]
      unfold memmoveCells readRange writeRange
      rw [if_pos (by omega), Out.ret_bind', add64_eq (by omega), if_pos (by simp; omega), Out.ret_bind']
      exact ⟨_, rfl⟩
    rw [ex]; rfl
  · rfl

end Zy
