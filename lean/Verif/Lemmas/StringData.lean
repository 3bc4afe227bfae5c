import Verif.Model.StringData
import Verif.Lemmas.StringProps

/-!
# Lemmas about `strlen`
-/

namespace Zy

/-- The number of characters before the first NUL byte, or all. -/
theorem cStrlen_first (x : List Byte) (rest : List (Cell Byte)) :
    cStrlen (x.map some ++ some 0#8 :: rest) = .ret (x.takeWhile (· ≠ 0#8)).length := by
  induction x with
  | nil => simp [cStrlen]
  | cons c x ih =>
    simp only [List.map_cons, List.cons_append, cStrlen, ih, Out.ret_bind']
    by_cases h : c = 0#8 <;> simp [h]

theorem cStrlen_indet (x : List Byte) (h : 0#8 ∉ x) (rest : List (Cell Byte)) :
    cStrlen (x.map some ++ none :: rest) = .ub .indet := by
  induction x with
  | nil => simp [cStrlen]
  | cons c x ih =>
    simp only [List.mem_cons, not_or] at h
    simp only [List.map_cons, List.cons_append, cStrlen, ih h.2, if_neg fun e => h.1 (Eq.symm e)]
    rfl

theorem cStrlen_end (x : List Byte) (h : 0#8 ∉ x) : cStrlen (x.map some) = .ub .oob := by
  induction x with
  | nil => simp [cStrlen]
  | cons c x ih =>
    simp only [List.mem_cons, not_or] at h
    simp only [List.map_cons, cStrlen, ih h.2, if_neg fun e => h.1 (Eq.symm e)]
    rfl

theorem takeWhile_ne_iff (x : List Byte) : (x.takeWhile (· ≠ 0#8)).length = x.length ↔ 0#8 ∉ x := by
  induction x with
  | nil => simp
  | cons c x ih =>
    by_cases h : c = 0#8
    · subst h; simp
    · have : ¬ (0#8 : Byte) = c := fun e => h e.symm
      simp only [List.takeWhile_cons, h, decide_not, decide_false, Bool.not_false, if_true, List.length_cons,
        Nat.add_right_cancel_iff, List.mem_cons, not_or, this, not_false_eq_true, true_and]
      rw [← ih]
      simp

end Zy
