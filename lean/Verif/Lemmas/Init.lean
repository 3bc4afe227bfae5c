import Verif.Model.String

/-!
# Lemmas about the constructors
-/

namespace Zy

variable {α : Type}

/-- What a successful `vecInitEx` returns. -/
theorem initEx_inv {w : World α} {esz cap growth shrink a : Nat} {dt : Bool} {st : Status} {v : Vec α}
    {w' : World α} (hi : vecInitEx w esz cap dt (some a) growth shrink = (st, some v, w'))
    (hst : failed st = false) :
    0 < esz ∧ v.cap = max 1 cap ∧ v.size = 0 ∧
      v.data = some ⟨w.nextBlk, List.replicate (grantedCells esz (max 1 cap)) none⟩ := by
  simp only [vecInitEx] at hi
  by_cases h0 : esz = 0 ∨ growth < 1
  · rw [if_pos h0] at hi; cases hi
  · rw [if_neg h0] at hi
    by_cases hf : failed (w.oracle w.calls) = true
    · simp only [allocate, if_pos hf, Prod.mk.injEq, Option.some.injEq] at hi
      rw [← hi.1, hf] at hst; cases hst
    · simp only [allocate, if_neg hf, Prod.mk.injEq, Option.some.injEq] at hi
      obtain ⟨_, rfl, _⟩ := hi
      exact ⟨by omega, rfl, rfl, rfl⟩

/-- Filling an empty vector up to its capacity if the block is too small. -/
theorem insert_oob {s : VS α} {b : Block α} (h0 : s.v.size = 0) (hd : s.v.data = some b) (hc : 0 < s.v.cap)
    (h64 : s.v.cap < 18446744073709551616) (hb : b.cells.length < s.v.cap) {xs : List (Cell α)}
    (hx : xs.length = s.v.cap) : vecInsertRange s 0 (.ext xs) s.v.cap = .ub .oob := by
  have e : growFor s (add64 s.v.size s.v.cap) = .ret (stSuccess, s) := by
    unfold growFor shouldGrow
    rw [h0, add64_eq (by omega), if_neg (by simp)]
  unfold vecInsertRange
  rw [if_neg (by simp only [Src.isNull]; simp; omega), if_neg (by omega), e]
  simp only [Out.ret_bind']
  rw [if_neg (by decide), if_neg (by omega)]
  simp only [Out.ret_bind', hd, withData, memcpyIn, readRange, writeRange]
  rw [if_pos (by omega)]
  simp only [Out.ret_bind', List.drop_zero]
  rw [if_neg (by rw [List.length_take]; omega)]
  rfl

end Zy
