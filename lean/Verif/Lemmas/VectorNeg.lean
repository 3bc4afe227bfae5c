import Verif.Lemmas.VectorProps

/-!
# Helper lemmas for `Props/VectorNeg`
-/

namespace Zy

open Spec

variable {α : Type}

theorem reallocTo_size {s : VS α} {a c : Nat} {st : Status} {s' : VS α}
    (h : reallocTo s a c = .ret (st, s')) : s'.v.size = s.v.size := by
  unfold reallocTo at h
  cases hd : s.v.data with
  | none => simp [hd, withData] at h
  | some b =>
    simp only [hd, withData] at h
    split at h <;> (injection h with h; rw [← (Prod.mk.inj h).2])

theorem reallocTo_ret {s : VS α} {b : Block α} (hd : s.v.data = some b) (a c : Nat) :
    ∃ r, reallocTo s a c = .ret r := by
  unfold reallocTo
  simp only [hd, withData]
  split <;> exact ⟨_, rfl⟩

theorem reallocTo_data {s : VS α} {a c : Nat} {st : Status} {s' : VS α}
    (h : reallocTo s a c = .ret (st, s')) : ∃ b', s'.v.data = some b' := by
  unfold reallocTo at h
  cases hd : s.v.data with
  | none => simp [hd, withData] at h
  | some b =>
    simp only [hd, withData] at h
    split at h <;> (injection h with h; rw [← (Prod.mk.inj h).2]; exact ⟨_, rfl⟩)

theorem shrinkAfter_ret {s : VS α} {b : Block α} (hd : s.v.data = some b) :
    ∃ st s', shrinkAfter s = .ret (st, s') ∧ s'.v.size = s.v.size ∧ ∃ b', s'.v.data = some b' := by
  unfold shrinkAfter
  split
  · unfold reallocate
    cases s.v.allocator with
    | none => simp only; split <;> exact ⟨_, _, rfl, rfl, b, hd⟩
    | some a =>
      simp only
      have key : ∀ c, ∃ st s', reallocTo s a c = .ret (st, s') ∧ s'.v.size = s.v.size ∧
          ∃ b', s'.v.data = some b' := by
        intro c
        obtain ⟨⟨st, s'⟩, e⟩ := reallocTo_ret hd a c
        exact ⟨st, s', e, reallocTo_size e, reallocTo_data e⟩
      split
      · split
        · exact key 1
        · exact ⟨_, _, rfl, rfl, b, hd⟩
      · exact key _
  · exact ⟨_, _, rfl, rfl, b, hd⟩

/-- A deletion whose `index + count` wraps to a value inside of the vector. -/
theorem deleteRange_wrapped {P : Params} {s : VS α} {a : LState α} {b : Block α} {slack : List (Cell α)}
    (R : Rep P s a b slack) (i n : Nat) (hi : i < 18446744073709551616) (hn : n < 18446744073709551616)
    (hn0 : n ≠ 0) (hwrap : 18446744073709551616 ≤ i + n)
    (hin : i + n - 18446744073709551616 ≤ s.v.size) :
    vecDeleteRange s i n = .ub .oob ∨
    ∃ st s', vecDeleteRange s i n = .ret (st, s') ∧
      s'.v.size = (s.v.size + 18446744073709551616 - n) % 18446744073709551616 ∧
      ∃ b', s'.v.data = some b' := by
  have h63 : s.v.size < 9223372036854775808 := R.size ▸ R.len63
  have hadd : add64 i n = i + n - 18446744073709551616 := by
    unfold add64; omega
  have hsub : sub64 s.v.size n = (s.v.size + 18446744073709551616 - n) % 18446744073709551616 := by
    unfold sub64; omega
  have hdt : runDtors s i (add64 i n) = .ret s := by
    unfold runDtors
    have : add64 i n - i = 0 := by omega
    rw [this]
    split <;> rfl
  have fin : ∀ b' : Block α, ∃ st s',
      shrinkAfter ⟨{ s.v with data := some b', size := sub64 s.v.size n }, s.w⟩ = .ret (st, s') ∧
      s'.v.size = (s.v.size + 18446744073709551616 - n) % 18446744073709551616 ∧
      ∃ b', s'.v.data = some b' := by
    intro b'
    obtain ⟨st, s', e, hsz, hd⟩ := shrinkAfter_ret
      (s := ⟨{ s.v with data := some b', size := sub64 s.v.size n }, s.w⟩) (b := b') rfl
    exact ⟨st, s', e, by rw [hsz]; exact hsub, hd⟩
  unfold vecDeleteRange
  rw [if_neg hn0, if_neg (by omega), hdt]
  simp only [Out.ret_bind']
  by_cases hlt : add64 i n < s.v.size
  · rw [if_pos hlt]
    unfold shiftLeft
    simp only [R.data, withData]
    cases hm : memmoveCells b.cells i (add64 i n) (sub64 (sub64 s.v.size i) n) with
    | ub w =>
      left
      unfold memmoveCells readRange at hm
      split at hm
      · simp only [Out.ret_bind', writeRange] at hm
        split at hm
        · simp at hm
        · injection hm with hm; rw [← hm]; rfl
      · simp only [Out.ub_bind'] at hm
        injection hm with hm; rw [← hm]; rfl
    | ret cs =>
      right
      exact fin _
  · rw [if_neg hlt]
    right
    have := fin b
    rw [← R.data] at this
    exact this

theorem reallocTo_short {P : Params} {s : VS α} {a : LState α} {b : Block α} {slack : List (Cell α)}
    (R : Rep P s a b slack) (al c n : Nat) (hb : P.esz * c % 18446744073709551616 < n * P.esz) :
    ∃ s1 b1, reallocTo s al c = .ret (stSuccess, s1) ∧ s1.v.size = s.v.size ∧
      s1.v.data = some b1 ∧ b1.cells.length < n := by
  have hg : grantedCells P.esz c < n := by
    unfold grantedCells mul64
    exact (Nat.div_lt_iff_lt_mul R.esz1).2 hb
  simp only [reallocTo, R.data, withData, reallocBlock, R.reliable_now, R.esz, Bool.false_eq_true, if_false]
  refine ⟨_, _, rfl, rfl, rfl, ?_⟩
  simp
  omega

/-- The reallocation of a growing resize whose byte size wraps below the needed one. -/
theorem reallocate_short {P : Params} {s : VS α} {a : LState α} {b : Block α} {slack : List (Cell α)}
    (R : Rep P s a b slack) (hdyn : P.allocator.isSome) {n : Nat} (hgrow : s.v.cap < n)
    (hb : P.esz * (n * P.growth % 18446744073709551616) % 18446744073709551616 < n * P.esz) :
    ∃ s1 b1, reallocate s (mul64 n s.v.growth) = .ret (stSuccess, s1) ∧ s1.v.size = s.v.size ∧
      s1.v.data = some b1 ∧ b1.cells.length < n := by
  obtain ⟨al, hal⟩ := Option.isSome_iff_exists.1 hdyn
  have hc1 : 1 ≤ s.v.cap := by rw [R.cap]; exact R.cap1
  have hm : mul64 n s.v.growth = n * P.growth % 18446744073709551616 := by
    unfold mul64; rw [R.growth]
  simp only [reallocate, R.allocator, hal, hm]
  split
  · split
    · refine reallocTo_short R al 1 n ?_
      have := R.esz64
      have h2 : P.esz * 2 ≤ P.esz * n := Nat.mul_le_mul_left _ (by omega)
      have := R.esz1
      rw [Nat.mul_comm n]
      omega
    · refine ⟨s, b, rfl, rfl, R.data, ?_⟩
      rw [R.dyn hdyn, ← R.cap]; exact hgrow
  · exact reallocTo_short R al _ n hb

theorem fillLoop_oob (x : Cell α) : ∀ {k i : Nat} {b : Block α}, b.cells.length < i + k → i ≤ i + k →
    0 < k → fillLoop b (.ext [x]) i k = .ub .oob := by
  intro k
  induction k with
  | zero => intro i b _ _ h; omega
  | succ k ih =>
    intro i b hl _ _
    simp only [fillLoop, memcpyIn, readRange, writeRange]
    simp
    by_cases hi : i + 1 ≤ b.cells.length
    · rw [if_pos hi]
      simp only [Out.ret_bind']
      apply ih
      · simp; omega
      · omega
      · omega
    · rw [if_neg hi]; rfl

end Zy
