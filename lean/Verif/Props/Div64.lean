import Verif.Model.Div64

/-!
# Property theorems: 64-bit division
-/

namespace Zy

/-! ## C113 -/

/-- C113 outside of the Linux kernel: for every divisor other than zero, the variable gets the quotient, the
greatest number whose product with the divisor is at most the dividend. -/
theorem C113_quotient (n : Nat) {d : Nat} (hd : 0 < d) :
    ∃ q, div64 n d = .ret q ∧ q * d ≤ n ∧ n < (q + 1) * d := by
  refine ⟨n / d, by simp [div64]; omega, Nat.div_mul_le_self n d, ?_⟩
  rw [Nat.mul_comm]; exact Nat.lt_mul_div_succ n hd

/-- C113 inside of the Linux kernel, for divisors of 32 bits: the same.
Missing: larger divisors, see `C113_kernel_negation`. -/
theorem C113_kernel_partial (n : Nat) {d : Nat} (hd : 0 < d) (h32 : d < 2 ^ 32) :
    ∃ q, div64Kernel n d = .ret q ∧ q * d ≤ n ∧ n < (q + 1) * d := by
  have hm : d % 2 ^ 32 = d := Nat.mod_eq_of_lt h32
  refine ⟨n / d, by simp only [div64Kernel, hm]; rw [if_neg (by omega)], Nat.div_mul_le_self n d, ?_⟩
  rw [Nat.mul_comm]; exact Nat.lt_mul_div_succ n hd

/-- C113 is false inside of the Linux kernel for every larger divisor, up to dividends so small that both
quotients are zero: multiples of 2^32 are divisions by zero, and all other divisors give a quotient that is too
large. -/
theorem C113_kernel_negation (n : Nat) {d : Nat} (h32 : 2 ^ 32 ≤ d) :
    (d % 2 ^ 32 = 0 → div64Kernel n d = .ub .other) ∧
    (0 < d % 2 ^ 32 → n < d % 2 ^ 32 → div64Kernel n d = .ret 0) ∧
    (0 < d % 2 ^ 32 → d % 2 ^ 32 ≤ n → ∃ q, div64Kernel n d = .ret q ∧ n < q * d) := by
  have hlt : d % 2 ^ 32 < 2 ^ 32 := Nat.mod_lt _ (by decide)
  have hdm : d = 2 ^ 32 * (d / 2 ^ 32) + d % 2 ^ 32 := (Nat.div_add_mod d _).symm
  have hq1 : 1 ≤ d / 2 ^ 32 := (Nat.le_div_iff_mul_le (by decide)).2 (by omega)
  unfold div64Kernel
  generalize hr : d % 2 ^ 32 = r at *
  refine ⟨fun h => by rw [if_pos h], fun h h2 => ?_, fun h h2 => ?_⟩
  · rw [if_neg (by omega), Nat.div_eq_of_lt h2]
  · refine ⟨n / r, by rw [if_neg (by omega)], ?_⟩
    have h3 : n < r * (n / r + 1) := Nat.lt_mul_div_succ n h
    have h4 : 1 ≤ n / r := (Nat.le_div_iff_mul_le h).2 (by omega)
    have h5 : 2 * r ≤ d := by
      have : 2 ^ 32 * 1 ≤ 2 ^ 32 * (d / 2 ^ 32) := Nat.mul_le_mul_left _ hq1
      omega
    calc n < r * (n / r + 1) := h3
      _ ≤ r * (n / r + n / r) := Nat.mul_le_mul_left _ (by omega)
      _ = n / r * (2 * r) := by rw [← Nat.two_mul, Nat.mul_left_comm, Nat.mul_comm r, Nat.mul_left_comm]
      _ ≤ n / r * d := Nat.mul_le_mul_left _ h5

/-- The largest dividend, and divisors on both sides of 2^32. -/
example : div64Kernel 18446744073709551615 100 = .ret 184467440737095516 ∧
    div64 18446744073709551615 100 = .ret 184467440737095516 := by decide
example : div64Kernel 30000000000 4294967297 = .ret 30000000000 ∧ div64 30000000000 4294967297 = .ret 6 := by
  decide
example : div64Kernel 5 4294967296 = .ub .other := by decide

end Zy
