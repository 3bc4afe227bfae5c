import Verif.Lemmas.Limits
import Verif.Props.Types

/-!
# Property theorems about the integer types and limits without the C library (C165)
-/

namespace Zy

open Spec

/-! ## C165: without the C library the integer types and limits are right on every compiler -/

/-- C165, the limits: on every compiler that means what it predefines, whichever macros it predefines, all twelve limits
are exact, have the types of the C standard, and their expressions do not overflow. -/
theorem C165_limits (c : Compiler) (u : UsualSizes c) (h : Honest c) : ExactLimits (noLibcLimits c) := by
  obtain ⟨us, ui, ul, ull, up⟩ := u
  cases hm : c.msvc
  · have e8 : maxI8 c = some (⟨4, true⟩, 2 ^ 7 - 1) := honest_or h.mI8 (by
      simp only [Compiler.plain, ui, constant]; rfl)
    have e16 : maxI16 c = some (⟨4, true⟩, 2 ^ 15 - 1) := honest_or h.mI16 (by
      simp only [Compiler.plain, ui, constant]; rfl)
    have e32 : maxI32 c = some (⟨4, true⟩, 2 ^ 31 - 1) := honest_or h.mI32 (by
      simp only [Compiler.plain, ui, constant]; rfl)
    have e64 : maxI64 c = some (⟨8, true⟩, 2 ^ 63 - 1) := honest_or h.mI64 (by
      rcases ul with ul | ul <;> cases c.wide <;>
        simp only [Compiler.sufL, Compiler.sufLL, ul, ull, constant] <;> decide +kernel)
    have f8 : (c.mU8 <|> constant c.plain 255) = some (⟨4, true⟩, 2 ^ 8 - 1) := honest_or h.mU8 (by
      simp only [Compiler.plain, ui, constant]; rfl)
    have f16 : (c.mU16 <|> constant c.plain 65535) = some (⟨4, true⟩, 2 ^ 16 - 1) := honest_or h.mU16 (by
      simp only [Compiler.plain, ui, constant]; rfl)
    have f32 : (c.mU32 <|> constant c.sufU 4294967295) = some (⟨4, false⟩, 2 ^ 32 - 1) := honest_or h.mU32 (by
      simp only [Compiler.sufU, ui, constant]; rfl)
    have f64 : (c.mU64 <|> constant (if c.wide then c.sufUL else c.sufULL) 18446744073709551615) =
        some (⟨8, false⟩, 2 ^ 64 - 1) := honest_or h.mU64 (by
      rcases ul with ul | ul <;> cases c.wide <;>
        simp only [Compiler.sufUL, Compiler.sufULL, ul, ull, constant] <;> decide +kernel)
    simp only [noLibcLimits, hm, Bool.false_eq_true, if_false, e8, e16, e32, e64, f8, f16, f32, f64, Compiler.minOf,
      Compiler.operand, Compiler.promote, ui]
    constructor <;> decide +kernel
  · simp only [noLibcLimits, hm, if_true, Compiler.minOf, Compiler.operand, Compiler.promote, ui]
    constructor <;> decide +kernel

/-- C165, exactly when the header is usable: when its guesses about the target are right. -/
theorem C165_usable_exact (c : Compiler) (u : UsualSizes c) (h : Honest c) (s : (c.msvc || c.icc || c.gnuc) = true) :
    Usable c ↔ GuessesRight c := by
  obtain ⟨t, e, g, r⟩ := types_of c u h s
  constructor
  · rintro ⟨t', e', -, r', -⟩
    rw [e] at e'
    cases e'
    exact r.1 r'
  · intro k
    exact ⟨t, e, (C138_partial t c.ptr).1 (r.2 k) g, r.2 k, g⟩

/-- C165 (partial): on a compiler that means what it predefines, and where the header guesses the rest right, the types
and limits are right. Missing: compilers whose pointers it guesses wrong and compilers it does not know, where the header
does not compile (`C165_negation_icc`, `C165_negation_pointer`, `C165_negation_other`). -/
theorem C165_partial (c : Compiler) (u : UsualSizes c) (h : Honest c) (s : (c.msvc || c.icc || c.gnuc) = true)
    (k : GuessesRight c) : Usable c ∧ ExactLimits (noLibcLimits c) :=
  ⟨(C165_usable_exact c u h s).2 k, C165_limits c u h⟩

/-- C165, the current compilers: GCC and Clang predefine all types, so nothing is guessed. -/
theorem C165_predefined (c : Compiler) (u : UsualSizes c) (h : Honest c) (m : (c.msvc || c.icc) = false)
    (s : c.gnuc = true) (a : c.tU64 ≠ none ∧ c.tI64 ≠ none ∧ c.tSize ≠ none ∧ c.tPtrdiff ≠ none ∧ c.tUIntptr ≠ none ∧
      c.tIntptr ≠ none) : Usable c ∧ ExactLimits (noLibcLimits c) := by
  refine C165_partial c u h (by simp [m, s]) ?_
  obtain ⟨a, b, d, e, f, g⟩ := a
  simp [GuessesRight, m, a, b, d, e, f, g]

/-- C165, no silent error: when the header compiles, its types have the promised sizes and also the promised signs, which
the static assertions alone do not ensure (`C138_negation`). -/
theorem C165_accepted (c : Compiler) (u : UsualSizes c) (h : Honest c) (t : Typedefs) (e : noLibcTypes c = some t)
    (a : typesAccepted t c.ptr = true) : RightSizes t c.ptr ∧ RightSigns t := by
  have s : (c.msvc || c.icc || c.gnuc) = true := by
    cases hm : (c.msvc || c.icc) <;> cases hg : c.gnuc <;> simp [noLibcTypes, hm, hg] at e ⊢
  obtain ⟨t', e', g, -⟩ := types_of c u h s
  rw [e] at e'
  cases e'
  exact ⟨(C138_partial t c.ptr).2 a, g⟩

/-- C165 (negation): the Intel compiler on a 64-bit target other than Windows. The header takes pointers to have four
bytes unless `_WIN64` is set, so it does not compile. -/
theorem C165_negation_icc (c : Compiler) (u : UsualSizes c) (h : Honest c) (i : c.icc = true) (w : c.win64 = false)
    (p : c.ptr = 8) : ¬ Usable c := by
  rw [C165_usable_exact c u h (by simp [i])]
  simp [GuessesRight, i, w, p]

/-- C165 (negation): GCC or Clang without `__UINTPTR_TYPE__` on a 64-bit target other than x86-64. The header takes
`unsigned int` for pointers, so it does not compile. -/
theorem C165_negation_pointer (c : Compiler) (u : UsualSizes c) (h : Honest c) (m : (c.msvc || c.icc) = false)
    (g : c.gnuc = true) (x : c.x86_64 = false) (n : c.tUIntptr = none) (p : c.ptr = 8) : ¬ Usable c := by
  rw [C165_usable_exact c u h (by simp [m, g])]
  simp [GuessesRight, m, x, n, p]

/-- C165 (negation): any other compiler is turned away. -/
theorem C165_negation_other (c : Compiler) (s : (c.msvc || c.icc || c.gnuc) = false) : ¬ Usable c := by
  rintro ⟨t, e, -⟩
  simp only [Bool.or_eq_false_iff] at s
  simp [noLibcTypes, s] at e

/-- GCC on x86-64 Linux, which predefines everything. -/
def exCompiler : Compiler where
  msvc := false
  icc := false
  gnuc := true
  win64 := false
  x86_64 := true
  ilp32 := false
  short := 2
  int := 4
  long := 8
  llong := 8
  ptr := 8
  tU8 := some ⟨1, false⟩
  tU16 := some ⟨2, false⟩
  tU32 := some ⟨4, false⟩
  tU64 := some ⟨8, false⟩
  tI8 := some ⟨1, true⟩
  tI16 := some ⟨2, true⟩
  tI32 := some ⟨4, true⟩
  tI64 := some ⟨8, true⟩
  tSize := some ⟨8, false⟩
  tPtrdiff := some ⟨8, true⟩
  tUIntptr := some ⟨8, false⟩
  tIntptr := some ⟨8, true⟩
  mI8 := some (⟨4, true⟩, 127)
  mI16 := some (⟨4, true⟩, 32767)
  mI32 := some (⟨4, true⟩, 2147483647)
  mI64 := some (⟨8, true⟩, 9223372036854775807)
  mU8 := some (⟨4, true⟩, 255)
  mU16 := some (⟨4, true⟩, 65535)
  mU32 := some (⟨4, false⟩, 4294967295)
  mU64 := some (⟨8, false⟩, 18446744073709551615)

theorem exCompiler_sizes : UsualSizes exCompiler := ⟨rfl, rfl, .inr rfl, rfl, .inr rfl⟩

theorem exCompiler_honest : Honest exCompiler := by
  constructor <;> (intro t h; cases h; rfl)

/-- A compiler that predefines nothing. -/
def exOldCompiler (icc : Bool) (x86_64 : Bool) (long ptr : Nat) : Compiler :=
  ⟨false, icc, !icc, false, x86_64, false, 2, 4, long, 8, ptr, none, none, none, none, none, none, none, none, none, none,
    none, none, none, none, none, none, none, none, none, none⟩

theorem exOldCompiler_sizes (icc x : Bool) : UsualSizes (exOldCompiler icc x 8 8) ∧ UsualSizes (exOldCompiler icc x 4 4) :=
  ⟨⟨rfl, rfl, .inr rfl, rfl, .inr rfl⟩, ⟨rfl, rfl, .inl rfl, rfl, .inl rfl⟩⟩

theorem exOldCompiler_honest (icc x : Bool) (l p : Nat) : Honest (exOldCompiler icc x l p) := by
  constructor <;> (intro t h; cases h)

example : Usable exCompiler ∧ ExactLimits (noLibcLimits exCompiler) :=
  C165_predefined exCompiler exCompiler_sizes exCompiler_honest rfl rfl (by decide)
/-- An old compiler for x86-64, all guesses right. -/
example : Usable (exOldCompiler false true 8 8) ∧ ExactLimits (noLibcLimits (exOldCompiler false true 8 8)) :=
  C165_partial _ (exOldCompiler_sizes false true).1 (exOldCompiler_honest _ _ _ _) rfl (by simp [GuessesRight, exOldCompiler])
/-- An old compiler for a 32-bit target. -/
example : Usable (exOldCompiler false false 4 4) ∧ ExactLimits (noLibcLimits (exOldCompiler false false 4 4)) :=
  C165_partial _ (exOldCompiler_sizes false false).2 (exOldCompiler_honest _ _ _ _) rfl (by simp [GuessesRight, exOldCompiler])
/-- The Intel compiler on x86-64 Linux; its limits are exact all the same. -/
example : ¬ Usable (exOldCompiler true true 8 8) ∧ ExactLimits (noLibcLimits (exOldCompiler true true 8 8)) :=
  ⟨C165_negation_icc _ (exOldCompiler_sizes true true).1 (exOldCompiler_honest _ _ _ _) rfl rfl rfl,
    C165_limits _ (exOldCompiler_sizes true true).1 (exOldCompiler_honest _ _ _ _)⟩
/-- An old compiler for AArch64. -/
example : ¬ Usable (exOldCompiler false false 8 8) :=
  C165_negation_pointer _ (exOldCompiler_sizes false false).1 (exOldCompiler_honest _ _ _ _) rfl rfl rfl rfl rfl
example : ¬ Usable { exCompiler with gnuc := false } := C165_negation_other _ rfl
example : ∃ t, noLibcTypes exCompiler = some t ∧ typesAccepted t 8 = true := ⟨_, rfl, by decide +kernel⟩

/-- Constants get the first type that holds them, with a `long` of four bytes. -/
example : constant (exOldCompiler false false 4 4).plain 2147483647 = some (⟨4, true⟩, 2147483647) ∧
    constant (exOldCompiler false false 4 4).plain 2147483648 = some (⟨8, true⟩, 2147483648) ∧
    constant (exOldCompiler false false 4 4).plain 9223372036854775808 = none ∧
    constant (exOldCompiler false false 4 4).sufU 4294967295 = some (⟨4, false⟩, 4294967295) ∧
    constant (exOldCompiler false false 4 4).sufU 4294967296 = some (⟨8, false⟩, 4294967296) ∧
    constant (exOldCompiler false false 4 4).sufUL 0 = some (⟨4, false⟩, 0) := by decide +kernel

example : constant (exOldCompiler false true 8 8).plain 2147483648 = some (⟨8, true⟩, 2147483648) ∧
    constant (exOldCompiler false true 8 8).sufU 4294967296 = some (⟨8, false⟩, 4294967296) ∧
    constant (exOldCompiler false true 8 8).sufUL 1 = some (⟨8, false⟩, 1) := by decide +kernel

/-- Signed arithmetic overflows one below the least value; unsigned arithmetic wraps around. -/
example : CInt.result ⟨4, true⟩ (-2147483648) = some (-2147483648) ∧ CInt.result ⟨4, true⟩ (-2147483649) = none ∧
    CInt.result ⟨4, false⟩ (-1) = some 4294967295 := by decide +kernel

end Zy
