import Verif.Lemmas.BuildFiles

/-!
# Property theorems about the configurations of the library (C134 to C137)
-/

namespace Zy

open Spec

/-! ## C134: every build is recognised in exactly one way -/

/-- C134, rejection: whatever the compiler and the command line define, the library is rejected exactly when no known
architecture is among it. -/
theorem C134_rejected (pre : Macros) : definesH.run pre = none ↔ ¬ KnownArchitecture pre :=
  definesH_none pre

/-- C134, one answer: of every group of macros exactly one is defined, `ZYAN_GNUC` belongs to Clang and GCC, and
nothing else changes. -/
theorem C134_recognised (pre : Macros) (hu : Untouched pre) (ha : KnownArchitecture pre) :
    ∃ e, definesH.run pre = some (e, []) ∧ ExactlyOne e compilers ∧
      (Defd e .ZYAN_GNUC ↔ Defd e .ZYAN_CLANG ∨ Defd e .ZYAN_GCC) ∧
      AtMostOne e systems ∧ ExactlyOne e families ∧ ExactlyOne e architectures ∧ ExactlyOne e modes ∧
      ExactlyOne e buildTypes ∧ ∀ m, m ∉ ownMacros → e m = pre m :=
  definesH_some pre hu ha

/-- C134, the right answer: compiler, operating system and architecture are the first whose predefined macros are
defined; what is in no table is unknown, RISC-V or rejected; the mode is that of the system. -/
theorem C134_targets (pre : Macros) (hu : Untouched pre) {e : Macros} {l : List Tok}
    (he : definesH.run pre = some (e, l)) :
    (∀ m ∈ compilers, m ≠ .ZYAN_UNKNOWN_COMPILER → (Defd e m ↔ Recognised pre compilerMarks m)) ∧
    (∀ m ∈ systems, m ≠ .ZYAN_UNKNOWN_PLATFORM → (Defd e m ↔ Recognised pre systemMarks m)) ∧
    (∀ m ∈ architectures, m ≠ .ZYAN_RISCV64 → (Defd e m ↔ Recognised pre architectureMarks m)) ∧
    (Defd e .ZYAN_KERNEL ↔ (Defd e .ZYAN_WINDOWS ∧ Defd pre ._KERNEL_MODE) ∨ (Defd e .ZYAN_APPLE ∧ Defd pre .KERNEL) ∨
      (Defd e .ZYAN_LINUX ∧ Defd pre .__KERNEL__) ∨ Defd pre .__FreeBSD_kernel__) := by
  rcases definesH_run pre with ⟨_, h2⟩ | ⟨_, c, p, k, a, d, h, h2⟩
  · simp [h2] at he
  · rw [h2] at he
    simp only [Option.some.injEq, Prod.mk.injEq] at he
    obtain ⟨rfl, rfl⟩ := he
    refine ⟨fun m hm hn => ?_, fun m hm hn => ?_, fun m hm hn => ?_, ?_⟩
    · rw [← h.compiler m hm hn]; exact h.defd_compiler hu (by simp [hm])
    · rw [← h.platform m hm hn]; exact h.defd_system hu (by simp [hm])
    · rw [← h.arch m hm hn]; exact h.defd_arch hu hm
    · rw [h.kernel_iff hu]
      have n : ∀ m, m ∉ ownMacros → (Defd (found pre c p k a d) m ↔ Defd pre m) := fun m hm => by
        rw [Defd, Defd, h.other hm]
      simp only [kernelMode, n ._KERNEL_MODE (by decide), n .KERNEL (by decide), n .__KERNEL__ (by decide),
        n .__FreeBSD_kernel__ (by decide)]

/-- Some macros with a value, all others undefined. -/
def given (l : List (Mac × Int)) : Macros := fun m => l.lookup m

/-- GCC on 64-bit Linux. -/
def exGcc : Macros := given [(.__GNUC__, 13), (.__GNUC_MINOR__, 2), (.__linux, 1), (.__unix__, 1), (.__x86_64__, 1)]
/-- The Microsoft compiler for 64-bit ARM, configuration "Release". -/
def exMsvcArm : Macros := given [(._MSC_VER, 1940), (._WIN32, 1), (._M_ARM64, 1), (.NDEBUG, 1)]
/-- Clang for the Microsoft platform, with both switches for debug builds left alone. -/
def exClangCl : Macros := given [(.__clang__, 1), (._MSC_VER, 1940), (._WIN32, 1), (._M_AMD64, 100)]
/-- Emscripten. -/
def exEmscripten : Macros := given [(.__clang__, 1), (.__GNUC__, 4), (.__EMSCRIPTEN__, 1), (.__wasm__, 1), (.__unix__, 1)]
/-- 32-bit RISC-V. -/
def exRiscv32 : Macros := given [(.__GNUC__, 13), (.__linux, 1), (.__riscv, 1), (.__riscv_xlen, 32)]

theorem exGcc_untouched : Untouched exGcc := by decide
theorem exMsvcArm_untouched : Untouched exMsvcArm := by decide
theorem exClangCl_untouched : Untouched exClangCl := by decide
theorem exEmscripten_untouched : Untouched exEmscripten := by decide

example : ∃ e, definesH.run exGcc = some (e, []) ∧ ExactlyOne e compilers ∧
      (Defd e .ZYAN_GNUC ↔ Defd e .ZYAN_CLANG ∨ Defd e .ZYAN_GCC) ∧
      AtMostOne e systems ∧ ExactlyOne e families ∧ ExactlyOne e architectures ∧ ExactlyOne e modes ∧
      ExactlyOne e buildTypes ∧ ∀ m, m ∉ ownMacros → e m = exGcc m :=
  C134_recognised exGcc exGcc_untouched (Or.inl ⟨.__x86_64__, by decide, rfl⟩)
example : (definesH.run exGcc).map (fun r => ownMacros.filter fun m => (r.1 m).isSome) =
    some [.ZYAN_GNUC, .ZYAN_POSIX, .ZYAN_GCC, .ZYAN_LINUX, .ZYAN_X64, .ZYAN_USER, .ZYAN_DEBUG] := by decide +kernel
example : (definesH.run exMsvcArm).map (fun r => ownMacros.filter fun m => (r.1 m).isSome) =
    some [.ZYAN_MSVC, .ZYAN_WINDOWS, .ZYAN_AARCH64, .ZYAN_USER, .ZYAN_RELEASE] := by decide +kernel
example : (definesH.run exEmscripten).map (fun r => ownMacros.filter fun m => (r.1 m).isSome) =
    some [.ZYAN_GNUC, .ZYAN_CLANG, .ZYAN_EMSCRIPTEN, .ZYAN_WASM, .ZYAN_USER, .ZYAN_DEBUG] := by decide +kernel
example : definesH.run exRiscv32 = none := (C134_rejected exRiscv32).2 (by decide)

/-! ## C135: assertions are checked exactly in debug builds -/

/-- C135, which builds are debug builds: with the Microsoft and Borland compilers those with `_DEBUG`, with Clang, GCC
and the Intel compiler those without `NDEBUG`, with unknown compilers none. -/
theorem C135_debug (pre : Macros) (hu : Untouched pre) {e : Macros} {l : List Tok}
    (he : definesH.run pre = some (e, l)) :
    (Defd e .ZYAN_DEBUG ↔ ((Defd e .ZYAN_MSVC ∨ Defd e .ZYAN_BORLAND) ∧ Defd pre ._DEBUG) ∨
      ((Defd e .ZYAN_CLANG ∨ Defd e .ZYAN_GCC ∨ Defd e .ZYAN_ICC) ∧ ¬ Defd pre .NDEBUG)) := by
  obtain ⟨h1, h2, h3, _, h5⟩ := definesH_facts hu he
  have n1 : Defd e ._DEBUG ↔ Defd pre ._DEBUG := by rw [Defd, Defd, h2 _ (by decide)]
  have n2 : Defd e .NDEBUG ↔ Defd pre .NDEBUG := by rw [Defd, Defd, h2 _ (by decide)]
  rw [h1, debugMode, h5, n1, n2]
  obtain ⟨m, hm, hd, hk⟩ := h3
  have k1 := hk .ZYAN_CLANG (by decide)
  have k2 := hk .ZYAN_GCC (by decide)
  have k3 := hk .ZYAN_ICC (by decide)
  have k4 := hk .ZYAN_MSVC (by decide)
  have k5 := hk .ZYAN_BORLAND (by decide)
  simp only [compilers, List.mem_cons, List.not_mem_nil, or_false] at hm
  rcases hm with rfl | rfl | rfl | rfl | rfl | rfl <;> simp at k1 k2 k3 k4 k5 <;> simp_all

/-- C135 (partial): with Clang, GCC and the Intel compiler, with the C library and outside the Windows kernel, an
assertion is checked exactly in debug builds. Missing: the other configurations, where it is false
(`C135_negation_msvc`, `C135_negation_unknown`, `C135_negation_no_libc`), and the Windows kernel, where it depends on
the additional macro `DBG`. -/
theorem C135_partial (pre : Macros) (hu : Untouched pre) {e : Macros} {l : List Tok}
    (he : definesH.run pre = some (e, l)) (hc : Defd e .ZYAN_CLANG ∨ Defd e .ZYAN_GCC ∨ Defd e .ZYAN_ICC)
    (hl : ¬ Defd pre .ZYAN_NO_LIBC) (hk : ¬ (Defd e .ZYAN_WINDOWS ∧ Defd e .ZYAN_KERNEL)) :
    assertChecked e = true ↔ Defd e .ZYAN_DEBUG := by
  rw [C135_debug pre hu he]
  obtain ⟨_, h2, ⟨m, hm, hd, hx⟩, _, _⟩ := definesH_facts hu he
  have n2 : Defd e .NDEBUG ↔ Defd pre .NDEBUG := by rw [Defd, Defd, h2 _ (by decide)]
  have n3 : ¬ Defd e .ZYAN_NO_LIBC := by rw [Defd, h2 _ (by decide)]; exact hl
  have hn : ¬ (Defd e .ZYAN_MSVC ∨ Defd e .ZYAN_BORLAND) := by
    rintro (h | h) <;> rcases hc with h' | h' | h' <;>
      exact absurd ((hx _ (by decide) h).trans (hx _ (by decide) h').symm) (by decide)
  rw [← n2]
  rw [assertChecked_libc n3 hk]
  simp [hn, hc]

/-- C135 (negation), the Microsoft and Borland compilers: a build with both of `_DEBUG` and `NDEBUG`, or with neither,
is a debug build without checks, or a release build with them. -/
theorem C135_negation_msvc (pre : Macros) (hu : Untouched pre) {e : Macros} {l : List Tok}
    (he : definesH.run pre = some (e, l)) (hc : Defd e .ZYAN_MSVC ∨ Defd e .ZYAN_BORLAND)
    (hl : ¬ Defd pre .ZYAN_NO_LIBC) (hk : ¬ (Defd e .ZYAN_WINDOWS ∧ Defd e .ZYAN_KERNEL))
    (hs : Defd pre ._DEBUG ↔ Defd pre .NDEBUG) : assertChecked e = true ↔ ¬ Defd e .ZYAN_DEBUG := by
  rw [C135_debug pre hu he]
  obtain ⟨_, h2, ⟨m, hm, hd, hx⟩, _, _⟩ := definesH_facts hu he
  have n2 : Defd e .NDEBUG ↔ Defd pre .NDEBUG := by rw [Defd, Defd, h2 _ (by decide)]
  have n3 : ¬ Defd e .ZYAN_NO_LIBC := by rw [Defd, h2 _ (by decide)]; exact hl
  have hn : ¬ (Defd e .ZYAN_CLANG ∨ Defd e .ZYAN_GCC ∨ Defd e .ZYAN_ICC) := by
    rintro (h | h | h) <;> rcases hc with h' | h' <;>
      exact absurd ((hx _ (by decide) h).trans (hx _ (by decide) h').symm) (by decide)
  rw [hs, ← n2]
  rw [assertChecked_libc n3 hk]
  simp [hn, hc]

/-- C135 (negation), unknown compilers: every build is a release build, but without `NDEBUG` assertions are checked. -/
theorem C135_negation_unknown (pre : Macros) (hu : Untouched pre) {e : Macros} {l : List Tok}
    (he : definesH.run pre = some (e, l)) (hc : Defd e .ZYAN_UNKNOWN_COMPILER)
    (hl : ¬ Defd pre .ZYAN_NO_LIBC) (hk : ¬ (Defd e .ZYAN_WINDOWS ∧ Defd e .ZYAN_KERNEL)) (hs : ¬ Defd pre .NDEBUG) :
    assertChecked e = true ∧ Defd e .ZYAN_RELEASE ∧ ¬ Defd e .ZYAN_DEBUG := by
  obtain ⟨_, h2, ⟨m, hm, hd, hx⟩, ⟨b, hb, hb1, hb2⟩, _⟩ := definesH_facts hu he
  have n2 : Defd e .NDEBUG ↔ Defd pre .NDEBUG := by rw [Defd, Defd, h2 _ (by decide)]
  have n3 : ¬ Defd e .ZYAN_NO_LIBC := by rw [Defd, h2 _ (by decide)]; exact hl
  have hn : ∀ k ∈ compilers, k ≠ .ZYAN_UNKNOWN_COMPILER → ¬ Defd e k := fun k h1 h3 h4 =>
    h3 ((hx k h1 h4).trans (hx _ (by decide) hc).symm)
  have hnd : ¬ Defd e .ZYAN_DEBUG := by
    rw [C135_debug pre hu he]
    simp [hn .ZYAN_MSVC (by decide) (by decide), hn .ZYAN_BORLAND (by decide) (by decide),
      hn .ZYAN_CLANG (by decide) (by decide), hn .ZYAN_GCC (by decide) (by decide), hn .ZYAN_ICC (by decide) (by decide)]
  refine ⟨?_, ?_, hnd⟩
  · rw [← n2] at hs
    exact (assertChecked_libc n3 hk).2 hs
  · simp only [buildTypes, List.mem_cons, List.not_mem_nil, or_false] at hb
    rcases hb with rfl | rfl
    · exact absurd hb1 hnd
    · exact hb1

/-- C135 (negation), without the C library: assertions are never checked, so every debug build is without checks. -/
theorem C135_negation_no_libc (pre : Macros) (hu : Untouched pre) {e : Macros} {l : List Tok}
    (he : definesH.run pre = some (e, l)) (hl : Defd pre .ZYAN_NO_LIBC) : assertChecked e = false := by
  obtain ⟨_, h2, _, _, _⟩ := definesH_facts hu he
  have n3 : Defd e .ZYAN_NO_LIBC := by rw [Defd, h2 _ (by decide)]; exact hl
  exact assertChecked_no_libc n3

/-- C135, `ZYAN_UNREACHABLE`: in every debug build reaching it is no undefined behaviour. -/
theorem C135_unreachable (pre : Macros) (hu : Untouched pre) {e : Macros} {l : List Tok} (builtin : Bool)
    (he : definesH.run pre = some (e, l)) (hd : Defd e .ZYAN_DEBUG) : unreachableKind builtin e ≠ .undefined := by
  obtain ⟨_, _, _, ⟨b, hb, hb1, hb2⟩, _⟩ := definesH_facts hu he
  have hr : ¬ Defd e .ZYAN_RELEASE := fun h =>
    absurd ((hb2 _ (by decide) h).trans (hb2 _ (by decide) hd).symm) (by decide)
  unfold unreachableKind
  rw [if_neg (by simpa only [Defd] using hr)]
  repeat' split
  all_goals decide

example : (definesH.run exGcc).map (fun r => (assertChecked r.1, r.1 .ZYAN_DEBUG, unreachableKind true r.1)) =
    some (true, some 1, .aborts) := by decide +kernel
example : (definesH.run exMsvcArm).map (fun r => (assertChecked r.1, r.1 .ZYAN_RELEASE, unreachableKind true r.1)) =
    some (false, some 1, .undefined) := by decide +kernel
/-- The Microsoft compiler on x64 with neither switch: a release build that checks assertions. -/
def exMsvcNone : Macros := given [(._MSC_VER, 1940), (._WIN32, 1), (._M_AMD64, 100)]
example : ∃ e l, definesH.run exMsvcNone = some (e, l) ∧ (assertChecked e = true ↔ ¬ Defd e .ZYAN_DEBUG) := by
  obtain ⟨e, h, _⟩ := C134_recognised exMsvcNone (by decide) (by decide)
  have hm : (definesH.run exMsvcNone).map (fun r => decide (Defd r.1 .ZYAN_MSVC ∧ Defd r.1 .ZYAN_USER ∧
    ¬ Defd r.1 .ZYAN_KERNEL)) = some true := by decide +kernel
  rw [h] at hm
  have hm := of_decide_eq_true (Option.some.inj hm)
  exact ⟨e, [], h, C135_negation_msvc exMsvcNone (by decide) h (Or.inl hm.1) (by decide) (fun x => hm.2.2 x.2) (by decide)⟩
example : (definesH.run exMsvcNone).map (fun r => (assertChecked r.1, r.1 .ZYAN_DEBUG)) = some (true, none) := by
  decide +kernel
/-- The Tiny C Compiler: unknown to the library. -/
def exTcc : Macros := given [(.__linux, 1), (.__x86_64__, 1)]
example : (definesH.run exTcc).map (fun r => (assertChecked r.1, r.1 .ZYAN_RELEASE, r.1 .ZYAN_UNKNOWN_COMPILER)) =
    some (true, some 1, some 1) := by decide +kernel
example : (definesH.run (given [(.__GNUC__, 13), (.__linux, 1), (.__x86_64__, 1), (.ZYAN_NO_LIBC, 1)])).map
    (fun r => (assertChecked r.1, r.1 .ZYAN_DEBUG)) = some (false, some 1) := by decide +kernel

/-! ## C136: every declared function is defined in every configuration -/

/-- C136, the configurations: among those that Defines.h accepts, with the C library the headers accept every compiler
but only Windows and POSIX systems; without it every system but only Clang, GCC, the Intel and the Microsoft compiler. -/
theorem C136_accepted (pre : Macros) (hu : Untouched pre) (hc : ¬ Defd pre .ZYAN_CUSTOM_LIBC) {e : Macros} {l : List Tok}
    (he : definesH.run pre = some (e, l)) :
    (library.run pre).isSome = true ↔
      (Defd pre .ZYAN_NO_LIBC ∧ (Defd e .ZYAN_CLANG ∨ Defd e .ZYAN_GCC ∨ Defd e .ZYAN_ICC ∨ Defd e .ZYAN_MSVC)) ∨
      (¬ Defd pre .ZYAN_NO_LIBC ∧ (Defd e .ZYAN_WINDOWS ∨ Defd e .ZYAN_POSIX)) := by
  obtain ⟨h1, _, h3⟩ := library_facts hu he hc
  rw [h1]
  have : Defd e .ZYAN_NO_LIBC ↔ Defd pre .ZYAN_NO_LIBC := by rw [Defd, Defd, h3]
  rw [this]
  by_cases h : Defd pre .ZYAN_NO_LIBC <;> simp [h]

/-- C136 (partial): in every accepted configuration, every declared function but eight is defined exactly once, every
name that the text of a function uses is defined exactly once, and nothing is defined twice. Missing: the eight
functions, for which it is false (`C136_negation`). -/
theorem C136_partial (pre : Macros) (hu : Untouched pre) (hc : ¬ Defd pre .ZYAN_CUSTOM_LIBC) {e : Macros} {l : List Tok}
    (h : library.run pre = some (e, l)) (f : Fn) :
    (Tok.decl f ∈ l → f ∉ neverDefined → definitions l f = 1) ∧ (Tok.call f ∈ l → definitions l f = 1) ∧
      definitions l f ≤ 1 := by
  obtain ⟨h1, h2, h3, _⟩ := complete_spec (library_complete hu hc h) f
  exact ⟨h3, h2, h1⟩

/-- C136 (negation): in every accepted configuration seven of the eight functions are declared, with the C library all
eight, and none of them is defined. -/
theorem C136_negation (pre : Macros) (hu : Untouched pre) (hc : ¬ Defd pre .ZYAN_CUSTOM_LIBC) {e : Macros} {l : List Tok}
    (h : library.run pre = some (e, l)) (f : Fn) (hf : f ∈ neverDefined) :
    definitions l f = 0 ∧ (Tok.decl f ∈ l ∨ (Defd pre .ZYAN_NO_LIBC ∧ f = .ZyanListDuplicate)) := by
  obtain ⟨_, _, _, h4⟩ := complete_spec (library_complete hu hc h) f
  exact h4 hf

/-- The C library absent: Clang on an unknown system. -/
def exBare : Macros := given [(.__clang__, 1), (.__aarch64__, 1), (.ZYAN_NO_LIBC, 1)]

example : (library.run exGcc).isSome = true := by decide +kernel
example : ∃ e l, library.run exGcc = some (e, l) ∧ definitions l .ZyanVectorInsertRange = 1 ∧
    definitions l .ZyanListDuplicate = 0 ∧ Tok.decl .ZyanListDuplicate ∈ l := by
  cases h : library.run exGcc with
  | none => exact absurd h (by decide +kernel)
  | some r =>
    obtain ⟨e, l⟩ := r
    have hd : (library.run exGcc).all (fun r => decide (Tok.decl .ZyanVectorInsertRange ∈ r.2)) = true := by decide +kernel
    rw [h] at hd
    have hd := of_decide_eq_true hd
    obtain ⟨h1, h2⟩ := C136_negation exGcc exGcc_untouched (by decide) h .ZyanListDuplicate (by decide)
    refine ⟨e, l, rfl, (C136_partial exGcc exGcc_untouched (by decide) h .ZyanVectorInsertRange).1 hd (by decide), h1, ?_⟩
    rcases h2 with h2 | h2
    · exact h2
    · exact absurd h2.1 (by decide)
example : (library.run exBare).isSome = true := by decide +kernel
example : (library.run exEmscripten) = none := by decide +kernel
example : (library.run exMsvcArm).isSome = true := by decide +kernel

/-! ## C137: atomic operations for every supported target -/

/-- C137, the configurations: the header is accepted with Clang, GCC and the Intel compiler, and with the Microsoft
compiler for x86 and x64. -/
theorem C137_accepted (e : Macros) : (atomicH.run e).isSome = true ↔
    Defd e .ZYAN_CLANG ∨ Defd e .ZYAN_GCC ∨ Defd e .ZYAN_ICC ∨
      (Defd e .ZYAN_MSVC ∧ (Defd e .ZYAN_X86 ∨ Defd e .ZYAN_X64)) := by
  rw [atomicH_run, Option.isSome_map, (atomic_complete _ _ _ _).1]
  simp only [Bool.or_eq_true, Bool.and_eq_true, Defd, or_assoc]

/-- C137 (partial): where the header is accepted, it declares nine operations, and each is defined exactly once.
Missing: the targets that the library accepts and this header rejects (`C137_negation`). -/
theorem C137_partial (e : Macros) {e' : Macros} {l : List Tok} (h : atomicH.run e = some (e', l)) :
    (∀ f ∈ [Fn.ZyanAtomicCompareExchange, .ZyanAtomicIncrement, .ZyanAtomicDecrement, .ZyanAtomicCompareExchange32,
        .ZyanAtomicIncrement32, .ZyanAtomicDecrement32, .ZyanAtomicCompareExchange64, .ZyanAtomicIncrement64,
        .ZyanAtomicDecrement64], Tok.decl f ∈ l ∧ definitions l f = 1) ∧
    ∀ f, Tok.call f ∈ l → definitions l f = 1 := by
  rw [atomicH_run] at h
  have hc := (atomic_complete ((e .ZYAN_CLANG).isSome || ((e .ZYAN_GCC).isSome || (e .ZYAN_ICC).isSome))
    (e .ZYAN_MSVC).isSome (e .ZYAN_X86).isSome (e .ZYAN_X64).isSome).2
  cases ht : atomicText ((e .ZYAN_CLANG).isSome || ((e .ZYAN_GCC).isSome || (e .ZYAN_ICC).isSome))
    (e .ZYAN_MSVC).isSome (e .ZYAN_X86).isSome (e .ZYAN_X64).isSome with
  | none => rw [ht] at h; exact absurd h (by simp)
  | some x =>
    rw [ht] at h hc
    rw [Option.map_some, Option.some.injEq, Prod.mk.injEq] at h
    obtain ⟨_, rfl⟩ := h
    rw [Option.all_some, Bool.and_eq_true, decide_eq_true_eq] at hc
    refine ⟨fun f hf => ?_, fun f hf => completeAtomic_spec hc.1 f (Or.inr hf)⟩
    have hd : Tok.decl f ∈ x := List.mem_of_mem_take (i := 9) (by rw [hc.2]; exact List.mem_map_of_mem hf)
    exact ⟨hd, completeAtomic_spec hc.1 f (Or.inl hd)⟩

/-- C137 (negation): with the Microsoft compiler on every other architecture the library is accepted, with and without
the C library, but the header for atomic operations is not. -/
theorem C137_negation (pre : Macros) (hu : Untouched pre) (hc : ¬ Defd pre .ZYAN_CUSTOM_LIBC) {e : Macros} {l : List Tok}
    (he : definesH.run pre = some (e, l)) (hm : Defd e .ZYAN_MSVC) (hw : Defd e .ZYAN_WINDOWS)
    (h86 : ¬ Defd e .ZYAN_X86) (h64 : ¬ Defd e .ZYAN_X64) :
    (library.run pre).isSome = true ∧ atomicH.run e = none := by
  refine ⟨?_, ?_⟩
  · rw [C136_accepted pre hu hc he]
    by_cases h : Defd pre .ZYAN_NO_LIBC <;> simp [h, hm, hw]
  · obtain ⟨_, _, ⟨k, _, _, hk⟩, _, _⟩ := definesH_facts hu he
    have hne : ∀ c ∈ compilers, c ≠ .ZYAN_MSVC → ¬ Defd e c := fun c h1 h2 h3 =>
      h2 ((hk c h1 h3).trans (hk _ (by decide) hm).symm)
    rw [← Option.isNone_iff_eq_none, ← Option.isSome_eq_false_iff, ← Bool.not_eq_true, C137_accepted e]
    simp [hne .ZYAN_CLANG (by decide) (by decide), hne .ZYAN_GCC (by decide) (by decide),
      hne .ZYAN_ICC (by decide) (by decide), h86, h64]

example : (definesH.run exMsvcArm).map (fun r => (decide (Defd r.1 .ZYAN_MSVC ∧ Defd r.1 .ZYAN_WINDOWS ∧
    ¬ Defd r.1 .ZYAN_X86 ∧ ¬ Defd r.1 .ZYAN_X64), (atomicH.run r.1).isNone)) = some (true, true) := by decide +kernel
example : ∃ e l, definesH.run exMsvcArm = some (e, l) ∧ (library.run exMsvcArm).isSome = true ∧ atomicH.run e = none := by
  obtain ⟨e, h, _⟩ := C134_recognised exMsvcArm exMsvcArm_untouched (by decide)
  have hm : (definesH.run exMsvcArm).map (fun r => decide (Defd r.1 .ZYAN_MSVC ∧ Defd r.1 .ZYAN_WINDOWS ∧
    ¬ Defd r.1 .ZYAN_X86 ∧ ¬ Defd r.1 .ZYAN_X64)) = some true := by decide +kernel
  rw [h] at hm
  have hm := of_decide_eq_true (Option.some.inj hm)
  exact ⟨e, [], h, C137_negation exMsvcArm exMsvcArm_untouched (by decide) h hm.1 hm.2.1 hm.2.2.1 hm.2.2.2⟩
example : (definesH.run exGcc).map (fun r => (atomicH.run r.1).isSome) = some true := by decide +kernel

end Zy
