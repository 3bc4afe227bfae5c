import Verif.Lemmas.BuildTools
import Verif.Model.Build

/-!
# C168 and C169: the build files
-/

namespace Zy

open Spec

/-! ## C168 -/

/-- **C168**, CMake: whatever the options, the library is compiled as what it is, and users that link the target see it as
what it is, whatever else is defined for them. -/
theorem C168_cmake (o : BuildOptions) {L U : List String} (hL : Unrelated L) (hU : Unrelated U) :
    SeesTheLibrary o.shared o.noLibc o.msvc ((cmakePlan o).macros ++ L) ((cmakePlan o).userMacros ++ U) := by
  obtain ⟨sh, nl, pr, sy, ms⟩ := o
  simp only [Unrelated, List.mem_cons, List.not_mem_nil, or_false, forall_eq_or_imp, forall_eq] at hL hU
  constructor <;> cases sh <;> cases nl <;> cases ms <;> cases sy <;>
    simp [zycoreExport_eq, cmakePlan, hL, hU, dllexport, dllimport]

/-- **C168** (partial), Meson: the same, for shared libraries, for compilers other than MSVC, and for users that define
`ZYCORE_STATIC_BUILD` (or its old name) themselves for a static library. Missing: the users of a static library with MSVC
that only link the dependency (`C168_negation_meson`). -/
theorem C168_meson_partial (o : BuildOptions) {L U : List String} (hL : Unrelated L)
    (hU : Unrelated U ∧ (o.shared = true ∨ o.msvc = false) ∨
      o.shared = false ∧ ("ZYCORE_STATIC_BUILD" ∈ U ∨ "ZYCORE_STATIC_DEFINE" ∈ U) ∧ "ZYAN_NO_LIBC" ∉ U) :
    SeesTheLibrary o.shared o.noLibc o.msvc ((mesonPlan o).macros ++ L) ((mesonPlan o).userMacros ++ U) := by
  obtain ⟨sh, nl, pr, sy, ms⟩ := o
  simp only [Unrelated, List.mem_cons, List.not_mem_nil, or_false, forall_eq_or_imp, forall_eq] at hL hU
  rcases hU with ⟨hU, hc⟩ | ⟨hs, hc, hn⟩
  · constructor <;> cases sh <;> cases nl <;> cases ms <;> cases sy <;>
      simp_all [zycoreExport_eq, mesonPlan, dllexport, dllimport]
  · subst hs
    constructor <;> cases nl <;> cases ms <;> cases sy <;>
      simp [zycoreExport_eq, mesonPlan, hL, hc, hn]

/-- **C168** (negation), Meson: users of a static library with MSVC that link the dependency, and define nothing for the
library themselves, declare its functions as imported from a shared library; the library does not export them. -/
theorem C168_negation_meson (o : BuildOptions) {L U : List String} (hL : Unrelated L) (hU : Unrelated U)
    (hs : o.shared = false) (hm : o.msvc = true) :
    zycoreExport o.msvc ((mesonPlan o).userMacros ++ U) = .dllimport ∧
      zycoreExport o.msvc ((mesonPlan o).macros ++ L) = .nothing ∧
      ¬ SeesTheLibrary o.shared o.noLibc o.msvc ((mesonPlan o).macros ++ L) ((mesonPlan o).userMacros ++ U) := by
  obtain ⟨sh, nl, pr, sy, ms⟩ := o
  simp only [Unrelated, List.mem_cons, List.not_mem_nil, or_false, forall_eq_or_imp, forall_eq] at hL hU
  dsimp only at hs hm
  subst hs hm
  have h1 : zycoreExport true ((mesonPlan ⟨false, nl, pr, sy, true⟩).userMacros ++ U) = .dllimport := by
    cases nl <;> simp [zycoreExport_eq, mesonPlan, hU, dllimport]
  refine ⟨h1, ?_, fun h => ?_⟩
  · cases nl <;> cases sy <;> simp [zycoreExport_eq, mesonPlan, hL]
  · have := h.outside
    dsimp only at this
    rw [h1] at this
    simp at this

/-- **C168**, the old names: a project that still defines the old names gets the same declarations. -/
theorem C168_old_names (msvc : Bool) (M : List String) :
    zycoreExport msvc ("ZYCORE_STATIC_DEFINE" :: M) = zycoreExport msvc ("ZYCORE_STATIC_BUILD" :: M) ∧
    zycoreExport msvc ("Zycore_EXPORTS" :: M) = zycoreExport msvc ("ZYCORE_SHOULD_EXPORT" :: M) := by
  simp only [zycoreExport_eq, List.mem_cons]
  simp

/-- A static and a shared library with MSVC on Windows, and a user with a definition of their own. -/
example : SeesTheLibrary true false true
      ["ZYCORE_SHOULD_EXPORT", "_CRT_SECURE_NO_WARNINGS", "UNICODE"] ["MY_DEBUG"] ∧
    SeesTheLibrary false true true
      ["ZYCORE_STATIC_BUILD", "_CRT_SECURE_NO_WARNINGS", "ZYAN_NO_LIBC"] ["ZYCORE_STATIC_BUILD", "ZYAN_NO_LIBC", "X"] :=
  ⟨C168_cmake ⟨true, false, false, .windows, true⟩ (L := ["UNICODE"]) (U := ["MY_DEBUG"])
      (by unfold Unrelated; decide +kernel) (by unfold Unrelated; decide +kernel),
    C168_cmake ⟨false, true, false, .windows, true⟩ (L := []) (U := ["X"])
      (by unfold Unrelated; decide +kernel) (by unfold Unrelated; decide +kernel)⟩

example : SeesTheLibrary false false true ["ZYCORE_STATIC_BUILD"] ["ZYCORE_STATIC_DEFINE", "X"] :=
  C168_meson_partial ⟨false, false, true, .windows, true⟩ (L := []) (U := ["ZYCORE_STATIC_DEFINE", "X"])
    (by unfold Unrelated; decide +kernel) (.inr (by decide +kernel))

example : zycoreExport true ["ZYAN_NO_LIBC", "X"] = .dllimport :=
  (C168_negation_meson ⟨false, true, true, .windows, true⟩ (L := []) (U := ["X"])
    (by unfold Unrelated; decide +kernel) (by unfold Unrelated; decide +kernel) rfl rfl).1

example : zycoreExport true ["Zycore_EXPORTS"] = .dllexport ∧ zycoreExport true ["ZYCORE_SHOULD_EXPORT"] = .dllexport ∧
    zycoreExport true ["Zycore_EXPORTS", "ZYCORE_STATIC_DEFINE"] = .nothing ∧ zycoreExport true [] = .dllimport ∧
    zycoreExport false ["Zycore_EXPORTS"] = .nothing := by decide +kernel

/-- **C168**, which compilers count as MSVC: those that define `_MSC_VER` and none of the macros of Clang, of the compiler of
Intel and of GCC. -/
theorem C168_which_compilers {pre : Macros} (h : pre .ZYAN_MSVC = none) :
    ∃ e, compilerH.run pre = some (e, []) ∧
      ((e .ZYAN_MSVC).isSome = true ↔ (pre ._MSC_VER).isSome = true ∧
        ∀ m ∈ [Mac.__clang__, .__ICC, .__INTEL_COMPILER, .__GNUC__, .__GNUG__], pre m = none) := by
  simp only [List.mem_cons, List.not_mem_nil, or_false, forall_eq_or_imp, forall_eq]
  simp only [compilerH, detect, Pp.run, Cond.holds, anyOf, defines, blk, List.map]
  rcases Option.eq_none_or_eq_some (pre .__clang__) with h1 | ⟨_, h1⟩
  · rcases Option.eq_none_or_eq_some (pre .__ICC) with h2 | ⟨_, h2⟩
    · rcases Option.eq_none_or_eq_some (pre .__INTEL_COMPILER) with h3 | ⟨_, h3⟩
      · rcases Option.eq_none_or_eq_some (pre .__GNUC__) with h4 | ⟨_, h4⟩
        · rcases Option.eq_none_or_eq_some (pre .__GNUG__) with h5 | ⟨_, h5⟩
          · rcases Option.eq_none_or_eq_some (pre ._MSC_VER) with h6 | ⟨_, h6⟩
            · rcases Option.eq_none_or_eq_some (pre .__BORLANDC__) with h7 | ⟨_, h7⟩ <;>
                simp [h, h1, h2, h3, h4, h5, h6, h7]
            · simp [h1, h2, h3, h4, h5, h6]
          · simp [h, h1, h2, h3, h4, h5]
        · simp [h, h1, h2, h3, h4]
      · simp [h, h1, h2, h3]
    · simp [h, h1, h2]
  · simp [h, h1]

/-- **C168** (negation), other compilers for the same target: a compiler that defines `_MSC_VER`, as its programs are linked by
the linker of MSVC, but also a macro of Clang or of the compiler of Intel, does not count as MSVC; then nothing at all is declared
as exported or imported, whatever is built. -/
theorem C168_negation_clang {pre : Macros} (h : pre .ZYAN_MSVC = none) {c : Mac}
    (hc : c ∈ [Mac.__clang__, .__ICC, .__INTEL_COMPILER]) (hd : (pre c).isSome = true) :
    ∃ e, compilerH.run pre = some (e, []) ∧ ∀ macros, zycoreExport (e .ZYAN_MSVC).isSome macros = .nothing := by
  obtain ⟨e, he, hm⟩ := C168_which_compilers h
  refine ⟨e, he, fun macros => ?_⟩
  have hf : (e .ZYAN_MSVC).isSome = false := by
    cases hx : (e .ZYAN_MSVC).isSome with
    | false => rfl
    | true =>
      have := (hm.1 hx).2 c (by
        simp only [List.mem_cons, List.not_mem_nil, or_false] at hc ⊢
        rcases hc with rfl | rfl | rfl <;> simp)
      rw [this] at hd
      simp at hd
  rw [hf, zycoreExport_eq]
  simp [dllexport, dllimport]

/-- The compiler of MSVC itself, and Clang in its place. -/
example : (∃ e, compilerH.run (fun m => if m = ._MSC_VER then some 1940 else none) = some (e, []) ∧
      (e .ZYAN_MSVC).isSome = true) ∧
    ∃ e, compilerH.run (fun m => if m = ._MSC_VER then some 1940 else if m = .__clang__ then some 1 else none) = some (e, []) ∧
      zycoreExport (e .ZYAN_MSVC).isSome ["ZYCORE_SHOULD_EXPORT"] = .nothing := by
  constructor
  · obtain ⟨e, he, hm⟩ := C168_which_compilers (pre := fun m => if m = ._MSC_VER then some 1940 else none) rfl
    exact ⟨e, he, hm.2 (by decide)⟩
  · obtain ⟨e, he, hm⟩ := C168_negation_clang
      (pre := fun m => if m = ._MSC_VER then some 1940 else if m = .__clang__ then some 1 else none) rfl (c := .__clang__)
      (by decide) rfl
    exact ⟨e, he, hm _⟩

/-! ## C169 -/

/-- **C169**: CMake and Meson compile the same files, which are all source files, each once; they define the same of the
macros that the sources test; and they link the thread library in the same cases. -/
theorem C169_same_library (o : BuildOptions) :
    (cmakePlan o).sources.Perm sourceFiles ∧ (mesonPlan o).sources.Perm sourceFiles ∧
      (∀ m ∈ switches, m ∈ (cmakePlan o).macros ↔ m ∈ (mesonPlan o).macros) ∧
      (cmakePlan o).threads = (mesonPlan o).threads := by
  refine ⟨by show cmakeSources.Perm _; decide +kernel, by show mesonSources.Perm _; decide +kernel, ?_, ?_⟩
  · obtain ⟨sh, nl, pr, sy, ms⟩ := o
    cases sh <;> cases nl <;> cases pr <;> cases sy <;> cases ms <;> decide +kernel
  · obtain ⟨sh, nl, pr, sy, ms⟩ := o
    cases sh <;> cases nl <;> cases pr <;> cases sy <;> cases ms <;> decide +kernel

/-- **C169** (partial): with the C library, the compiler and the linker get the same further flags, and the examples and tests
are built in the same cases; for shared libraries, the version resource is compiled in the same cases. Missing: builds without
the C library, static libraries on Windows, the name of the shared library and the dialect (`C169_negation_*`). -/
theorem C169_same_flags_partial (o : BuildOptions) :
    (o.noLibc = false → (cmakePlan o).compilerFlags = (mesonPlan o).compilerFlags ∧
      (cmakePlan o).linkerFlags = (mesonPlan o).linkerFlags ∧ (cmakePlan o).programs = (mesonPlan o).programs) ∧
    (o.system = .linux ∨ o.system = .otherUnix → (cmakePlan o).linkerFlags = (mesonPlan o).linkerFlags) ∧
    (o.shared = true ∨ o.system ≠ .windows → (cmakePlan o).resource = (mesonPlan o).resource) := by
  obtain ⟨sh, nl, pr, sy, ms⟩ := o
  cases sh <;> cases nl <;> cases pr <;> cases sy <;> cases ms <;> decide +kernel

/-- **C169** (negation), the name of the library: programs linked to the shared library that one tool builds look for another
name than that of the library which the other tool builds: CMake names it after the major and the minor version, Meson after
the major version only. -/
theorem C169_negation_soname (o : BuildOptions) :
    (cmakePlan o).soname = [1, 5] ∧ (mesonPlan o).soname = [1] ∧ (cmakePlan o).soname ≠ (mesonPlan o).soname := by
  refine ⟨rfl, rfl, ?_⟩
  show ([1, 5] : List Nat) ≠ [1]
  decide

/-- **C169** (negation), without the C library: CMake never tells the compiler to leave out the stack protector, whose
functions are in the C library, Meson always does; outside Unix CMake links the C library all the same; and CMake builds the
examples and tests, if asked for, which need the C library. -/
theorem C169_negation_no_libc (o : BuildOptions) (h : o.noLibc = true) :
    (cmakePlan o).compilerFlags = [] ∧ (mesonPlan o).compilerFlags = ["-fno-stack-protector"] ∧
      (o.system = .windows ∨ o.system = .other → (cmakePlan o).linkerFlags ≠ (mesonPlan o).linkerFlags) ∧
      (o.programs = true → (cmakePlan o).programs = true ∧ (mesonPlan o).programs = false) := by
  obtain ⟨sh, nl, pr, sy, ms⟩ := o
  dsimp only at h
  subst h
  cases sh <;> cases pr <;> cases sy <;> cases ms <;> decide +kernel

/-- **C169** (negation), the dialect and the resource: CMake compiles in GNU mode, or in the mode of MSVC, Meson in the mode of
the standard; for a static library on Windows, only Meson compiles the version resource. -/
theorem C169_negation_dialect (o : BuildOptions) :
    (cmakePlan o).dialect ≠ (mesonPlan o).dialect ∧
      (o.shared = false → o.system = .windows → (cmakePlan o).resource = false ∧ (mesonPlan o).resource = true) := by
  obtain ⟨sh, nl, pr, sy, ms⟩ := o
  cases sh <;> cases nl <;> cases pr <;> cases sy <;> cases ms <;> decide +kernel

/-- The two plans for a shared library on Linux, and without the C library on Windows. -/
example : (cmakePlan ⟨true, false, true, .linux, false⟩).macros =
      ["ZYCORE_SHOULD_EXPORT", "_CRT_SECURE_NO_WARNINGS", "_GNU_SOURCE"] ∧
    (mesonPlan ⟨true, false, true, .linux, false⟩).macros = ["_GNU_SOURCE", "ZYCORE_SHOULD_EXPORT"] ∧
    (cmakePlan ⟨true, false, true, .linux, false⟩).threads = true ∧
    (cmakePlan ⟨true, false, true, .otherUnix, false⟩).threads = false ∧
    (cmakePlan ⟨true, true, true, .linux, false⟩).linkerFlags = ["-nostdlib", "-nodefaultlibs"] ∧
    (mesonPlan ⟨true, true, true, .linux, false⟩).linkerFlags = ["-nostdlib", "-nodefaultlibs"] ∧
    (cmakePlan ⟨true, true, true, .windows, true⟩).linkerFlags = [] ∧
    (cmakePlan ⟨true, false, true, .windows, true⟩).resource = true ∧
    (cmakePlan ⟨true, false, true, .linux, true⟩).resource = false ∧
    (cmakePlan ⟨true, false, true, .linux, false⟩).dialect = .gnu11 ∧
    (cmakePlan ⟨true, false, true, .windows, true⟩).dialect = .default ∧
    (mesonPlan ⟨true, false, true, .linux, false⟩).dialect = .c11 ∧
    (mesonPlan ⟨true, false, true, .linux, false⟩).programs = true ∧
    (mesonPlan ⟨true, false, true, .linux, false⟩).threads = true := by
  decide +kernel

end Zy
