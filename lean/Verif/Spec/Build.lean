import Verif.Model.Sources

/-!
# What a configuration of the library is

Which macros belong together, what it means that exactly one of them is defined, and what it means that a list of
declarations, definitions and uses is complete.
-/

namespace Zy.Spec

/-- The macro is defined. -/
def Defd (e : Macros) (m : Mac) : Prop := (e m).isSome = true

/-- Exactly one of the macros is defined. -/
def ExactlyOne (e : Macros) (l : List Mac) : Prop := ∃ m ∈ l, Defd e m ∧ ∀ k ∈ l, Defd e k → k = m

/-- At most one of the macros is defined. -/
def AtMostOne (e : Macros) (l : List Mac) : Prop := ∀ m ∈ l, ∀ k ∈ l, Defd e m → Defd e k → m = k

/-- The compilers. -/
def compilers : List Mac := [.ZYAN_CLANG, .ZYAN_ICC, .ZYAN_GCC, .ZYAN_MSVC, .ZYAN_BORLAND, .ZYAN_UNKNOWN_COMPILER]
/-- The operating systems. -/
def systems : List Mac := [.ZYAN_WINDOWS, .ZYAN_EMSCRIPTEN, .ZYAN_WASI, .ZYAN_APPLE, .ZYAN_LINUX, .ZYAN_FREEBSD,
  .ZYAN_NETBSD, .ZYAN_SOLARIS, .ZYAN_HAIKU, .ZYAN_UNIX, .ZYAN_UNKNOWN_PLATFORM]
/-- The families of operating systems. -/
def families : List Mac := [.ZYAN_WINDOWS, .ZYAN_POSIX, .ZYAN_EMSCRIPTEN, .ZYAN_WASI, .ZYAN_UNKNOWN_PLATFORM]
/-- The architectures. -/
def architectures : List Mac := [.ZYAN_X64, .ZYAN_X86, .ZYAN_AARCH64, .ZYAN_ARM, .ZYAN_WASM, .ZYAN_LOONGARCH,
  .ZYAN_PPC64, .ZYAN_PPC, .ZYAN_RISCV64]
/-- User and kernel mode. -/
def modes : List Mac := [.ZYAN_KERNEL, .ZYAN_USER]
/-- Debug and release builds. -/
def buildTypes : List Mac := [.ZYAN_DEBUG, .ZYAN_RELEASE]

/-- The macros that the library itself defines. -/
def ownMacros : List Mac :=
  .ZYAN_GNUC :: .ZYAN_POSIX :: (compilers ++ systems ++ architectures ++ modes ++ buildTypes)

/-- The compiler, the command line and the C library leave the macros of the library alone. -/
def Untouched (pre : Macros) : Prop := ∀ m ∈ ownMacros, pre m = none

/-- The predefined macros by which an architecture is recognised. -/
def KnownArchitecture (pre : Macros) : Prop :=
  (∃ m ∈ [Mac._M_AMD64, .__x86_64__, ._M_IX86, .__i386__, ._M_ARM64, .__aarch64__, ._M_ARM, ._M_ARMT, .__arm__,
    .__thumb__, .__EMSCRIPTEN__, .__wasm__, .__WASM__, .__loongarch__, .__powerpc64__, .__powerpc__], Defd pre m) ∨
  (Defd pre .__riscv ∧ pre .__riscv_xlen = some 64)

/-- By which predefined macros a compiler is recognised; earlier entries count first (Clang and the Intel compiler
also define `__GNUC__`). -/
def compilerMarks : List (Mac × List Mac) :=
  [(.ZYAN_CLANG, [.__clang__]), (.ZYAN_ICC, [.__ICC, .__INTEL_COMPILER]), (.ZYAN_GCC, [.__GNUC__, .__GNUG__]),
    (.ZYAN_MSVC, [._MSC_VER]), (.ZYAN_BORLAND, [.__BORLANDC__])]

/-- By which predefined macros an operating system is recognised; earlier entries count first (most of the later
systems also define `__unix__`). The last entry is for a system of which only the family is known. -/
def systemMarks : List (Mac × List Mac) :=
  [(.ZYAN_WINDOWS, [._WIN32]), (.ZYAN_EMSCRIPTEN, [.__EMSCRIPTEN__]), (.ZYAN_WASI, [.__wasi__, .__WASI__]),
    (.ZYAN_APPLE, [.__APPLE__]), (.ZYAN_LINUX, [.__linux]), (.ZYAN_FREEBSD, [.__FreeBSD__]),
    (.ZYAN_NETBSD, [.__NetBSD__]), (.ZYAN_SOLARIS, [.sun, .__sun]), (.ZYAN_HAIKU, [.__HAIKU__]),
    (.ZYAN_UNIX, [.__unix, .__unix__]), (.ZYAN_POSIX, [.__posix])]

/-- By which predefined macros an architecture is recognised; earlier entries count first. -/
def architectureMarks : List (Mac × List Mac) :=
  [(.ZYAN_X64, [._M_AMD64, .__x86_64__]), (.ZYAN_X86, [._M_IX86, .__i386__]),
    (.ZYAN_AARCH64, [._M_ARM64, .__aarch64__]), (.ZYAN_ARM, [._M_ARM, ._M_ARMT, .__arm__, .__thumb__]),
    (.ZYAN_WASM, [.__EMSCRIPTEN__, .__wasm__, .__WASM__]), (.ZYAN_LOONGARCH, [.__loongarch__]),
    (.ZYAN_PPC64, [.__powerpc64__]), (.ZYAN_PPC, [.__powerpc__])]

/-- `m` is the first entry of the table one of whose predefined macros is defined. -/
def Recognised (pre : Macros) : List (Mac × List Mac) → Mac → Prop
  | [], _ => False
  | (t, ms) :: l, m =>
    ((∃ k ∈ ms, Defd pre k) ∧ m = t) ∨ ((∀ k ∈ ms, ¬ Defd pre k) ∧ Recognised pre l m)

/-- How often a function is defined. -/
def definitions (l : List Tok) (f : Fn) : Nat := l.count (.body f)

/-- The eight functions that headers declare and no source file defines. -/
def neverDefined : List Fn := [.ZyanStringInsertFormat, .ZyanStringInsertDecU, .ZyanStringInsertDecS,
  .ZyanStringInsertHexU, .ZyanStringInsertHexS, .ZyanListDuplicate, .ZyanListDuplicateEx,
  .ZyanListDuplicateCustomBuffer]

end Zy.Spec
