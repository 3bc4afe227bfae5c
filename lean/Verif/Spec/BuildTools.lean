import Verif.Model.BuildTools

/-!
# What the build files should achieve
-/

namespace Zy.Spec

open Zy

/-- With MSVC, the functions of a shared library must be declared as exported when it is compiled, and as imported when its
users are; those of a static library, or with another compiler, as neither. -/
structure SeesTheLibrary (shared noLibc msvc : Bool) (libMacros userMacros : List String) : Prop where
  inside : zycoreExport msvc libMacros = if msvc && shared then .dllexport else .nothing
  outside : zycoreExport msvc userMacros = if msvc && shared then .dllimport else .nothing
  libc : "ZYAN_NO_LIBC" ∈ libMacros ↔ noLibc = true
  userLibc : "ZYAN_NO_LIBC" ∈ userMacros ↔ noLibc = true

/-- The macros, given on the command line, that the sources of the library test, and the one that the headers of the C
library test. -/
def switches : List String :=
  ["ZYCORE_STATIC_BUILD", "ZYCORE_STATIC_DEFINE", "ZYCORE_SHOULD_EXPORT", "Zycore_EXPORTS", "ZYAN_NO_LIBC",
    "ZYAN_CUSTOM_LIBC", "_GNU_SOURCE", "NDEBUG", "_DEBUG"]

/-- Definitions that do not touch the switches of the library. -/
def Unrelated (macros : List String) : Prop :=
  ∀ m ∈ ["ZYCORE_STATIC_BUILD", "ZYCORE_STATIC_DEFINE", "ZYCORE_SHOULD_EXPORT", "Zycore_EXPORTS", "ZYAN_NO_LIBC"],
    m ∉ macros

/-- The files with the extension `c` in the directory src. -/
def sourceFiles : List String :=
  ["src/Allocator.c", "src/ArgParse.c", "src/Bitset.c", "src/Format.c", "src/List.c", "src/String.c", "src/Vector.c",
    "src/Zycore.c", "src/API/Memory.c", "src/API/Process.c", "src/API/Synchronization.c", "src/API/Terminal.c",
    "src/API/Thread.c"]

end Zy.Spec
