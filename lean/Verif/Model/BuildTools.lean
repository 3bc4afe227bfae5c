/-!
# Model of the build files

CMakeLists.txt, cmake/zyan-functions.cmake, meson.build and meson_options.txt as functions from the options to what the
compiler and the linker are told, and the choice of `ZYCORE_EXPORT` in include/Zycore/Defines.h, which depends on it.

Simplifications: only what differs with the options, or between the two tools, or is tested by the sources is modelled -
no include directories, warnings, documentation, whole program optimization and installation. Meson builds one kind of
library (`default_library` is `shared` or `static`). The three-valued options of Meson for the examples and the tests are
taken as decided. The meaning of `C_STANDARD 11` without `C_EXTENSIONS` (GNU mode), of `DEFINE_SYMBOL` (defined for the
sources of a shared library), of `PUBLIC` (for the library and its users) and of `version` without `soversion` (the first
number is the `SOVERSION`) is that of the manuals of CMake and Meson.
-/

namespace Zy

/-- The kinds of systems that the build files tell apart. -/
inductive System where
  | linux | otherUnix | windows | other
  deriving DecidableEq, Repr

/-- The options: kind of library (`ZYCORE_BUILD_SHARED_LIB`, CMakeLists.txt lines 36-38; `default_library` of Meson), no C
library (`ZYAN_NO_LIBC`, lines 25-27; `nolibc`, meson_options.txt lines 1-7), whether examples and tests are asked for
(lines 39-44; meson_options.txt lines 14-25), the system and whether the compiler is MSVC. -/
structure BuildOptions where
  shared : Bool
  noLibc : Bool
  programs : Bool
  system : System
  msvc : Bool
  deriving DecidableEq, Repr

/-- The dialects of C. -/
inductive Dialect where
  | default | c11 | gnu11
  deriving DecidableEq, Repr

/-- What the compiler and the linker are told: the source files, the macros defined for the sources of the library and for
its users, the dialect, further flags for the compiler and the linker, whether the thread library is linked, whether the
resource with the version is compiled in, the numbers in the name under which users look for a shared library, and whether
the examples and tests are built. -/
structure BuildPlan where
  sources : List String
  macros : List String
  userMacros : List String
  dialect : Dialect
  compilerFlags : List String
  linkerFlags : List String
  threads : Bool
  resource : Bool
  soname : List Nat
  programs : Bool
  deriving DecidableEq, Repr

/-- CMakeLists.txt lines 171-185. -/
def cmakeSources : List String :=
  ["src/API/Memory.c", "src/API/Process.c", "src/API/Synchronization.c", "src/API/Terminal.c", "src/API/Thread.c",
    "src/Allocator.c", "src/ArgParse.c", "src/Bitset.c", "src/Format.c", "src/List.c", "src/String.c", "src/Vector.c",
    "src/Zycore.c"]

/-- CMakeLists.txt line 12: major and minor version. -/
def cmakeVersion : List Nat := [1, 5, 0, 0]

/-- CMakeLists.txt lines 115-198 and 243-301, cmake/zyan-functions.cmake lines 5-14. -/
def cmakePlan (o : BuildOptions) : BuildPlan where
  sources := cmakeSources
  macros :=
    (if o.shared then ["ZYCORE_SHOULD_EXPORT"] else ["ZYCORE_STATIC_BUILD"]) ++ ["_CRT_SECURE_NO_WARNINGS"] ++
      (if o.noLibc then ["ZYAN_NO_LIBC"] else []) ++
      (if o.system = .linux ∧ o.noLibc = false then ["_GNU_SOURCE"] else [])
  userMacros :=
    (if o.shared then [] else ["ZYCORE_STATIC_BUILD"]) ++ (if o.noLibc then ["ZYAN_NO_LIBC"] else [])
  dialect := if o.msvc then .default else .gnu11
  compilerFlags := []
  linkerFlags :=
    if o.noLibc ∧ (o.system = .linux ∨ o.system = .otherUnix) then ["-nostdlib", "-nodefaultlibs"] else []
  threads := o.system = .linux ∧ o.noLibc = false
  resource := o.shared ∧ o.system = .windows
  soname := cmakeVersion.take 2
  programs := o.programs

/-- meson.build lines 69-85. -/
def mesonSources : List String :=
  ["src/API/Memory.c", "src/API/Process.c", "src/API/Synchronization.c", "src/API/Terminal.c", "src/API/Thread.c",
    "src/Allocator.c", "src/ArgParse.c", "src/Bitset.c", "src/Format.c", "src/List.c", "src/String.c", "src/Vector.c",
    "src/Zycore.c"]

/-- meson.build line 4. -/
def mesonVersion : List Nat := [1, 5, 0]

/-- meson.build lines 8-12 and 86-151, examples/meson.build lines 1-6, tests/meson.build lines 1-5. -/
def mesonPlan (o : BuildOptions) : BuildPlan where
  sources := mesonSources
  macros :=
    (if o.noLibc then ["ZYAN_NO_LIBC"] else if o.system = .linux then ["_GNU_SOURCE"] else []) ++
      (if o.shared then ["ZYCORE_SHOULD_EXPORT"] else ["ZYCORE_STATIC_BUILD"])
  userMacros := if o.noLibc then ["ZYAN_NO_LIBC"] else []
  dialect := .c11
  compilerFlags := if o.noLibc then ["-fno-stack-protector"] else []
  linkerFlags := if o.noLibc then ["-nostdlib", "-nodefaultlibs"] else []
  threads := o.noLibc = false ∧ o.system = .linux
  resource := o.system = .windows
  soname := mesonVersion.take 1
  programs := o.programs ∧ o.noLibc = false

/-- What `ZYCORE_EXPORT` puts before a declaration. -/
inductive Declspec where
  | nothing | dllexport | dllimport
  deriving DecidableEq, Repr

/-- include/Zycore/Defines.h lines 217-224: the old names of the two macros stand for the new ones. -/
def withOldNames (macros : List String) : List String :=
  let m := if "ZYCORE_STATIC_DEFINE" ∈ macros then "ZYCORE_STATIC_BUILD" :: macros else macros
  if "Zycore_EXPORTS" ∈ m then "ZYCORE_SHOULD_EXPORT" :: m else m

/-- include/Zycore/Defines.h lines 193-199: `ZYAN_DLLEXPORT` and `ZYAN_DLLIMPORT`, if `ZYAN_MSVC` is defined or not. -/
def dllexport (msvc : Bool) : Declspec := if msvc then .dllexport else .nothing
@[inherit_doc dllexport]
def dllimport (msvc : Bool) : Declspec := if msvc then .dllimport else .nothing

/-- include/Zycore/Defines.h lines 217-237: `ZYCORE_EXPORT`, given the macros defined for a source file. -/
def zycoreExport (msvc : Bool) (macros : List String) : Declspec :=
  let m := withOldNames macros
  if "ZYCORE_STATIC_BUILD" ∈ m then .nothing
  else if "ZYCORE_SHOULD_EXPORT" ∈ m then dllexport msvc
  else dllimport msvc

end Zy
