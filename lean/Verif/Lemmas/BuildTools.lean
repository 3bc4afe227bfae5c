import Verif.Spec.BuildTools

/-!
# Lemmas about the build files: the choice of `ZYCORE_EXPORT` as a condition on the macros
-/

namespace Zy

open Spec

theorem zycoreExport_eq (msvc : Bool) (ms : List String) : zycoreExport msvc ms =
    if "ZYCORE_STATIC_BUILD" ∈ ms ∨ "ZYCORE_STATIC_DEFINE" ∈ ms then .nothing
    else if "ZYCORE_SHOULD_EXPORT" ∈ ms ∨ "Zycore_EXPORTS" ∈ ms then dllexport msvc else dllimport msvc := by
  unfold zycoreExport withOldNames
  by_cases h1 : "ZYCORE_STATIC_DEFINE" ∈ ms <;> by_cases h2 : "Zycore_EXPORTS" ∈ ms <;>
    by_cases h3 : "ZYCORE_STATIC_BUILD" ∈ ms <;> by_cases h4 : "ZYCORE_SHOULD_EXPORT" ∈ ms <;>
    simp [h1, h2, h3, h4]

end Zy
