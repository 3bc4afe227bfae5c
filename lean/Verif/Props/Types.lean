import Verif.Lemmas.Types
import Verif.Spec.Types

/-!
# Property theorems about the integer types (C138)
-/

namespace Zy

open Spec

/-! ## C138: only the promised integer types are accepted -/

/-- C138, exactly what the checks accept: the right sizes, and in each pair of the same fixed width one signed and one
unsigned type. -/
theorem C138_exact (t : Typedefs) (ptr : Nat) : typesAccepted t ptr = true ↔ RightSizes t ptr ∧
    t.i8.signed ≠ t.u8.signed ∧ t.i16.signed ≠ t.u16.signed ∧ t.i32.signed ≠ t.u32.signed ∧
    t.i64.signed ≠ t.u64.signed := by
  simp only [typesAccepted, Bool.and_eq_true, beq_iff_eq]
  constructor
  · rintro ⟨⟨⟨⟨⟨⟨⟨⟨⟨⟨⟨⟨⟨⟨⟨a, b⟩, c⟩, d⟩, e⟩, f⟩, g⟩, h⟩, i⟩, j⟩, k⟩, l⟩, m⟩, n⟩, o⟩, p⟩
    exact ⟨⟨a, b, c, d, e, f, g, h, i, j, k, l⟩, (signCheck_of (by decide) e a).1 m, (signCheck_of (by decide) f b).1 n,
      (signCheck_of (by decide) g c).1 o, (signCheck_of (by decide) h d).1 p⟩
  · rintro ⟨⟨a, b, c, d, e, f, g, h, i, j, k, l⟩, m, n, o, p⟩
    exact ⟨⟨⟨⟨⟨⟨⟨⟨⟨⟨⟨⟨⟨⟨⟨a, b⟩, c⟩, d⟩, e⟩, f⟩, g⟩, h⟩, i⟩, j⟩, k⟩, l⟩, (signCheck_of (by decide) e a).2 m⟩,
      (signCheck_of (by decide) f b).2 n⟩, (signCheck_of (by decide) g c).2 o⟩, (signCheck_of (by decide) h d).2 p⟩

/-- C138 (partial): the promised types are accepted, and accepted types have the promised sizes. Missing: that accepted
types have the promised signs, which is false (`C138_negation`). -/
theorem C138_partial (t : Typedefs) (ptr : Nat) :
    (RightSizes t ptr → RightSigns t → typesAccepted t ptr = true) ∧ (typesAccepted t ptr = true → RightSizes t ptr) := by
  refine ⟨fun h s => ?_, fun h => ((C138_exact t ptr).1 h).1⟩
  rw [C138_exact]
  refine ⟨h, ?_⟩
  simp [s.u8, s.u16, s.u32, s.u64, s.i8, s.i16, s.i32, s.i64]

/-- C138 (negation): the promised types with all signs exchanged are accepted as well. -/
theorem C138_negation (t : Typedefs) (ptr : Nat) (h : RightSizes t ptr) (s : RightSigns t) :
    typesAccepted (exchanged t) ptr = true ∧ ¬ RightSigns (exchanged t) := by
  refine ⟨?_, fun r => ?_⟩
  · rw [C138_exact]
    refine ⟨⟨h.u8, h.u16, h.u32, h.u64, h.i8, h.i16, h.i32, h.i64, h.usize, h.isize, h.upointer, h.ipointer⟩, ?_⟩
    simp [exchanged, s.u8, s.u16, s.u32, s.u64, s.i8, s.i16, s.i32, s.i64]
  · have := r.u8
    simp [exchanged, s.u8] at this

/-- The types of a 64-bit target. -/
def exTypes : Typedefs :=
  ⟨⟨1, false⟩, ⟨2, false⟩, ⟨4, false⟩, ⟨8, false⟩, ⟨1, true⟩, ⟨2, true⟩, ⟨4, true⟩, ⟨8, true⟩, ⟨8, false⟩, ⟨8, true⟩,
    ⟨8, false⟩, ⟨8, true⟩⟩

theorem exTypes_sizes : RightSizes exTypes 8 := ⟨rfl, rfl, rfl, rfl, rfl, rfl, rfl, rfl, rfl, rfl, rfl, rfl⟩
theorem exTypes_signs : RightSigns exTypes := ⟨rfl, rfl, rfl, rfl, rfl, rfl, rfl, rfl, rfl, rfl, rfl, rfl⟩

example : typesAccepted exTypes 8 = true := (C138_partial exTypes 8).1 exTypes_sizes exTypes_signs
example : typesAccepted (exchanged exTypes) 8 = true ∧ ¬ RightSigns (exchanged exTypes) :=
  C138_negation exTypes 8 exTypes_sizes exTypes_signs
/-- `long` for pointers on a target where it has four bytes. -/
example : typesAccepted { exTypes with usize := ⟨4, false⟩ } 8 = false := by decide +kernel
/-- `char` for `ZyanI8` where it is unsigned. -/
example : typesAccepted { exTypes with i8 := ⟨1, false⟩ } 8 = false := by decide +kernel

end Zy
