import Verif.Spec.Limits
import Verif.Lemmas.Types

/-!
# Lemmas about the integer types and limits without the C library
-/

namespace Zy

open Spec

theorem honest_getD {o : Option CInt} {x d : CInt} (h : ∀ t, o = some t → t = x) :
    o.getD d = if o = none then d else x := by
  cases o with
  | none => rfl
  | some t => simp [h t rfl]

theorem honest_or {o : Option (CInt × Int)} {x : CInt × Int} {d : Option (CInt × Int)}
    (h : ∀ e, o = some e → e = x) (hd : d = some x) : (o <|> d) = some x := by
  cases o with
  | none => simpa using hd
  | some e => simp [h e rfl]

/-- The types on a supported compiler have the right signs, and the right sizes exactly when the guesses are right. -/
theorem types_of (c : Compiler) (u : UsualSizes c) (h : Honest c) (s : (c.msvc || c.icc || c.gnuc) = true) :
    ∃ t, noLibcTypes c = some t ∧ RightSigns t ∧ (RightSizes t c.ptr ↔ GuessesRight c) := by
  obtain ⟨us, ui, ul, ull, up⟩ := u
  cases hm : (c.msvc || c.icc)
  · have hg : c.gnuc = true := by simpa [hm] using s
    refine ⟨_, by simp only [noLibcTypes, hm, hg, Bool.false_eq_true, if_false, if_true]; rfl, ?_, ?_⟩
    · constructor <;> simp only [honest_getD h.tU8, honest_getD h.tU16, honest_getD h.tU32, honest_getD h.tU64,
        honest_getD h.tI8, honest_getD h.tI16, honest_getD h.tI32, honest_getD h.tI64, honest_getD h.tSize,
        honest_getD h.tPtrdiff, honest_getD h.tUIntptr, honest_getD h.tIntptr] <;> repeat' split <;> try rfl
    · simp only [honest_getD h.tU8, honest_getD h.tU16, honest_getD h.tU32, honest_getD h.tU64,
        honest_getD h.tI8, honest_getD h.tI16, honest_getD h.tI32, honest_getD h.tI64, honest_getD h.tSize,
        honest_getD h.tPtrdiff, honest_getD h.tUIntptr, honest_getD h.tIntptr, us, ui, ull, ite_self]
      have hw : c.wide = (c.x86_64 && !c.ilp32) := rfl
      simp only [GuessesRight, hm, Bool.false_eq_true, if_false, ← hw]
      constructor
      · rintro ⟨-, -, -, a, -, -, -, b, d, e, f, g⟩
        refine ⟨fun n w => ?_, fun n w => ?_, fun n => ?_, fun n => ?_, fun n => ?_, fun n => ?_⟩
        · simpa [n, w] using a
        · simpa [n, w] using b
        · simpa [n] using d
        · simpa [n] using e
        · rw [n] at f; cases hh : c.wide <;> simp [hh] at f ⊢ <;> exact f.symm
        · rw [n] at g; cases hh : c.wide <;> simp [hh] at g ⊢ <;> exact g.symm
      · rintro ⟨a, b, d, e, f, g⟩
        constructor <;> dsimp only
        · split
          · next n => cases hh : c.wide <;> simp <;> exact a n hh
          · rfl
        · split
          · next n => cases hh : c.wide <;> simp <;> exact b n hh
          · rfl
        · split
          · next n => exact d n
          · rfl
        · split
          · next n => exact e n
          · rfl
        · split
          · next n => rw [f n]; cases hh : c.wide <;> rfl
          · rfl
        · split
          · next n => rw [g n]; cases hh : c.wide <;> rfl
          · rfl
  · refine ⟨_, by simp only [noLibcTypes, hm, if_true]; rfl, ⟨rfl, rfl, rfl, rfl, rfl, rfl, rfl, rfl, rfl, rfl, rfl, rfl⟩, ?_⟩
    simp only [GuessesRight, hm, if_true]
    exact ⟨fun r => r.usize.symm, fun k => ⟨rfl, rfl, rfl, rfl, rfl, rfl, rfl, rfl, k.symm, k.symm, k.symm, k.symm⟩⟩

end Zy
