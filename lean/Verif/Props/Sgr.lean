import Verif.Spec.Sgr

/-!
# Property theorems: colours of a terminal
-/

namespace Zy

open Term

/-- C126: each macro changes the colours as its name says, prints nothing and leaves the terminal ready for
text. -/
theorem C126_macro (w : Wish) (a : Attr) (screen : List (BitVec 8 × Attr)) :
    Terminal.show ⟨.ground, a, screen⟩ w.macro = ⟨.ground, w.on a, screen⟩ := by
  rcases w with _ | (_ | ⟨_ | _, _ | _ | _ | _ | _ | _ | _ | _⟩) | (_ | ⟨_ | _, _ | _ | _ | _ | _ | _ | _ | _⟩) <;> rfl

private theorem show_append (t : Terminal) (x y : List (BitVec 8)) : t.show (x ++ y) = (t.show x).show y :=
  List.foldl_append ..

private theorem show_text (a : Attr) (x : List (BitVec 8)) (hx : ∀ b ∈ x, b.toNat ≠ 27)
    (screen : List (BitVec 8 × Attr)) :
    Terminal.show ⟨.ground, a, screen⟩ x = ⟨.ground, a, screen ++ x.map fun b => (b, a)⟩ := by
  induction x generalizing screen with
  | nil => simp [Terminal.show]
  | cons b x ih =>
    have hb : b.toNat ≠ 27 := hx b (by simp)
    have : Terminal.show ⟨.ground, a, screen⟩ (b :: x) = Terminal.show ⟨.ground, a, screen ++ [(b, a)]⟩ x := by
      show Terminal.show (Terminal.receive ⟨.ground, a, screen⟩ b) x = _
      simp only [Terminal.receive, if_neg hb]
    rw [this, ih (fun c hc => hx c (by simp [hc]))]
    simp

/-- C126: however the macros are mixed with text, exactly the text appears, each character in the colours that
were selected before it. -/
theorem C126_output (ps : List Piece) (hps : ∀ p ∈ ps, p.Clean) (a : Attr) (screen : List (BitVec 8 × Attr)) :
    Terminal.show ⟨.ground, a, screen⟩ (ps.flatMap Piece.bytes) =
      ⟨.ground, coloursAfter a ps, screen ++ painted a ps⟩ := by
  induction ps generalizing a screen with
  | nil => simp [Terminal.show, coloursAfter, painted]
  | cons p ps ih =>
    have ih' := fun a screen => ih (fun q hq => hps q (by simp [hq])) a screen
    rw [List.flatMap_cons, show_append]
    cases p with
    | wish w => rw [show (Piece.wish w).bytes = w.macro from rfl, C126_macro, ih']; rfl
    | text x =>
      rw [show (Piece.text x).bytes = x from rfl, show_text a x (hps (.text x) (by simp)), ih']
      simp [coloursAfter, painted]

/-- C126: the macros are different texts without null characters, so that they can be parts of C strings. -/
theorem C126_texts :
    (∀ w w' : Wish, w.macro = w'.macro → w = w') ∧ ∀ w : Wish, ∀ b ∈ w.macro, b ≠ 0 := by
  constructor
  · intro w w' h
    have e : ∀ a, w.on a = w'.on a := by
      intro a
      have h1 := C126_macro w a []
      have h2 := C126_macro w' a []
      rw [h, h2] at h1
      injection h1 with _ h1 _
      exact h1.symm
    have e1 := e .plain
    have e2 := e ⟨.colour false .red, .colour false .red⟩
    clear h e
    cases w <;> cases w' <;>
      simp only [Wish.on, Attr.plain, Attr.mk.injEq, true_and, and_true, reduceCtorEq, and_false, false_and] at e1 e2
    all_goals first
      | rfl
      | (subst e1; rfl)
      | (rw [← e1.1] at e2; simp at e2)
      | (rw [e1.1] at e2; simp at e2)
  · intro w
    rcases w with _ | (_ | ⟨_ | _, _ | _ | _ | _ | _ | _ | _ | _⟩) | (_ | ⟨_ | _, _ | _ | _ | _ | _ | _ | _ | _⟩) <;>
      decide

/-- A red word on the default background between two plain ones. -/
example : (Terminal.show ⟨.ground, .plain, []⟩
      (literalBytes "a" ++ sgrFgBrightRed ++ literalBytes "b" ++ sgrReset ++ literalBytes "c")).screen =
    [(97#8, .plain), (98#8, ⟨.colour true .red, .default⟩), (99#8, .plain)] := by decide +kernel

example : ∀ p ∈ [Piece.text (literalBytes "x"), .wish (.bg (.colour false .blue)), .text (literalBytes "y")], p.Clean := by
  simp only [List.mem_cons, List.not_mem_nil, or_false, forall_eq_or_imp, forall_eq]
  refine ⟨?_, trivial, ?_⟩ <;> (unfold Piece.Clean; decide +kernel)

end Zy
