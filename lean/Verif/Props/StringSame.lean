import Verif.Lemmas.StringSame
import Verif.Props.String

/-!
# Property theorems: the storage of a string is not seen (C187)

`Spec.textStep` is a text without storage.
-/

namespace Zy

open Spec

/-- **C187**: whatever its allocator, growth factor, threshold and capacity, a string returns the statuses of a text
without storage and has its characters. A string on a caller buffer must have the bytes that the history needs. -/
theorem C187_plain {P : Params} {t : Str} (h : SReach P t) {ops : List SOp}
    (hok : TextOK (if P.allocator.isSome then none else some t.s.v.cap) (textOf t) ops) :
    ∃ t', runStr t ops = .ret ((textRun (textOf t) ops).1, t') ∧ textOf t' = (textRun (textOf t) ops).2 ∧
      strGetSize t' = (textRun (textOf t) ops).2.length ∧ Terminated t' := by
  have hok : TextOK (roomOf P (sabsOf t).bytes) (sabsOf t).text ops := by
    dsimp only [roomOf, sabsOf]; exact hok
  obtain ⟨sts, t', a', h1, h2, h3, h4, _⟩ := C19_string_behaves_like_text h ops (textOK_domain hok)
  obtain ⟨e1, e2⟩ := sruns_text h2 hok
  obtain ⟨_, _, _, h5, h6⟩ := C18_terminated_partial h ops (textOK_domain hok)
  obtain ⟨rfl, rfl⟩ := Prod.mk.inj (Out.ret.inj (h1.symm.trans h5))
  dsimp only [sabsOf] at e1 e2
  exact ⟨t', by rw [h1, e1], by rw [h3, e2], by rw [h4, e2], h6⟩

/-- **C187**: two strings with the same text that differ in all parameters cannot be told apart. -/
theorem C187_two {P₁ P₂ : Params} {t₁ t₂ t₁' t₂' : Str} (h₁ : SReach P₁ t₁) (h₂ : SReach P₂ t₂)
    (he : textOf t₁ = textOf t₂) {ops : List SOp}
    (hok₁ : TextOK (if P₁.allocator.isSome then none else some t₁.s.v.cap) (textOf t₁) ops)
    (hok₂ : TextOK (if P₂.allocator.isSome then none else some t₂.s.v.cap) (textOf t₂) ops) {sts₁ sts₂ : List Status}
    (hr₁ : runStr t₁ ops = .ret (sts₁, t₁')) (hr₂ : runStr t₂ ops = .ret (sts₂, t₂')) :
    sts₁ = sts₂ ∧ textOf t₁' = textOf t₂' := by
  obtain ⟨_, a1, a2, _⟩ := C187_plain h₁ hok₁
  obtain ⟨_, b1, b2, _⟩ := C187_plain h₂ hok₂
  obtain ⟨rfl, rfl⟩ := Prod.mk.inj (Out.ret.inj (hr₁.symm.trans a1))
  obtain ⟨rfl, rfl⟩ := Prod.mk.inj (Out.ret.inj (hr₂.symm.trans b1))
  exact ⟨by rw [he], by rw [a2, b2, he]⟩

/-! ## Examples -/

/-- The string "ab" with an allocator, growth factor 3 and no shrinking. -/
def exAmpleP : Params := ⟨some 2, 3, 0, 1, false⟩

def exAmple : Str :=
  ⟨⟨{ allocator := some 2, growth := 3, shrink := 0, size := 3, cap := 33, esz := 1, hasDtor := false,
      data := some ⟨0, (chars ['a', 'b']).map some ++ [some 0#8] ++ List.replicate 30 none⟩ },
    ⟨fun _ => stSuccess, 1, 1, [.alloc 2 0 1 33]⟩⟩, false⟩

theorem exAmple_reach : SReach exAmpleP exAmple :=
  SReach.dup (P := exAmpleP) (w := exSW) (st := stSuccess) (w' := exAmple.s.w) (x := (chars ['a', 'b']).map some)
    (cap := 0) (a := 2) ⟨rfl, rfl⟩ (fun _ => failed_success) ⟨rfl, by decide, by decide, rfl, rfl⟩ (by decide)
    (by show _ < _; decide) (by cbv)

/-- A history that needs five bytes. -/
def exTextOps : List SOp := [.append [some 99#8, some 100#8], .delete 9 1, .truncate 3, .upper 0 2, .insert 0 [some 33#8]]

theorem exTextOps_ok {room : Option Nat} (h : room = none ∨ room = some 5) :
    TextOK room [some 97#8, some 98#8] exTextOps := by
  have hc : ∀ n, n ≤ 5 → ∀ cap, room = some cap → n ≤ cap := by
    intro n hn cap e
    rcases h with h | h
    · rw [h] at e; cases e
    · rw [h] at e; cases e; exact hn
  have hd : Determinate [some 97#8, some 98#8, some 99#8] 0 2 := by unfold Determinate; decide
  refine ⟨by show _ < _; decide, (fun n e => by cases e), hc _ (by decide), by show _ < _; decide, (fun n e => by cases e),
    hc _ (by decide), trivial, (fun n e => by cases e), hc _ (by decide), ⟨by decide, hd⟩, (fun n e => by cases e),
    hc _ (by decide), by show _ < _; decide, (fun n e => by cases e), hc _ (by decide), trivial⟩

example : textRun [some 97#8, some 98#8] exTextOps =
    ([stSuccess, stOutOfRange, stSuccess, stSuccess, stSuccess], [some 33#8, some 65#8, some 66#8, some 99#8]) := by decide

example {t₁' t₂' : Str} {sts₁ sts₂ : List Status} (hr₁ : runStr exAmple exTextOps = .ret (sts₁, t₁'))
    (hr₂ : runStr exFStr exTextOps = .ret (sts₂, t₂')) : textOf t₁' = textOf t₂' :=
  (C187_two exAmple_reach exFStr_reach (by decide +kernel) (exTextOps_ok (Or.inl rfl)) (exTextOps_ok (Or.inr rfl)) hr₁
    hr₂).2

end Zy
