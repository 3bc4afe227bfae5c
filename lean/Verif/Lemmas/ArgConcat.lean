import Verif.Lemmas.ArgParseProps

/-!
# Helper lemmas: command lines written one behind the other
-/

namespace Zy

open Spec

/-- Without a token `--`, the reader of a readable command line expects anything at its end. -/
theorem modeAfter_any {q : Bool} {D : List ArgDef} (ts : List Tok) :
    ∀ (m : Mode), m ≠ .plainOnly → dashDash ∉ ts → (reading q D m ts).2 = none →
      modeAfter D m ts = .any := by
  induction ts with
  | nil =>
    intro m hm _ h
    cases m with
    | any => rfl
    | plainOnly => exact absurd rfl hm
    | value j t => simp [reading] at h
  | cons t ts ih =>
    intro m hm hd h
    have hd' : dashDash ∉ ts := fun hx => hd (List.mem_cons_of_mem _ hx)
    have ht : t ≠ dashDash := fun hx => hd (by simp [hx])
    cases m with
    | plainOnly => exact absurd rfl hm
    | value j u =>
      simp only [reading, prepend] at h
      simp only [modeAfter]
      exact ih _ (by simp) hd' h
    | any =>
      unfold modeAfter
      unfold reading at h
      rw [if_neg ht] at h ⊢
      by_cases c2 : dashDash <+: t
      · rw [if_pos c2] at h ⊢
        cases hl : lookup D t with
        | none => rw [hl] at h; simp at h
        | some p =>
          obtain ⟨d, j⟩ := p
          rw [hl] at h
          simp only at h ⊢
          by_cases c3 : d.boolean = true
          · rw [if_pos c3] at h ⊢
            exact ih _ (by simp) hd' h
          · rw [if_neg c3] at h ⊢
            exact ih _ (by simp) hd' h
      · rw [if_neg c2] at h ⊢
        by_cases c3 : dash <+: t ∧ t ≠ dash
        · rw [if_pos c3] at h ⊢
          rcases hcl : cluster D t.tail with ⟨is, e⟩
          rw [hcl] at h
          cases e with
          | flags => exact ih _ (by simp) hd' h
          | attached => exact ih _ (by simp) hd' h
          | wants j => exact ih _ (by simp) hd' h
          | unknown => simp at h
        · rw [if_neg c3] at h ⊢
          exact ih _ (by simp) hd' h

/-- A readable command line within its limits is accepted. -/
theorem verdict_ok_intro {q : Bool} {cfg : ArgConfig} {is : List Item}
    (h1 : reading q cfg.args .any cfg.argv.tail = (is, none))
    (h2 : cfg.minUnnamed ≤ (plains is).length) (h3 : (plains is).length ≤ cfg.maxUnnamed)
    (h4 : firstMissing cfg.args is = none) (h5 : ∀ d ∈ cfg.args, legalName d.name) :
    verdict q cfg = .ok is := by
  unfold verdict
  rw [h1]
  rw [if_neg]
  · simp only [List.getElem?_eq_none h3]
    rw [if_neg (by omega), h4]
  · rintro (h | ⟨d, hd, h⟩)
    · omega
    · exact h (h5 d hd)

/-- The verdict on two command lines written one behind the other. -/
theorem verdict_concat {q : Bool} {A B C : ArgConfig} {xs ys : List Item}
    (hA : verdict q A = .ok xs) (hB : verdict q B = .ok ys) (hBA : B.args = A.args)
    (hCA : C.args = A.args) (ht : C.argv.tail = A.argv.tail ++ B.argv.tail)
    (hd : dashDash ∉ A.argv.tail) (hmin : C.minUnnamed ≤ A.minUnnamed + B.minUnnamed)
    (hmax : A.maxUnnamed + B.maxUnnamed ≤ C.maxUnnamed) : verdict q C = .ok (xs ++ ys) := by
  obtain ⟨a1, a2, a3, a4, a5, _, a7⟩ := verdict_ok hA
  obtain ⟨b1, b2, b3, b4, b5, _, _⟩ := verdict_ok hB
  have hm := modeAfter_any A.argv.tail .any (by simp) hd a2
  apply verdict_ok_intro
  · rw [hCA, ht, reading_append A.argv.tail .any (by rw [hm]; simp) a2, hm, ← a1, ← hBA, prepend,
      ← b1, b2]
  · rw [plains_append, List.length_append]; omega
  · rw [plains_append, List.length_append]; omega
  · apply firstMissing_eq_none
    intro j d hj hr
    rw [hCA] at hj
    obtain ⟨v, hv⟩ := firstMissing_none a5 hj hr
    exact ⟨v, List.mem_append_left _ hv⟩
  · rw [hCA]; exact a7

/-- Wider limits do not change the verdict on an accepted command line. -/
theorem verdict_wider {q : Bool} {A C : ArgConfig} {xs : List Item} (hA : verdict q A = .ok xs)
    (hCA : C.args = A.args) (ht : C.argv.tail = A.argv.tail) (hmin : C.minUnnamed ≤ A.minUnnamed)
    (hmax : A.maxUnnamed ≤ C.maxUnnamed) : verdict q C = .ok xs := by
  obtain ⟨a1, a2, a3, a4, a5, _, a7⟩ := verdict_ok hA
  apply verdict_ok_intro
  · rw [hCA, ht, a1, ← a2]
  · omega
  · omega
  · rw [hCA]; exact a5
  · rw [hCA]; exact a7

end Zy
