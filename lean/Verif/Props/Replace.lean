import Verif.Lemmas.Replace
import Verif.Props.String

/-!
# Properties: replacing texts in strings, and undoing changes
-/

namespace Zy

open Spec

/-! ## C149: search and replace -/

/-- **C149**. The program that searches a text from the left, deletes it, inserts another one and goes on behind it
ends after finitely many rounds, reports success, and leaves the string in which exactly the occurrences of the text,
taken from the left and without overlaps, are replaced. (For strings with an allocator, a text without NUL bytes that
is not empty, and sizes that fit into the machine word.) -/
theorem C149_replace_all {P : Params} {t : Str} (h : SReach P t) (hP : P.allocator.isSome) {vx : View}
    {x y s : List Byte} (hs : textOf t = s.map some) (hv : ShowsTerminated vx x) (hx : x ≠ []) (hx0 : 0#8 ∉ x)
    (hxl : x.length < 4611686018427387904) (hf : SFits (s.length * (y.length + 1) + y.length + 1)) {fuel : Nat}
    (hn : s.length < fuel) :
    ∃ t' r, replaceLoop vx (litView y) fuel t 0 = .ret (stSuccess, t') ∧ Replaced x y s r ∧
      textOf t' = r.map some ∧ Terminated t' := by
  obtain ⟨b, sl, R⟩ := h.rep
  have ha : sabsOf t = ⟨([] ++ s).map some, t.s.v.cap⟩ := by unfold sabsOf; rw [hs]; rfl
  rw [ha] at R
  obtain ⟨t', c', b', sl', r, e, hR, R'⟩ := replaceLoop_ok hP (y := y) hv hx hx0 hxl fuel R hn
    (hf.mono (by simp))
  exact ⟨t', r, e, hR, R'.textOf, R'.terminated⟩

/-- **C149**: there is only one such text. -/
theorem C149_unique {x y s r r' : List Byte} (h : Replaced x y s r) (h' : Replaced x y s r') : r = r' := by
  induction h generalizing r' with
  | done hn =>
    cases h' with
    | done _ => rfl
    | more _ _ => exact absurd rfl (hn _ _)
  | @more a b r hl t ih =>
    generalize hs : a ++ x ++ b = s at h'
    cases h' with
    | done hn => exact absurd hs.symm (hn _ _)
    | @more a' b' r2 hl' t' =>
      have h1 := hl _ _ hs
      have h2 := hl' _ _ hs.symm
      rw [List.append_assoc, List.append_assoc] at hs
      obtain ⟨rfl, h3⟩ := List.append_inj hs (by omega)
      have h4 := List.append_cancel_left h3
      subst h4
      rw [ih t']

/-! ## C150: undoing changes -/

/-- **C150**: inserting a text and deleting as many characters at the same place restores the text. (In a string on a
buffer, the longer text has to fit.) -/
theorem C150_insert_delete {P : Params} {t : Str} (h : SReach P t) {i : Nat} {y : List (Cell Byte)}
    (hi : i ≤ (textOf t).length) (hy : y ≠ [])
    (hroom : P.allocator.isSome ∨ (textOf t).length + y.length + 1 ≤ t.s.v.cap)
    (hf : SFits ((textOf t).length + y.length + 1)) :
    ∃ t1 t2, strInsert t i (textView y) = .ret (stSuccess, t1) ∧
      textOf t1 = (textOf t).take i ++ y ++ (textOf t).drop i ∧
      strDelete t1 i y.length = .ret (stSuccess, t2) ∧ textOf t2 = textOf t := by
  obtain ⟨b, sl, R⟩ := h.rep
  exact insert_delete_ok (x := textOf t) (cap := t.s.v.cap) R hi hy hroom hf

/-- **C150**: appending a text and truncating the string at its old length restores the text. -/
theorem C150_append_truncate {P : Params} {t : Str} (h : SReach P t) {y : List (Cell Byte)} (hy : y ≠ [])
    (hroom : P.allocator.isSome ∨ (textOf t).length + y.length + 1 ≤ t.s.v.cap)
    (hf : SFits ((textOf t).length + y.length + 1)) :
    ∃ t1 t2, strAppend t (textView y) = .ret (stSuccess, t1) ∧ textOf t1 = textOf t ++ y ∧
      strTruncate t1 (strGetSize t) = .ret (stSuccess, t2) ∧ textOf t2 = textOf t := by
  obtain ⟨b, sl, R⟩ := h.rep
  have hg : strGetSize t = (textOf t).length := by rw [R.getSize, R.textOf]
  rw [hg]
  exact append_truncate_ok (x := textOf t) (cap := t.s.v.cap) R hy hroom hf

/-- **C150**: deleting characters and inserting them again restores the text, also in a string on a buffer. -/
theorem C150_delete_insert {P : Params} {t : Str} (h : SReach P t) {i n : Nat} (hn : n ≠ 0)
    (hi : i + n ≤ (textOf t).length) (hf : SFits ((textOf t).length + 1)) :
    ∃ t1 t2, strDelete t i n = .ret (stSuccess, t1) ∧ textOf t1 = (textOf t).take i ++ (textOf t).drop (i + n) ∧
      strInsert t1 i (textView (((textOf t).drop i).take n)) = .ret (stSuccess, t2) ∧ textOf t2 = textOf t := by
  obtain ⟨b, sl, R⟩ := h.rep
  exact delete_insert_ok (x := textOf t) (cap := t.s.v.cap) R hn hi hf

/-! ## Examples -/

/-- The hypotheses of `C149_replace_all` for the text `aB@c` and the replacement of `B@` by `xyz`. -/
example : ∃ t' r, replaceLoop (litView (chars ['B', '@'])) (litView (chars ['x', 'y', 'z'])) 5 exStr 0 =
    .ret (stSuccess, t') ∧ Replaced (chars ['B', '@']) (chars ['x', 'y', 'z']) (chars ['a', 'B', '@', 'c']) r ∧
      textOf t' = r.map some ∧ Terminated t' :=
  C149_replace_all exStr_reach rfl (by decide +kernel) (litView_shows _) (by decide) (by decide) (by decide)
    (by unfold SFits; decide) (by decide)

example : (replaceLoop (litView (chars ['B', '@'])) (litView (chars ['x', 'y', 'z'])) 5 exStr 0).bind
    (fun r => .ret (r.1, textOf r.2)) = .ret (stSuccess, (chars ['a', 'x', 'y', 'z', 'c']).map some) := by
  decide +kernel

/-- Overlapping occurrences: `aaaaa` with `aa` replaced by `a` is `aaa`. -/
example : Replaced (chars ['a', 'a']) (chars ['a']) (chars ['a', 'a', 'a', 'a', 'a']) (chars ['a', 'a', 'a']) :=
  .more (a := []) (b := chars ['a', 'a', 'a']) (r := chars ['a', 'a']) (fun _ _ _ => Nat.zero_le _)
    (.more (a := []) (b := chars ['a']) (r := chars ['a']) (fun _ _ _ => Nat.zero_le _)
      (.done fun a b e => by have := congrArg List.length e; simp [chars] at this; omega))

example : ∃ t1 t2, strInsert exStr 2 (textView [some 7#8, some 8#8]) = .ret (stSuccess, t1) ∧
    textOf t1 = (textOf exStr).take 2 ++ [some 7#8, some 8#8] ++ (textOf exStr).drop 2 ∧
    strDelete t1 2 2 = .ret (stSuccess, t2) ∧ textOf t2 = textOf exStr :=
  C150_insert_delete exStr_reach (by decide +kernel) (by decide) (.inl rfl) (by unfold SFits; decide +kernel)

example : ∃ t1 t2, strAppend exStr (textView [some 7#8]) = .ret (stSuccess, t1) ∧
    textOf t1 = textOf exStr ++ [some 7#8] ∧
    strTruncate t1 (strGetSize exStr) = .ret (stSuccess, t2) ∧ textOf t2 = textOf exStr :=
  C150_append_truncate exStr_reach (by decide) (.inl rfl) (by unfold SFits; decide +kernel)

example : ∃ t1 t2, strDelete exStr 1 2 = .ret (stSuccess, t1) ∧
    textOf t1 = (textOf exStr).take 1 ++ (textOf exStr).drop (1 + 2) ∧
    strInsert t1 1 (textView (((textOf exStr).drop 1).take 2)) = .ret (stSuccess, t2) ∧ textOf t2 = textOf exStr :=
  C150_delete_insert exStr_reach (by decide) (by decide +kernel) (by unfold SFits; decide +kernel)

end Zy
