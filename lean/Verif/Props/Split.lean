import Verif.Lemmas.Split
import Verif.Props.Replace

/-!
# Properties: splitting texts and joining pieces (C166)
-/

namespace Zy

open Spec

/-! ## C166: splitting and joining -/

/-- **C166**, splitting: the program that searches a separator again and again ends after finitely many rounds, reports
success and notes exactly the pieces between the occurrences of the separator, taken from the left and without overlaps.
(For a separator without NUL bytes that is not empty, and sizes that fit into the machine word.) -/
theorem C166_split {v vx : View} {x s : List Byte} (hv : ShowsTerminated v s) (hvx : ShowsTerminated vx x) (hx : x ≠ [])
    (hx0 : 0#8 ∉ x) (hb : s.length + x.length + 2 < 9223372036854775808) {fuel : Nat} (hn : s.length < fuel) :
    ∃ rs, splitLoop v vx fuel 0 = .ret (stSuccess, rs) ∧ Split x s (rs.map (pieceAt s)) ∧
      ∀ r ∈ rs, r.1 + r.2 ≤ s.length := by
  obtain ⟨rs, e, h1, _, h2⟩ := splitLoop_ok hvx hx hx0 fuel (pre := []) (h := s) hv hn (by simpa using hb)
  exact ⟨rs, e, h1, by simpa using h2⟩

/-- **C166**: there is only one way to split a text. -/
theorem C166_unique {x s : List Byte} {ps ps' : List (List Byte)} (h : Split x s ps) (h' : Split x s ps') : ps = ps' := by
  induction h generalizing ps' with
  | last hn =>
    cases h' with
    | last _ => rfl
    | more _ _ => exact absurd rfl (hn _ _)
  | @more a b ps hl t ih =>
    generalize hs : a ++ x ++ b = s at h'
    cases h' with
    | last hn => exact absurd hs.symm (hn _ _)
    | @more a' b' r2 hl' t' =>
      have h1 := hl _ _ hs
      have h2 := hl' _ _ hs.symm
      rw [List.append_assoc, List.append_assoc] at hs
      obtain ⟨rfl, h3⟩ := List.append_inj hs (by omega)
      have h4 := List.append_cancel_left h3
      subst h4
      rw [ih t']

/-- **C166**, joining: the program that appends pieces of a text with a separator between them reports success and
leaves exactly that text. (For strings with an allocator, and sizes that fit.) -/
theorem C166_join {P : Params} {t : Str} (h : SReach P t) (hP : P.allocator.isSome) {pre s y : List Byte}
    (ht : textOf t = pre.map some) {rs : List (Nat × Nat)} (hr : ∀ r ∈ rs, r.1 + r.2 ≤ s.length)
    (hf : SFits (pre.length + rs.length * (s.length + y.length) + 1)) :
    ∃ t', joinLoop (litView s) (litView y) t rs = .ret (stSuccess, t') ∧
      textOf t' = (pre ++ joined y (rs.map (pieceAt s))).map some ∧ Terminated t' := by
  obtain ⟨b, sl, R⟩ := h.rep
  have ha : sabsOf t = ⟨pre.map some, t.s.v.cap⟩ := by unfold sabsOf; rw [ht]
  rw [ha] at R
  obtain ⟨t', c', b', sl', e, R'⟩ := joinLoop_ok hP rs R hr hf
  exact ⟨t', e, R'.textOf, R'.terminated⟩

/-- **C166**: splitting a text and joining the pieces with the same separator copies the text; with another separator it
gives the text that the program of C149, which replaces in place, gives. -/
theorem C166_split_join {P : Params} {t : Str} (h : SReach P t) (hP : P.allocator.isSome) (ht : textOf t = [])
    {vx : View} {x y s : List Byte} (hvx : ShowsTerminated vx x) (hx : x ≠ []) (hx0 : 0#8 ∉ x)
    (hb : s.length + x.length + 2 < 9223372036854775808)
    (hf : SFits ((s.length + 1) * (s.length + y.length) + 1)) {fuel : Nat} (hn : s.length < fuel) :
    ∃ rs t' r, splitLoop (litView s) vx fuel 0 = .ret (stSuccess, rs) ∧
      joinLoop (litView s) (litView y) t rs = .ret (stSuccess, t') ∧ textOf t' = r.map some ∧
      Replaced x y s r ∧ (x = y → r = s) := by
  obtain ⟨rs, e, h1, hlen, h2⟩ := splitLoop_ok hvx hx hx0 fuel (v := litView s) (pre := []) (h := s) (litView_shows s) hn
    (by simpa using hb)
  obtain ⟨t', e', h3, _⟩ := C166_join h hP (pre := []) (s := s) (y := y) (rs := rs) (by simpa using ht)
    (by simpa using h2) (hf.mono (by
      have := Nat.mul_le_mul_right (s.length + y.length) hlen
      simp only [List.length_nil]
      omega))
  refine ⟨rs, t', joined y (rs.map (pieceAt s)), e, e', h3, split_replaced h1, ?_⟩
  rintro rfl
  exact split_joined h1

/-- **C166**: joining pieces that do not contain the separator, a single character, and splitting the text gives the
pieces back. -/
theorem C166_join_split {c : Byte} (hc : c ≠ 0#8) {ps : List (List Byte)} (hp : ps ≠ []) (hn : ∀ p ∈ ps, c ∉ p) {v : View}
    (hv : ShowsTerminated v (joined [c] ps)) (hb : (joined [c] ps).length + 3 < 9223372036854775808) {fuel : Nat}
    (hf : (joined [c] ps).length < fuel) :
    ∃ rs, splitLoop v (litView [c]) fuel 0 = .ret (stSuccess, rs) ∧ rs.map (pieceAt (joined [c] ps)) = ps := by
  obtain ⟨rs, e, h1, _⟩ := C166_split hv (litView_shows [c]) (by simp) (by simpa using hc.symm) (by simpa using hb) hf
  exact ⟨rs, e, C166_unique h1 (split_single hp hn)⟩

/-- **C166** (negation): pieces cannot be handed on as views of ranges. Appending the view of a range leaves out the last
character of every piece, and fails for an empty one. -/
theorem C166_negation_views {P : Params} {t : Str} (h : SReach P t) (hP : P.allocator.isSome) {pre s : List Byte}
    (ht : textOf t = pre.map some) {i n : Nat} (hin : i + n ≤ s.length) (hf : SFits (pre.length + s.length + 2)) :
    ∃ v, viewInsideViewEx (litView s) i n = (stSuccess, some v) ∧
      (n = 0 → strAppend t v = .ret (stInvalidArgument, t)) ∧
      (n ≠ 0 → ∃ t', strAppend t v = .ret (stSuccess, t') ∧
        textOf t' = (pre ++ (pieceAt s (i, n)).dropLast).map some ∧
        textOf t' ≠ (pre ++ pieceAt s (i, n)).map some) := by
  have hf' : (pre.length + s.length + 2) * 255 < 18446744073709551616 := hf
  have hl : (litView s).size = s.length + 1 := (litView_shows s).1
  have he : viewInsideViewEx (litView s) i n = (stSuccess, some ⟨(litView s).mem.drop i, n⟩) := by
    unfold viewInsideViewEx
    rw [add64_eq (by omega), hl, if_neg (by omega)]
  refine ⟨_, he, ?_, ?_⟩
  · rintro rfl
    rfl
  · intro hn
    obtain ⟨b, sl, R⟩ := h.rep
    have ha : sabsOf t = ⟨pre.map some, t.s.v.cap⟩ := by unfold sabsOf; rw [ht]
    rw [ha] at R
    obtain ⟨t', c', b', sl', e, R'⟩ := appendPiece_ok hP (s := s) (r := (i, n - 1)) R (by simp only; omega)
      (hf.mono (by omega))
    have hsz : t.s.v.size = pre.length + 1 := by have := R.size; simpa using this
    have hd : pieceAt s (i, n - 1) = (pieceAt s (i, n)).dropLast := by
      rw [List.dropLast_eq_take]
      simp only [pieceAt, List.take_take, List.length_take, List.length_drop]
      have hk : n - 1 = min (min n (s.length - i) - 1) n := by omega
      rw [← hk]
    refine ⟨t', by rw [append_range_view hn hin (by omega) he]; exact e, by rw [← hd]; exact R'.textOf, ?_⟩
    rw [R'.textOf]
    intro h0
    have := congrArg List.length h0
    simp only [List.length_map, List.length_append, pieceAt, List.length_take, List.length_drop] at this
    omega

/-! ## Examples -/

/-- The text `a,,bc`. -/
def exList : List Byte := chars ['a', ',', ',', 'b', 'c']

/-- An empty string. -/
def exNoText : Str :=
  ⟨⟨{ allocator := some 0, growth := 2, shrink := 4, size := 1, cap := 33, esz := 1, hasDtor := false,
      data := some ⟨0, some 0#8 :: List.replicate 32 none⟩ },
    ⟨fun _ => stSuccess, 1, 1, [.alloc 0 0 1 33]⟩⟩, false⟩

theorem exNoText_reach : SReach exSP exNoText :=
  SReach.dup (P := exSP) (w := exSW) (st := stSuccess) (w' := exNoText.s.w) (x := []) (cap := 0) (a := 0) ⟨rfl, rfl⟩
    (fun _ => failed_success) ⟨rfl, by decide, by decide, rfl, rfl⟩ (by decide) (by show _ < _; decide) (by cbv)

/-- It is split at the commas. -/
example : splitLoop (litView exList) (litView (chars [','])) 6 0 = .ret (stSuccess, [(0, 1), (2, 0), (3, 2)]) := by
  decide +kernel

example : ∃ rs, splitLoop (litView exList) (litView (chars [','])) 6 0 = .ret (stSuccess, rs) ∧
    Split (chars [',']) exList (rs.map (pieceAt exList)) ∧ ∀ r ∈ rs, r.1 + r.2 ≤ exList.length :=
  C166_split (litView_shows _) (litView_shows _) (by decide) (by decide) (by decide) (by decide)

/-- Joined with a plus sign: `a++bc`. -/
example : (joinLoop (litView exList) (litView (chars ['+'])) exNoText [(0, 1), (2, 0), (3, 2)]).bind
    (fun r => .ret (r.1, textOf r.2)) = .ret (stSuccess, (chars ['a', '+', '+', 'b', 'c']).map some) := by decide +kernel

example : ∃ rs t' r, splitLoop (litView exList) (litView (chars [','])) 6 0 = .ret (stSuccess, rs) ∧
    joinLoop (litView exList) (litView (chars ['+'])) exNoText rs = .ret (stSuccess, t') ∧ textOf t' = r.map some ∧
    Replaced (chars [',']) (chars ['+']) exList r ∧ (chars [','] = chars ['+'] → r = exList) :=
  C166_split_join exNoText_reach rfl (by decide +kernel) (litView_shows _) (by decide) (by decide) (by decide)
    (by unfold SFits; decide) (by decide)

example : ∃ t', joinLoop (litView exList) (litView (chars ['+'])) exStr [(3, 2), (0, 1)] = .ret (stSuccess, t') ∧
    textOf t' = (chars ['a', 'B', '@', 'c'] ++ joined (chars ['+']) ([(3, 2), (0, 1)].map (pieceAt exList))).map some ∧
    Terminated t' :=
  C166_join exStr_reach rfl (by decide +kernel) (by decide) (by unfold SFits; decide)

example : ∃ rs, splitLoop (litView (chars ['a', ',', 'b'])) (litView (chars [','])) 4 0 = .ret (stSuccess, rs) ∧
    rs.map (pieceAt (chars ['a', ',', 'b'])) = [chars ['a'], chars ['b']] :=
  C166_join_split (c := 44#8) (by decide) (ps := [chars ['a'], chars ['b']]) (by decide) (by decide)
    (litView_shows (chars ['a', ',', 'b'])) (by decide) (by decide)

/-- The view of `bc` is appended as `b`. -/
example : ∃ v, viewInsideViewEx (litView exList) 3 2 = (stSuccess, some v) ∧
    (2 = 0 → strAppend exStr v = .ret (stInvalidArgument, exStr)) ∧
    (2 ≠ 0 → ∃ t', strAppend exStr v = .ret (stSuccess, t') ∧
      textOf t' = (chars ['a', 'B', '@', 'c'] ++ (pieceAt exList (3, 2)).dropLast).map some ∧
      textOf t' ≠ (chars ['a', 'B', '@', 'c'] ++ pieceAt exList (3, 2)).map some) :=
  C166_negation_views exStr_reach rfl (by decide +kernel) (by decide) (by unfold SFits; decide)

end Zy
