import Verif.Spec.NumOrder
import Verif.Lemmas.NumOrder
import Verif.Props.Format

/-!
# Properties: comparing formatted numbers
-/

namespace Zy

open Spec

/-! ## C151: formatted numbers compare as the numbers -/

/-- **C151** for texts: two texts that begin alike (with `z`) and end with a number written in the same base, with the
same padding and the same letter case compare as these numbers do. -/
theorem C151_texts {base : Nat} (hb : 2 ≤ base) (hb' : base ≤ 16) (upper : Bool) (w n m : Nat) {v1 v2 : View}
    {z : List Byte} (h1 : ShowsTerminated v1 (z ++ padded w (numeral base upper n)))
    (h2 : ShowsTerminated v2 (z ++ padded w (numeral base upper m)))
    (hf : ∀ k, k = n ∨ k = m → (z ++ padded w (numeral base upper k)).length + 1 < 18446744073709551616) :
    strCompare v1 v2 = .ret (numbersCompared n m) := by
  unfold numbersCompared
  rcases Nat.lt_trichotomy n m with h | h | h
  · rw [if_pos (by omega)]
    exact (numeral_compare hb hb' upper h h1 h2 (hf n (.inl rfl))).1
  · subst h
    rw [if_neg (by omega), if_pos rfl]
    exact (C24_compare_equal h1 h2 (hf n (.inl rfl))).1 rfl
  · rw [if_neg (by omega), if_neg (by omega)]
    exact (numeral_compare hb hb' upper h h2 h1 (hf m (.inr rfl))).2

/-- **C151** for `ZyanStringAppendDecU`: two strings with the same text; a number is appended to each of them; then
comparing the strings compares the numbers. -/
theorem C151_decimal {P Q : Params} {t u : Str} (ht : SReach P t) (hu : SReach Q u) (hP : P.allocator.isSome)
    (hQ : Q.allocator.isSome) {z : List Byte} (hz : textOf t = z.map some) (hz' : textOf u = z.map some)
    {n m w : Nat} (hn : n < 18446744073709551616) (hm : m < 18446744073709551616) (hw : w ≤ 255)
    (hf : SFits (z.length + 300)) :
    ∃ t' u', strAppendDecU t n w = .ret (stSuccess, t') ∧ strAppendDecU u m w = .ret (stSuccess, u') ∧
      strCompare (strView t') (strView u') = .ret (numbersCompared n m) := by
  have ft : SFits ((textOf t).length + 300) := by rw [hz, List.length_map]; exact hf
  have fu : SFits ((textOf u).length + 300) := by rw [hz', List.length_map]; exact hf
  obtain ⟨t', e, x, _⟩ := C32_decimal ht hn hw ft (room_of_alloc hP)
  obtain ⟨u', e', x', _⟩ := C32_decimal hu hm hw fu (room_of_alloc hQ)
  rw [hz, ← List.map_append] at x
  rw [hz', ← List.map_append] at x'
  refine ⟨t', u', e, e', ?_⟩
  refine C151_texts (by decide) (by decide) false w n m (string_view_shows (SReach.decU ht hn hw ft e) x)
    (string_view_shows (SReach.decU hu hm hw fu e') x') ?_
  intro k hk
  have := padded_length_le (w := w) (n := k) (by rcases hk with rfl | rfl <;> assumption) 10 (by decide) false
  have := SFits.lt hf
  rw [List.length_append]
  omega

/-- **C151** for `ZyanStringAppendHexU`. -/
theorem C151_hexadecimal {P Q : Params} {t u : Str} (ht : SReach P t) (hu : SReach Q u) (hP : P.allocator.isSome)
    (hQ : Q.allocator.isSome) {z : List Byte} (hz : textOf t = z.map some) (hz' : textOf u = z.map some)
    {n m w : Nat} (upper : Bool) (hn : n < 18446744073709551616) (hm : m < 18446744073709551616) (hw : w ≤ 255)
    (hf : SFits (z.length + 300)) (hc : t.s.v.cap < 18446744073709551616) (hc' : u.s.v.cap < 18446744073709551616) :
    ∃ t' u', strAppendHexU t n w upper = .ret (stSuccess, t') ∧ strAppendHexU u m w upper = .ret (stSuccess, u') ∧
      strCompare (strView t') (strView u') = .ret (numbersCompared n m) := by
  have ft : SFits ((textOf t).length + 300) := by rw [hz, List.length_map]; exact hf
  have fu : SFits ((textOf u).length + 300) := by rw [hz', List.length_map]; exact hf
  obtain ⟨t', e, x, _⟩ := C33_hexadecimal ht upper hn hw ft hc (room_of_alloc hP)
  obtain ⟨u', e', x', _⟩ := C33_hexadecimal hu upper hm hw fu hc' (room_of_alloc hQ)
  rw [hz, ← List.map_append] at x
  rw [hz', ← List.map_append] at x'
  refine ⟨t', u', e, e', ?_⟩
  refine C151_texts (by decide) (by decide) upper w n m (string_view_shows (SReach.hexU ht hn hw ft hc e) x)
    (string_view_shows (SReach.hexU hu hm hw fu hc' e') x') ?_
  intro k hk
  have := padded_length_le (w := w) (n := k) (by rcases hk with rfl | rfl <;> assumption) 16 (by decide) upper
  have := SFits.lt hf
  rw [List.length_append]
  omega

/-- **C151**, where it ends: two negative numbers appended with `ZyanStringAppendDecS` compare the wrong way round. -/
theorem C151_negative {P Q : Params} {t u : Str} (ht : SReach P t) (hu : SReach Q u) (hP : P.allocator.isSome)
    (hQ : Q.allocator.isSome) {z : List Byte} (hz : textOf t = z.map some) (hz' : textOf u = z.map some)
    {a b : BitVec 64} (ha : a.toInt < 0) (hb : b.toInt < 0) {w : Nat} (hw : w ≤ 255) (forceSign : Bool)
    (hf : SFits (z.length + 301)) (hc : t.s.v.cap < 18446744073709551616) (hc' : u.s.v.cap < 18446744073709551616) :
    ∃ t' u', strAppendDecS t a w forceSign none = .ret (stSuccess, t') ∧
      strAppendDecS u b w forceSign none = .ret (stSuccess, u') ∧
      strCompare (strView t') (strView u') = .ret (numbersCompared b.toInt a.toInt) := by
  have ft : SFits ((textOf t).length + ([] : List Byte).length + 301) := by rw [hz, List.length_map]; exact hf
  have fu : SFits ((textOf u).length + ([] : List Byte).length + 301) := by rw [hz', List.length_map]; exact hf
  obtain ⟨t', e, x, _⟩ := C34_signed_decimal ht a forceSign (pre := none) (x := []) rfl hw ft hc (room_of_alloc hP)
  obtain ⟨u', e', x', _⟩ := C34_signed_decimal hu b forceSign (pre := none) (x := []) rfl hw fu hc' (room_of_alloc hQ)
  have sa : signPrefix a.toInt forceSign [] = [45#8] := by unfold signPrefix; rw [if_pos ha]; rfl
  have sb : signPrefix b.toInt forceSign [] = [45#8] := by unfold signPrefix; rw [if_pos hb]; rfl
  rw [hz, sa, ← List.map_append, ← List.append_assoc] at x
  rw [hz', sb, ← List.map_append, ← List.append_assoc] at x'
  refine ⟨t', u', e, e', ?_⟩
  have key := C151_texts (by decide) (by decide) false w a.toInt.natAbs b.toInt.natAbs
    (string_view_shows (SReach.decS (pre := none) (x := []) ht hw rfl ft hc e) x)
    (string_view_shows (SReach.decS (pre := none) (x := []) hu hw rfl fu hc' e') x') (by
      intro k hk
      have hk' : k < 18446744073709551616 := by
        have := BitVec.le_toInt a
        have := BitVec.le_toInt b
        rcases hk with rfl | rfl <;> omega
      have := padded_length_le (w := w) hk' 10 (by decide) false
      have := SFits.lt hf
      rw [List.length_append, List.length_append, List.length_cons, List.length_nil]
      omega)
  rw [key]
  unfold numbersCompared
  rcases Int.lt_trichotomy a.toInt b.toInt with h | h | h
  · rw [if_neg (by omega), if_neg (by omega), if_neg (by omega), if_neg (by omega)]
  · rw [if_neg (by omega), if_pos (by omega), if_neg (by omega), if_pos (by omega)]
  · rw [if_pos (by omega), if_pos (by omega)]

/-- Comparing "9" with "10", padded or not, and "x0F" with "x10". -/
example : strCompare (litView (chars "9".toList)) (litView (chars "10".toList)) = .ret (stFalse, -1) := by
  decide +kernel
example : strCompare (litView (chars "x0F".toList)) (litView (chars "x10".toList)) = .ret (numbersCompared 15 16) := by
  have e1 : chars "x0F".toList = chars "x".toList ++ padded 2 (numeral 16 true 15) := by decide +kernel
  have e2 : chars "x10".toList = chars "x".toList ++ padded 2 (numeral 16 true 16) := by decide +kernel
  rw [e1, e2]
  refine C151_texts (by decide) (by decide) true 2 15 16 (litView_shows _) (litView_shows _) ?_
  intro k hk
  rcases hk with rfl | rfl <;> decide +kernel
example : numbersCompared 15 16 = (stFalse, -1) := by decide
/-- Two strings with the same text get 99 and 100. -/
example : ∃ t' u', strAppendDecU exStr 99 0 = .ret (stSuccess, t') ∧ strAppendDecU exStr 100 0 = .ret (stSuccess, u') ∧
    strCompare (strView t') (strView u') = .ret (stFalse, -1) := by
  have hz : ∃ z : List Byte, textOf exStr = z.map some ∧ z.length ≤ 10 :=
    ⟨(textOf exStr).map (·.getD 0#8), by decide +kernel, by decide +kernel⟩
  obtain ⟨z, hz, hl⟩ := hz
  exact C151_decimal exStr_reach exStr_reach (by decide) (by decide) hz hz (by decide) (by decide) (by decide)
    (by unfold SFits; omega)
/-- -5 is below -3, but the texts say the opposite. -/
example : ∃ t' u', strAppendDecS exStr (BitVec.ofInt 64 (-5)) 0 false none = .ret (stSuccess, t') ∧
    strAppendDecS exStr (BitVec.ofInt 64 (-3)) 0 false none = .ret (stSuccess, u') ∧
    strCompare (strView t') (strView u') = .ret (stFalse, 1) := by
  have hz : ∃ z : List Byte, textOf exStr = z.map some ∧ z.length ≤ 10 :=
    ⟨(textOf exStr).map (·.getD 0#8), by decide +kernel, by decide +kernel⟩
  obtain ⟨z, hz, hl⟩ := hz
  exact C151_negative (a := BitVec.ofInt 64 (-5)) (b := BitVec.ofInt 64 (-3)) exStr_reach exStr_reach (by decide)
    (by decide) hz hz (by decide) (by decide) (by decide) false
    (by unfold SFits; omega) (by decide) (by decide)

end Zy
