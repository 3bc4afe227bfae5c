import Verif.Lemmas.Targets
import Verif.Props.Format

/-!
# Property theorems about what the target decides (C132, C133)
-/

namespace Zy

open Spec

/-! ## C132: number formatting does not depend on the target -/

/-- C132, decimal: for every 64-bit value, every padding and every string, in whatever state, the functions for
targets with and without 64-bit registers do the same. -/
theorem C132_decimal (t : Str) {value : Nat} (padding : Nat) (hv : value < 18446744073709551616) :
    strAppendDecUNarrow t value padding = strAppendDecU t value padding := by
  unfold strAppendDecUNarrow strAppendDecU
  split
  · rfl
  · rename_i h
    have h' := high_zero hv (by simpa using h)
    rw [Nat.mod_eq_of_lt h']
    exact decWith_same t padding (by omega)

/-- C132, hexadecimal. -/
theorem C132_hexadecimal (t : Str) {value : Nat} (padding : Nat) (upper : Bool)
    (hv : value < 18446744073709551616) :
    strAppendHexUNarrow t value padding upper = strAppendHexU t value padding upper := by
  unfold strAppendHexUNarrow strAppendHexU
  split
  · rfl
  · rename_i h
    have h' := high_zero hv (by simpa using h)
    rw [Nat.mod_eq_of_lt h']
    unfold strAppendHexU32 strAppendHexU64
    rw [if_neg h]

/-- C132, signed numbers: with every sign option and prefix. -/
theorem C132_signed (t : Str) (value : BitVec 64) (padding : Nat) (upper forceSign : Bool) (pre : Option View) :
    strAppendDecSNarrow t value padding forceSign pre = strAppendDecS t value padding forceSign pre ∧
    strAppendHexSNarrow t value padding upper forceSign pre = strAppendHexS t value padding upper forceSign pre := by
  have e1 : ∀ (t : Str) (m : BitVec 64), strAppendDecUNarrow t m.toNat padding = strAppendDecU t m.toNat padding :=
    fun t m => C132_decimal t padding m.isLt
  have e2 : ∀ (t : Str) (m : BitVec 64), strAppendHexUNarrow t m.toNat padding upper =
      strAppendHexU t m.toNat padding upper := fun t m => C132_hexadecimal t padding upper m.isLt
  unfold strAppendDecSNarrow strAppendDecS strAppendHexSNarrow strAppendHexS strAppendSigned
  simp only [e1, e2, and_self]

example : strAppendDecUNarrow exStr 4294967295 12 = strAppendDecU exStr 4294967295 12 :=
  C132_decimal exStr 12 (by decide)
example : strAppendDecUNarrow exStr 4294967296 0 = strAppendDecU exStr 4294967296 0 :=
  C132_decimal exStr 0 (by decide)
example : (strAppendDecUNarrow exStr 4294967295 12).bind (fun r => .ret (r.1, textOf r.2)) =
    .ret (stSuccess, (chars "aB@c004294967295".toList).map some) := by decide +kernel
example : (strAppendHexUNarrow exStr 0x1deadbeef 0 true).bind (fun r => .ret (r.1, textOf r.2)) =
    .ret (stSuccess, (chars "aB@c1DEADBEEF".toList).map some) := by decide +kernel
example : (strAppendDecSNarrow exStr (BitVec.ofInt 64 (-5000000000)) 0 false none).bind
    (fun r => .ret (r.1, textOf r.2)) =
    .ret (stSuccess, (chars "aB@c-5000000000".toList).map some) := by decide +kernel

/-! ## C133: what depends on the signedness of characters -/

/-- C133, searching: on every view, whatever its memory, all four searches do the same with signed and with
unsigned characters. -/
theorem C133_search (signed : Bool) (hay needle : View) (index count : Nat) :
    strLPosExOn signed false hay needle index count = strLPosEx hay needle index count ∧
    strLPosExOn signed true hay needle index count = strLPosIEx hay needle index count ∧
    strRPosExOn signed false hay needle index count = strRPosEx hay needle index count ∧
    strRPosExOn signed true hay needle index count = strRPosIEx hay needle index count := by
  unfold strLPosExOn strRPosExOn
  rw [eqExactOn_eq, eqFoldOn_eq]
  exact ⟨rfl, rfl, rfl, rfl⟩

/-- C133, case conversion: on every string, in whatever state. -/
theorem C133_case (signed : Bool) (t : Str) (index count : Nat) :
    strCaseExOn signed false t index count = strToLowerEx t index count ∧
    strCaseExOn signed true t index count = strToUpperEx t index count := by
  unfold strCaseExOn
  rw [lowerByteOn_eq, upperByteOn_eq]
  exact ⟨rfl, rfl⟩

/-- C133, comparing: the functions of `Model/String` are the ones with signed characters. -/
theorem C133_compare_signed (s1 s2 : View) :
    strCompareOn true false s1 s2 = strCompare s1 s2 ∧ strCompareOn true true s1 s2 = strCompareI s1 s2 := by
  unfold strCompareOn strCompare strCompareI strCompareWith
  rw [eqExactOn_eq, eqFoldOn_eq]
  simp [eqExact, ltFoldOn_signed]

/-- C133: whether two texts are equal, with and without regard to case, does not depend on the signedness; and
the comparison of two texts of characters below 128 does not at all. Missing: the order of other texts, which
does depend on it. -/
theorem C133_compare_partial {v1 v2 : View} {x y : List Byte} (h1 : ShowsTerminated v1 x)
    (h2 : ShowsTerminated v2 y) (hb : x.length + 1 < 18446744073709551616) (fold : Bool) :
    (strCompareOn false fold v1 v2 = .ret (stTrue, 0) ↔ strCompareOn true fold v1 v2 = .ret (stTrue, 0)) ∧
    (x.length ≠ y.length → strCompareOn false fold v1 v2 = strCompareOn true fold v1 v2) ∧
    ((∀ c ∈ x, c < 128#8) → (∀ c ∈ y, c < 128#8) →
      strCompareOn false fold v1 v2 = strCompareOn true fold v1 v2) := by
  have hne : x.length ≠ y.length → ∃ r, r ≠ 0 ∧ ∀ signed, strCompareOn signed fold v1 v2 = .ret (stFalse, r) := by
    intro hl
    rcases Nat.lt_or_gt_of_ne hl with hl | hl
    · refine ⟨-1, by decide, fun signed => ?_⟩
      unfold strCompareOn
      rw [if_pos (by rw [h1.1, h2.1]; omega)]
    · refine ⟨1, by decide, fun signed => ?_⟩
      unfold strCompareOn
      rw [if_neg (by rw [h1.1, h2.1]; omega), if_pos (by rw [h1.1, h2.1]; omega)]
  by_cases hl : x.length = y.length
  · obtain ⟨r1, rfl⟩ := h1.eq
    obtain ⟨r2, rfl⟩ := h2.eq
    have hT : stFalse ≠ stTrue := by decide
    rcases compareOn_both fold (rest := r1) (rest' := r2) hl hb with h | ⟨k, hk, hk', _, h⟩
    · rw [h, h]; exact ⟨Iff.rfl, fun _ => rfl, fun _ _ => rfl⟩
    · rw [h, h]
      refine ⟨?_, fun h => absurd hl h, ?_⟩
      · simp [hT]
      · intro hx hy
        have e1 := toInt_of_ascii x[k] (hx _ (List.getElem_mem hk))
        have e2 := toInt_of_ascii y[k] (hy _ (List.getElem_mem hk'))
        rw [ltFoldOn_signed, ltFoldOn_unsigned, e1, e2]
        simp
  · obtain ⟨r, _, hr⟩ := hne hl
    rw [hr, hr]
    exact ⟨Iff.rfl, fun _ => rfl, fun _ _ => rfl⟩

/-- C133 is false of the order: if the first difference of two texts of the same length is a character below
128 against one from 128 on, signed and unsigned characters give opposite results, in both directions and with
and without regard to case. -/
theorem C133_compare_negation {v1 v2 : View} {p u v : List Byte} {a b : Byte}
    (h1 : ShowsTerminated v1 (p ++ a :: u)) (h2 : ShowsTerminated v2 (p ++ b :: v)) (hl : u.length = v.length)
    (ha : a < 128#8) (hbb : 128#8 ≤ b) (hb : (p ++ a :: u).length + 1 < 18446744073709551616) (fold : Bool) :
    strCompareOn true fold v1 v2 = .ret (stFalse, 1) ∧ strCompareOn false fold v1 v2 = .ret (stFalse, -1) ∧
    strCompareOn true fold v2 v1 = .ret (stFalse, -1) ∧ strCompareOn false fold v2 v1 = .ret (stFalse, 1) := by
  obtain ⟨r1, rfl⟩ := h1.eq
  obtain ⟨r2, rfl⟩ := h2.eq
  obtain ⟨l1, l2, l3, l4, l5, l6⟩ := lt_halves a b ha hbb
  have hll : (p ++ a :: u).length = (p ++ b :: v).length := by simp [hl]
  have hrefl : ∀ c, (if fold = true then eqFold else eqExact) c c = true := by
    intro c; cases fold <;> simp [eqFold, eqExact]
  have hab : (if fold = true then eqFold else eqExact) a b = false ∧
      (if fold = true then eqFold else eqExact) b a = false := by
    have : a ≠ b := by
      intro h; subst h
      rw [BitVec.lt_def] at ha; rw [BitVec.le_def] at hbb; omega
    cases fold
    · simp [eqExact, this, this.symm]
    · simp [l5, l6]
  have key : ∀ (signed : Bool) (c d : Byte) (w z : List Byte) (r r' : List (Cell Byte)), w.length = z.length →
      (p ++ c :: w).length + 1 < 18446744073709551616 → (if fold = true then eqFold else eqExact) c d = false →
      strCompareOn signed fold (termView (p ++ c :: w) r) (termView (p ++ d :: z) r') =
        .ret (stFalse, if ltFoldOn signed c d = true then -1 else 1) := by
    intro signed c d w z r r' hwz hlen hcd
    have hll : (p ++ c :: w).length = (p ++ d :: z).length := by simp [hwz]
    have hp1 : p.length < (p ++ c :: w).length := by simp
    have hp2 : p.length < (p ++ d :: z).length := by simp
    have g1 : (p ++ c :: w)[p.length] = c := by simp
    have g2 : (p ++ d :: z)[p.length] = d := by simp
    rcases compareOn_same signed fold (rest := r) (rest' := r') hll hlen with ⟨_, hall⟩ | ⟨k, hk, hk', k1, k2, k3⟩
    · have := hall p.length hp1 hp2
      rw [g1, g2, hcd] at this
      exact absurd this (by decide)
    · have : k = p.length := by
        rcases Nat.lt_trichotomy k p.length with hkp | hkp | hkp
        · rw [List.getElem_append_left hkp, List.getElem_append_left hkp, hrefl] at k1
          exact absurd k1 (by decide)
        · exact hkp
        · have := k2 p.length hp1 hp2 hkp
          rw [g1, g2, hcd] at this
          exact absurd this (by decide)
      subst this
      rw [g1, g2] at k3
      exact k3
  rw [key true a b u v r1 r2 hl hb hab.1, key false a b u v r1 r2 hl hb hab.1,
    key true b a v u r2 r1 hl.symm (by rw [← hll]; exact hb) hab.2,
    key false b a v u r2 r1 hl.symm (by rw [← hll]; exact hb) hab.2, l1, l2, l3, l4]
  exact ⟨rfl, rfl, rfl, rfl⟩

/-- "zu" and "zü" in Latin-1. -/
example : strCompareOn true false (litView [122, 117]) (litView [122, 252]) = .ret (stFalse, 1) ∧
    strCompareOn false false (litView [122, 117]) (litView [122, 252]) = .ret (stFalse, -1) := by
  have h := C133_compare_negation (p := [122]) (u := []) (v := []) (a := 117) (b := 252)
    (litView_shows [122, 117]) (litView_shows [122, 252]) rfl (by decide) (by decide) (by decide) false
  exact ⟨h.1, h.2.1⟩
example : strCompareOn false true (litView (chars ['a', 'b'])) (litView (chars ['A', 'c'])) =
    strCompareOn true true (litView (chars ['a', 'b'])) (litView (chars ['A', 'c'])) :=
  (C133_compare_partial (litView_shows _) (litView_shows _) (by decide) true).2.2 (by decide) (by decide)
example : strCompareOn false true (litView (chars ['a', 'b'])) (litView (chars ['A', 'c'])) = .ret (stFalse, -1) := by
  decide +kernel
example : strLPosExOn false true (litView [228, 196, 98]) (litView [196, 66]) 0 3 = .ret (stTrue, some 1) := by
  decide +kernel
example : (strCaseExOn false true exStr 0 4).bind (fun r => .ret (r.1, textOf r.2)) =
    .ret (stSuccess, (chars "AB@C".toList).map some) := by decide +kernel

end Zy
