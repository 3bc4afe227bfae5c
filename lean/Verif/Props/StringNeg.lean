import Verif.Props.String
import Verif.Props.VectorNeg
import Verif.Lemmas.StringNeg

/-!
# Where strings violate their properties: every case, not one witness

The theorems `C18_negation` ... `C78_negation` of `Props/String` show one run on which the code disagrees
with the property. The theorems here describe what the code does on every input on which the positive
theorem was not able to say anything.
-/

namespace Zy

open Spec

/-! ## C18 and C20: resizing to `2^64 - 1` -/

/-- C18 fails for every string: resizing to `2^64 - 1` characters writes outside of the storage (the size
including the terminator wraps to 0). The storage is assumed to be no larger than the address space. -/
theorem C18_negation_all {P : Params} {t : Str} (h : SReach P t)
    (hmem : (storage t).length < 18446744073709551616) :
    strResize t 18446744073709551615 = .ub .oob := by
  obtain ⟨b, sl, R⟩ := h.rep
  have hst : storage t = b.cells := by unfold storage; rw [R.rep.data]
  obtain ⟨s', b', e, hs0, hd, hl⟩ := vecResize_zero R
  rw [hst] at hmem
  have hadd : add64 18446744073709551615 1 = 0 := by decide
  unfold strResize
  rw [hadd, e, Out.ret_bind']
  have hsub : sub64 0 1 = 18446744073709551615 := by decide
  simp only [checkTerminate, failed_success, nullTerminate, hs0, hsub, strPoke, hd, withData,
    Bool.false_eq_true, if_false]
  rw [if_neg (by omega)]
  rfl

/-- C20 fails in the same way for every string on a caller buffer. -/
theorem C20_negation_all {P : Params} {t : Str} (h : SReach P t) (_hf : P.allocator = none)
    (hmem : (storage t).length < 18446744073709551616) :
    strResize t 18446744073709551615 = .ub .oob := C18_negation_all h hmem

example : strResize exStr 18446744073709551615 = .ub .oob :=
  C18_negation_all exStr_reach (by decide +kernel)
example : strResize exFStr 18446744073709551615 = .ub .oob :=
  C20_negation_all exFStr_reach rfl (by decide +kernel)

/-! ## C23: what the case-insensitive searches do -/

/-- Equality of characters up to bit 5: the relation that the case-insensitive functions really use. -/
def SameUpToBit5 (a b : Byte) : Prop := a = b ∨ a ^^^ 32#8 = b

/-- C23, exactly: for all texts the searches report the leftmost (rightmost) occurrence up to bit 5 of each
character. -/
theorem C23_search_exact {v1 v2 : View} {h x : List Byte} (h1 : ShowsTerminated v1 h)
    (h2 : ShowsTerminated v2 x) (hx : x ≠ []) :
    (∀ i n, 0#8 ∉ x → i + n ≤ h.length → h.length + x.length + 2 < 9223372036854775808 →
      ∃ st p, strLPosIEx v1 v2 i n = .ret (st, some p) ∧
        ((st = stTrue ∧ 0 ≤ p ∧ Leftmost SameUpToBit5 h x i (i + n) p.toNat) ∨
         (st = stFalse ∧ p = -1 ∧ Absent SameUpToBit5 h x i (i + n)))) ∧
    (∀ i n, i ≤ h.length → n ≤ i →
      ∃ st p, strRPosIEx v1 v2 i n = .ret (st, some p) ∧
        ((st = stTrue ∧ 0 ≤ p ∧ Rightmost SameUpToBit5 h x (i - n) i p.toNat) ∨
         (st = stFalse ∧ p = -1 ∧ Absent SameUpToBit5 h x (i - n) i))) := by
  have hr : ∀ a ∈ h, ∀ b ∈ x, (rel eqFold a b ↔ SameUpToBit5 a b) := fun a _ b _ => rel_fold a b
  constructor
  · intro i n hx0 hin hb
    obtain ⟨r1, rfl⟩ := h1.eq
    obtain ⟨r2, rfl⟩ := h2.eq
    obtain ⟨st, p, e, hc⟩ := lpos_ok eqFold (rest := r1) (rest' := r2) hx
      (fun c hc h0 => hx0 (h0 ▸ hc)) hin hb
    refine ⟨st, p, e, ?_⟩
    rcases hc with ⟨h1, h2, h3⟩ | ⟨h1, h2, h3⟩
    · exact Or.inl ⟨h1, h2, Leftmost.congr hr h3⟩
    · exact Or.inr ⟨h1, h2, Absent.congr hr h3⟩
  · intro i n hi hn
    obtain ⟨r1, rfl⟩ := h1.shows.eq
    obtain ⟨r2, rfl⟩ := h2.shows.eq
    obtain ⟨st, p, e, hc⟩ := rpos_ok eqFold (rest := r1) (rest' := r2) hx hi hn
    refine ⟨st, p, e, ?_⟩
    rcases hc with ⟨h1, h2, h3⟩ | ⟨h1, h2, h3⟩
    · exact Or.inl ⟨h1, h2, Rightmost.congr hr h3⟩
    · exact Or.inr ⟨h1, h2, Absent.congr hr h3⟩

/-- C23 fails for every pair of texts where the needle does not occur up to letter case, but does up to
bit 5: both searches report that it was found. -/
theorem C23_negation_all {v1 v2 : View} {h x : List Byte} (h1 : ShowsTerminated v1 h)
    (h2 : ShowsTerminated v2 x) (hx : x ≠ []) (hx0 : 0#8 ∉ x)
    (hb : h.length + x.length + 2 < 9223372036854775808)
    (_habs : Absent SameLetter h x 0 h.length) {q : Nat} (ho : OccursAt SameUpToBit5 h x q) :
    (∃ p, strLPosI v1 v2 = .ret (stTrue, some p)) ∧ ∃ p, strRPosI v1 v2 = .ret (stTrue, some p) := by
  have hsub : sub64 v1.size 1 = h.length := by
    rw [h1.1, sub64_eq (by omega) (by omega)]; omega
  obtain ⟨hl, hr⟩ := C23_search_exact h1 h2 hx
  constructor
  · obtain ⟨st, p, e, hc⟩ := hl 0 h.length hx0 (by omega) hb
    unfold strLPosI
    rw [hsub]
    rcases hc with ⟨rfl, _⟩ | ⟨_, _, ha⟩
    · exact ⟨p, e⟩
    · exact absurd ho (ha q (by omega) (by have := ho.1; omega))
  · obtain ⟨st, p, e, hc⟩ := hr h.length h.length (Nat.le_refl _) (Nat.le_refl _)
    unfold strRPosI
    rw [hsub]
    rcases hc with ⟨rfl, _⟩ | ⟨_, _, ha⟩
    · exact ⟨p, e⟩
    · exact absurd ho (ha q (by omega) (by have := ho.1; omega))

instance (a b : Byte) : Decidable (SameUpToBit5 a b) := by unfold SameUpToBit5; infer_instance

example : (∃ p, strLPosI (litView (chars ['x', '[', '1'])) (litView (chars ['{'])) = .ret (stTrue, some p)) ∧
    ∃ p, strRPosI (litView (chars ['x', '[', '1'])) (litView (chars ['{'])) = .ret (stTrue, some p) := by
  refine C23_negation_all (litView_shows _) (litView_shows _) (by decide) (by decide) (by decide) ?_
    (q := 1) ⟨by decide, ?_⟩
  · intro q _ hq ho
    have h3 : q < 3 := by simp [chars] at hq; omega
    have h3' : q = 0 ∨ q = 1 ∨ q = 2 := by omega
    rcases h3' with rfl | rfl | rfl <;> exact absurd (ho.2 0 (by decide) (by decide)) (by decide)
  · intro k hk hp
    have : k = 0 := by simp [chars] at hk; omega
    subst this
    show SameUpToBit5 91#8 123#8
    decide

/-! ## C25 and C26: comparing -/

/-- C25 fails for every pair of texts of the same length whose first differing characters differ in bit 5
only: the result is 1 in both directions. -/
theorem C25_negation_all {v1 v2 : View} {p u v : List Byte} {a b : Byte}
    (h1 : ShowsTerminated v1 (p ++ a :: u)) (h2 : ShowsTerminated v2 (p ++ b :: v))
    (hl : u.length = v.length) (hne : a ≠ b) (hbit : a ||| 32#8 = b ||| 32#8)
    (hb : p.length + u.length + 2 < 18446744073709551616) :
    strCompare v1 v2 = .ret (stFalse, 1) ∧ strCompare v2 v1 = .ret (stFalse, 1) := by
  have key : ∀ {v1 v2 : View} {u v : List Byte} {a b : Byte}, ShowsTerminated v1 (p ++ a :: u) →
      ShowsTerminated v2 (p ++ b :: v) → u.length = v.length → a ≠ b → a ||| 32#8 = b ||| 32#8 →
      p.length + u.length + 2 < 18446744073709551616 → strCompare v1 v2 = .ret (stFalse, 1) := by
    intro v1 v2 u v a b h1 h2 hl hne hbit hb
    obtain ⟨r1, rfl⟩ := h1.eq
    obtain ⟨r2, rfl⟩ := h2.eq
    have hlen : (p ++ a :: u).length = (p ++ b :: v).length := by simp [hl]
    rcases compare_same eqExact (by simp [eqExact]) (rest := r1) (rest' := r2) hlen
        (by simp; omega) with ⟨_, hall⟩ | ⟨k, hk, hk', hd, hbefore, e⟩
    · have := hall p.length (by simp) (by simp)
      simp [eqExact] at this
      exact absurd this hne
    · have hkp : k = p.length := by
        rcases Nat.lt_trichotomy k p.length with hlt | heq | hgt
        · exfalso
          simp only [List.getElem_append_left hlt] at hd
          simp [eqExact] at hd
        · exact heq
        · exfalso
          have := hbefore p.length (by simp) (by simp) hgt
          simp [eqExact] at this
          exact hne this
      subst hkp
      have : ¬ ((a ||| 32#8).toInt < (b ||| 32#8).toInt) := by rw [hbit]; omega
      have ea : (p ++ a :: u)[p.length] = a := by simp
      have eb : (p ++ b :: v)[p.length] = b := by simp
      unfold strCompare
      rw [e, ea, eb, if_neg this]
  exact ⟨key h1 h2 hl hne hbit hb, key h2 h1 hl.symm hne.symm hbit.symm (by omega)⟩

/-- C25: the result is not the lexicographic order for any pair of texts of different lengths whose first
differing character is lower in the longer text. -/
theorem C25_length_first {v1 v2 : View} {p u v : List Byte} {a b : Byte}
    (h1 : ShowsTerminated v1 (p ++ a :: u)) (h2 : ShowsTerminated v2 (p ++ b :: v))
    (hl : u.length < v.length) (_hlt : b.toInt < a.toInt) :
    strCompare v1 v2 = .ret (stFalse, -1) ∧ strCompare v2 v1 = .ret (stFalse, 1) := by
  obtain ⟨r1, rfl⟩ := h1.eq
  obtain ⟨r2, rfl⟩ := h2.eq
  exact ⟨compare_shorter _ (by simp; omega), compare_longer _ (by simp; omega)⟩

/-- C26, exactly: the case-insensitive comparison reports equality exactly for texts of the same length
whose characters agree up to bit 5. -/
theorem C26_compare_exact {v1 v2 : View} {x y : List Byte} (h1 : ShowsTerminated v1 x)
    (h2 : ShowsTerminated v2 y) (hb : x.length + 1 < 18446744073709551616) :
    strCompareI v1 v2 = .ret (stTrue, 0) ↔
      x.length = y.length ∧ ∀ j (hj : j < x.length) (hj' : j < y.length), SameUpToBit5 x[j] y[j] := by
  obtain ⟨r1, rfl⟩ := h1.eq
  obtain ⟨r2, rfl⟩ := h2.eq
  have hT : stTrue ≠ stFalse := by decide
  unfold strCompareI
  rcases Nat.lt_trichotomy x.length y.length with hl | hl | hl
  · rw [compare_shorter _ hl]
    simp [hT.symm]; omega
  · rcases compare_same eqFold (by simp [eqFold]) (rest := r1) (rest' := r2) hl hb with ⟨e, hall⟩ |
      ⟨k, hk, hk', hne, hbefore, e⟩
    · rw [e]
      exact ⟨fun _ => ⟨hl, fun j hj hj' => (rel_fold _ _).1 (hall j hj hj')⟩, fun _ => rfl⟩
    · rw [e]
      constructor
      · intro h
        simp [hT.symm] at h
      · intro ⟨_, h⟩
        have := (rel_fold _ _).2 (h k hk hk')
        unfold rel at this
        rw [hne] at this
        exact absurd this (by decide)
  · rw [compare_longer _ hl]
    simp [hT.symm]; omega

/-- C26 fails for every pair of texts that agree up to bit 5 but not up to letter case. -/
theorem C26_negation_all {v1 v2 : View} {x y : List Byte} (h1 : ShowsTerminated v1 x)
    (h2 : ShowsTerminated v2 y) (hb : x.length + 1 < 18446744073709551616)
    (hl : x.length = y.length)
    (hbit : ∀ j (hj : j < x.length) (hj' : j < y.length), SameUpToBit5 x[j] y[j])
    (_hdiff : x.map lowerChar ≠ y.map lowerChar) : strCompareI v1 v2 = .ret (stTrue, 0) :=
  (C26_compare_exact h1 h2 hb).2 ⟨hl, hbit⟩

example : strCompare (litView (chars ['x', 'A', '1'])) (litView (chars ['x', 'a', '2'])) =
      .ret (stFalse, 1) ∧
    strCompare (litView (chars ['x', 'a', '2'])) (litView (chars ['x', 'A', '1'])) = .ret (stFalse, 1) :=
  C25_negation_all (p := chars ['x']) (u := chars ['1']) (v := chars ['2']) (a := 65#8) (b := 97#8)
    (litView_shows _) (litView_shows _) rfl (by decide) (by decide) (by decide)
example : strCompare (litView (chars ['b'])) (litView (chars ['a', 'b'])) = .ret (stFalse, -1) ∧
    strCompare (litView (chars ['a', 'b'])) (litView (chars ['b'])) = .ret (stFalse, 1) :=
  C25_length_first (p := []) (u := []) (v := chars ['b']) (a := 98#8) (b := 97#8)
    (litView_shows _) (litView_shows _) (by decide) (by decide)
example : strCompareI (litView (chars ['a', '['])) (litView (chars ['A', '{'])) = .ret (stTrue, 0) := by
  refine C26_negation_all (litView_shows _) (litView_shows _) (by decide) (by decide) ?_ (by decide)
  decide +kernel

/-! ## C30: truncation at the length -/

/-- C30 fails for every string at its length: the call is answered with `INVALID_ARGUMENT`. (It changes
nothing.) -/
theorem C30_negation_all {P : Params} {t : Str} (h : SReach P t) :
    strTruncate t (textOf t).length = .ret (stInvalidArgument, t) := by
  obtain ⟨b, sl, R⟩ := h.rep
  have hsz : t.s.v.size = (textOf t).length + 1 := by rw [R.textOf]; exact R.size
  have hsmall := R.small
  rw [← R.textOf] at hsmall
  have h0 : sub64 (sub64 t.s.v.size (textOf t).length) 1 = 0 := by
    have h1 : sub64 ((textOf t).length + 1) (textOf t).length = 1 := by
      rw [sub64_eq (by omega) (by omega)]; omega
    rw [hsz, h1]; rfl
  unfold strTruncate
  rw [if_neg (by omega), h0]
  unfold vecDeleteRange
  rw [if_pos rfl, Out.ret_bind']
  unfold checkTerminate
  rw [if_pos (show failed stInvalidArgument = true by decide)]

example : (textOf exStr).length = 4 ∧
    strTruncate exStr (textOf exStr).length = .ret (stInvalidArgument, exStr) :=
  ⟨by decide +kernel, C30_negation_all exStr_reach⟩

/-! ## C31: reads behind views -/

/-- C31 fails for every comparison of equal texts (of any length, with or without regard to case): the
bytes behind the two views decide. If they differ, the equal texts are reported as different; if the memory
ends with the view, the call reads outside of it. -/
theorem C31_compare_negation_all (x : List Byte) (hb : x.length + 1 < 18446744073709551616) :
    (∀ v1 v2 : View, Shows v1 x → Shows v2 x → ∀ (c1 c2 : Byte) (r1 r2 : List (Cell Byte)),
      v1.mem = x.map some ++ some c1 :: r1 → v2.mem = x.map some ++ some c2 :: r2 → c1 ≠ c2 →
      (∃ d, d ≠ 0 ∧ strCompare v1 v2 = .ret (stFalse, d)) ∧
      (∃ d, d ≠ 0 ∧ strCompareI v1 v2 = .ret (stFalse, d))) ∧
    (∀ v1 v2 : View, Shows v1 x → Shows v2 x → v1.mem = x.map some →
      strCompare v1 v2 = .ub .oob ∧ strCompareI v1 v2 = .ub .oob) := by
  have loop : ∀ (eq : Byte → Byte → Bool), (∀ a, eq a a = true) → ∀ r1 r2 : List (Cell Byte),
      cmpLoop eq (openView x r1) (openView x r2) (x.length + 1 + 1) 0 = .ret x.length := by
    intro eq hrefl r1 r2
    obtain ⟨k, hk, _, hk2, _, hk4⟩ := cmpLoop_ok eq (rest := r1) (rest' := r2) (x := x) rfl hb x.length 0
      (x.length + 1 + 1) (by omega) (by omega)
    have : k = x.length := by
      rcases Nat.lt_or_ge k x.length with hlt | hge
      · have := hk4 hlt hlt
        rw [hrefl] at this
        exact absurd this (by decide)
      · omega
    rw [hk, this]
  have hview : ∀ {v : View} {r : List (Cell Byte)}, Shows v x → v.mem = x.map some ++ r →
      v = openView x r := by
    intro v r hv hm
    obtain ⟨mem, size⟩ := v
    have h1 : size = x.length + 1 := hv.1
    have h2 : mem = x.map some ++ r := hm
    subst h1 h2
    rfl
  constructor
  · intro v1 v2 h1 h2 c1 c2 r1 r2 hm1 hm2 hc
    have e1 := hview h1 hm1
    have e2 := hview h2 hm2
    subst e1 e2
    have key : ∀ (eq : Byte → Byte → Bool), (∀ a, eq a a = true) → ∃ d, d ≠ 0 ∧
        strCompareWith eq (openView x (some c1 :: r1)) (openView x (some c2 :: r2)) = .ret (stFalse, d) := by
      intro eq hrefl
      have hs1 : (openView x (some c1 :: r1)).size = x.length + 1 := rfl
      have hs2 : (openView x (some c2 :: r2)).size = x.length + 1 := rfl
      have hr1 : rdChar (openView x (some c1 :: r1)).mem (x.length : Int) = .ret c1 := rdChar_end
      have hr2 : rdChar (openView x (some c2 :: r2)).mem (x.length : Int) = .ret c2 := rdChar_end
      unfold strCompareWith
      rw [hs1, hs2, if_neg (by omega), if_neg (by omega), loop eq hrefl, Out.ret_bind', hr1, Out.ret_bind',
        hr2, Out.ret_bind', if_neg hc]
      split
      · exact ⟨_, by decide, rfl⟩
      · exact ⟨_, by decide, rfl⟩
    exact ⟨key eqExact (by simp [eqExact]), key eqFold (by simp [eqFold])⟩
  · intro v1 v2 h1 h2 hm1
    have e1 := hview (r := []) h1 (by rw [hm1]; simp)
    obtain ⟨r2, e2⟩ := h2.eq
    subst e1 e2
    have key : ∀ (eq : Byte → Byte → Bool), (∀ a, eq a a = true) →
        strCompareWith eq (openView x []) (openView x r2) = .ub .oob := by
      intro eq hrefl
      have hs1 : (openView x []).size = x.length + 1 := rfl
      have hs2 : (openView x r2).size = x.length + 1 := rfl
      have hr1 : rdChar (openView x []).mem (x.length : Int) = .ub .oob := by
        unfold rdChar openView
        rw [if_neg (by omega), Int.toNat_natCast]
        simp
      unfold strCompareWith
      rw [hs1, hs2, if_neg (by omega), if_neg (by omega), loop eq hrefl, Out.ret_bind', hr1]
      rfl
    exact ⟨key eqExact (by simp [eqExact]), key eqFold (by simp [eqFold])⟩

/-- C31 fails for the left search of every needle view that is followed by a character not occurring in
the searched text: it is never found, whether or not its text occurs. -/
theorem C31_left_search_negation_all {v1 v2 : View} {h x : List Byte} {c : Byte} {r : List (Cell Byte)}
    (h1 : ShowsTerminated v1 h) (h2 : Shows v2 x) (hm : v2.mem = x.map some ++ some c :: r) (hx : x ≠ [])
    (hx0 : 0#8 ∉ x) (hc0 : c ≠ 0#8) (hch : c ∉ h) {i n : Nat} (hin : i + n ≤ h.length)
    (hb : h.length + x.length + 2 < 9223372036854775808) :
    strLPosEx v1 v2 i n = .ret (stFalse, some (-1)) := by
  obtain ⟨r1, rfl⟩ := h1.eq
  have e2 : v2 = openView x (some c :: r) := by
    obtain ⟨mem, size⟩ := v2
    have hs : size = x.length + 1 := h2.1
    have hm2 : mem = x.map some ++ some c :: r := hm
    subst hs hm2
    rfl
  subst e2
  have hsz : (termView h r1).size = h.length + 1 := rfl
  unfold strLPosEx strLPosExWith
  rw [hsz, add64_eq (by omega), if_neg (by omega)]
  split
  · rfl
  · rw [toI64_nat (by omega), lposOuter_unterminated hx (fun c hc h0 => hx0 (h0 ▸ hc)) hin hc0 hch hb
      (h.length - i) i (h.length + 1 + 2) (by omega) (by omega)]
    rfl

example : (∃ d, d ≠ 0 ∧ strCompare ⟨(chars ['a', 'b', 'X']).map some, 3⟩ (litView (chars ['a', 'b'])) =
    .ret (stFalse, d)) :=
  ((C31_compare_negation_all (chars ['a', 'b']) (by decide)).1 _ _ ⟨rfl, by decide⟩
    (litView_shows _).shows 88#8 0#8 [] [] rfl rfl (by decide)).1
example : strCompare ⟨(chars ['a', 'b']).map some, 3⟩ (litView (chars ['a', 'b'])) = .ub .oob :=
  ((C31_compare_negation_all (chars ['a', 'b']) (by decide)).2 _ _ ⟨rfl, by decide⟩
    (litView_shows _).shows rfl).1
example : strLPosEx (litView (chars ['z', 'a', 'b', 'c'])) ⟨(chars ['a', 'b', 'X']).map some, 3⟩ 0 4 =
    .ret (stFalse, some (-1)) ∧ OccursAt (· = ·) (chars ['z', 'a', 'b', 'c']) (chars ['a', 'b']) 1 :=
  ⟨C31_left_search_negation_all (x := chars ['a', 'b']) (c := 88#8) (r := []) (litView_shows _)
    ⟨rfl, by decide⟩ rfl (by decide) (by decide) (by decide) (by decide) (by decide) (by decide),
    by decide, by decide⟩

/-! ## C76: appending a string to itself -/

/-- C76 fails for every non-empty dynamic string for which the append reallocates, because the storage is
too small or because it is so large that memory is released: use after free. Together with
`C76_append_self_partial` this covers all dynamic strings whose sizes do not wrap. -/
theorem C76_negation_all {P : Params} {t : Str} (h : SReach P t) (hdyn : P.allocator.isSome)
    {b : Block Byte} (hb : t.s.v.data = some b) (hne : textOf t ≠ [])
    (hre : t.s.v.cap < (textOf t).length + (textOf t).length + 1 ∨
      (P.thr ≠ 0 ∧ ((textOf t).length + (textOf t).length + 1) * P.thr < t.s.v.cap))
    (hsmall : SFits ((textOf t).length + (textOf t).length + 1)) :
    strAppendSrc t (.self b.id 0) t.s.v.size = .ub .uaf := by
  obtain ⟨b', sl, R⟩ := h.rep
  obtain ⟨al, hal⟩ := Option.isSome_iff_exists.1 hdyn
  have hbb : b' = b := by
    have := R.rep.data
    rw [hb] at this
    injection this with this
    exact this.symm
  subst hbb
  have hsz : t.s.v.size = (textOf t).length + 1 := by rw [R.textOf]; exact R.size
  have hl : 0 < (textOf t).length := List.length_pos_iff.2 hne
  have hs := hsmall
  unfold SFits at hs
  generalize (textOf t).length = n at *
  have hthr := R.rep.thr255
  have hmul : (n + n + 1) * P.thr < 18446744073709551616 :=
    Nat.lt_of_le_of_lt (Nat.mul_le_mul_left _ hthr) hs
  have hgr := R.rep.growth255
  have hg1 := R.rep.growth1
  have hmulg : (n + n + 1) * P.growth < 18446744073709551616 :=
    Nat.lt_of_le_of_lt (Nat.mul_le_mul_left _ hgr) hs
  have hge := Nat.le_mul_of_pos_right (n + n + 1) hg1
  have hneed : sub64 (add64 (n + 1) (n + 1)) 1 = n + n + 1 := by
    rw [add64_eq (by omega), sub64_eq (by omega) (by omega)]; omega
  have hA := R.rep.alloc
  simp only [AllocOK, hal] at hA
  have hid : ¬ b'.id = t.s.w.nextBlk := by have := hA.2; omega
  have hcond : (shouldGrow (n + n + 1) t.s.v.cap ||
      shouldShrink (n + n + 1) t.s.v.cap t.s.v.shrink) = true := by
    simp only [shouldGrow, shouldShrink, R.rep.shrink, mul64_eq hmul]
    rcases hre with h | h
    · simp [h]
    · simp [h.1, h.2]
  unfold strAppendSrc
  rw [if_neg (by omega)]
  simp only [hsz, hneed, vecResize, vecResizeEx]
  rw [if_neg (by omega), if_neg (by omega), Out.ret_bind', if_pos hcond, R.rep.growth, mul64_eq hmulg]
  simp only [reallocate, R.rep.allocator, hal]
  rw [if_neg (by omega)]
  simp only [reallocTo, R.rep.data, withData, reallocBlock, R.rep.reliable_now, World.log,
    Bool.false_eq_true, if_false, Out.ret_bind', failed_success, Src.isNull, not_true, false_and,
    vecMemcpy, memcpyIn, hid, Out.ub_bind']

example : ∃ t b, strOp exStr .shrinkToFit = .ret (stSuccess, t) ∧ t.s.v.data = some b ∧
    strAppendSrc t (.self b.id 0) t.s.v.size = .ub .uaf := by
  have h : strOp exStr .shrinkToFit = .ret (stSuccess, ⟨⟨{ exStr.s.v with
      cap := 5, data := some ⟨1, (chars ['a', 'B', '@', 'c']).map some ++ [some 0#8]⟩ },
      ⟨fun _ => stSuccess, 2, 2, [.alloc 0 0 1 33, .realloc 0 0 1 1 5]⟩⟩, false⟩) := by cbv
  exact ⟨_, _, h, rfl, C76_negation_all (SReach.step (op := .shrinkToFit) exStr_reach trivial h) rfl rfl
    (by decide) (Or.inl (by decide)) (by show _ < _; decide)⟩

/-! ## C77: reserving -/

/-- C77 fails for every reservation that really reserves: the reported capacity is one less than
requested. -/
theorem C77_negation_all {P : Params} {t : Str} (h : SReach P t) (hdyn : P.allocator.isSome) {n : Nat}
    (hn : n < 18446744073709551616) (hc : t.s.v.cap < n) :
    ∃ t', strReserve t n = .ret (stSuccess, t') ∧ strGetCapacity t' = n - 1 ∧ strGetCapacity t' < n := by
  obtain ⟨b, sl, R⟩ := h.rep
  obtain ⟨t1, b1, sl1, e1, R1⟩ := sop_abs R (.reserve n) hn rfl
  have hle : ¬ n ≤ (sabsOf t).bytes := by rw [sabsOf_bytes]; omega
  have hs : sstep P [] (sabsOf t) (.reserve n) = (stSuccess, ⟨(sabsOf t).text, n⟩) := by
    simp only [sstep]
    rw [if_neg hle, if_pos hdyn]
  rw [hs] at e1 R1
  have hcap : t1.s.v.cap = n := R1.rep.cap
  have hg : strGetCapacity t1 = n - 1 := by
    unfold strGetCapacity
    rw [hcap, sub64_eq (by omega) hn]
  exact ⟨t1, e1, hg, by omega⟩

example : ∃ t', strReserve exStr 40 = .ret (stSuccess, t') ∧ strGetCapacity t' = 40 - 1 ∧
    strGetCapacity t' < 40 := C77_negation_all exStr_reach rfl (by decide) (by decide)

/-! ## C78: ranges that wrap -/

/-- C78 fails for the left searches (with or without regard to case) for every wrapping range whose end
wraps into the text: a start of `2^63` or more makes them read in front of the text, a smaller one is
answered with "not found". In no case with `OUT_OF_RANGE`. -/
theorem C78_left_search_negation_all {v1 v2 : View} {h x : List Byte} (h1 : Shows v1 h)
    (h2 : Shows v2 x) (hx : x ≠ []) (hlen : x.length ≤ h.length) (hb : h.length < 9223372036854775808)
    {i n : Nat} (hi : i < 18446744073709551616) (hn : n < 18446744073709551616)
    (hwrap : 18446744073709551616 ≤ i + n) (hin : i + n - 18446744073709551616 ≤ h.length) :
    (9223372036854775808 ≤ i → strLPosEx v1 v2 i n = .ub .oob ∧ strLPosIEx v1 v2 i n = .ub .oob) ∧
    (i < 9223372036854775808 → strLPosEx v1 v2 i n = .ret (stFalse, some (-1)) ∧
      strLPosIEx v1 v2 i n = .ret (stFalse, some (-1))) := by
  obtain ⟨r1, rfl⟩ := h1.eq
  obtain ⟨r2, rfl⟩ := h2.eq
  have hxl : 0 < x.length := List.length_pos_iff.2 hx
  have hs1 : (openView h r1).size = h.length + 1 := rfl
  have hs2 : (openView x r2).size = x.length + 1 := rfl
  have hadd : add64 i n = i + n - 18446744073709551616 := by unfold add64; omega
  constructor
  · intro hbig
    have key : ∀ eq, strLPosExWith eq (openView h r1) (openView x r2) i n = .ub .oob := by
      intro eq
      have hneg : toI64 i < 0 := by
        unfold toI64; rw [if_neg (by omega)]; omega
      unfold strLPosExWith
      rw [hs1, hs2, if_neg (by omega), if_neg (by omega)]
      simp only [lposOuter, hs1]
      rw [if_pos (by omega)]
      have hr : rdChar (openView h r1).mem (toI64 i) = .ub .oob := by
        unfold rdChar; rw [if_pos hneg]
      rw [hr]
      rfl
    exact ⟨key _, key _⟩
  · intro hsmall
    have key : ∀ eq, strLPosExWith eq (openView h r1) (openView x r2) i n = .ret (stFalse, some (-1)) := by
      intro eq
      unfold strLPosExWith
      rw [hs1, hs2, if_neg (by omega), if_neg (by omega), toI64_nat hsmall,
        lposOuter_behind eq hx hb h.length i (h.length + 1 + 2) (by omega) (by omega) (by omega) hsmall]
      rfl
    exact ⟨key _, key _⟩

/-- C78 fails for views and for case conversion on every wrapping range whose end wraps into the text: both
report success (the conversion changes nothing). -/
theorem C78_view_case_negation_all {P : Params} {t : Str} (h : SReach P t) {i n : Nat}
    (hi : i < 18446744073709551616) (hn : n < 18446744073709551616)
    (hwrap : 18446744073709551616 ≤ i + n)
    (hin : i + n - 18446744073709551616 ≤ (textOf t).length) :
    (viewInsideViewEx (strView t) i n).1 = stSuccess ∧
    strToLowerEx t i n = .ret (stSuccess, t) ∧ strToUpperEx t i n = .ret (stSuccess, t) := by
  obtain ⟨b, sl, R⟩ := h.rep
  have hsz : t.s.v.size = (textOf t).length + 1 := by rw [R.textOf]; exact R.size
  have hadd : add64 i n = i + n - 18446744073709551616 := by unfold add64; omega
  have hv : (strView t).size = t.s.v.size := rfl
  have key : ∀ f, strCaseEx f t i n = .ret (stSuccess, t) := by
    intro f
    unfold strCaseEx
    have h0 : add64 i n - i = 0 := by omega
    rw [if_neg (by omega), h0]
    rfl
  refine ⟨?_, key _, key _⟩
  unfold viewInsideViewEx
  rw [hv, if_neg (by omega)]

/-- C78 fails for deletion on every wrapping range whose end wraps into the text: the call accesses memory
outside of the storage, or it returns and has changed the length. -/
theorem C78_delete_negation_all {P : Params} {t : Str} (h : SReach P t) {i n : Nat}
    (hi : i < 18446744073709551616) (hn : n < 18446744073709551616)
    (hwrap : 18446744073709551616 ≤ i + n)
    (hin : i + n - 18446744073709551616 ≤ (textOf t).length) :
    strDelete t i n = .ub .oob ∨ ∃ st t', strDelete t i n = .ret (st, t') ∧ strGetSize t' ≠ strGetSize t := by
  obtain ⟨b, sl, R⟩ := h.rep
  have hsz : t.s.v.size = (textOf t).length + 1 := by rw [R.textOf]; exact R.size
  have h63 : t.s.v.size < 9223372036854775808 := R.rep.size ▸ R.rep.len63
  have hadd : add64 i n = i + n - 18446744073709551616 := by unfold add64; omega
  unfold strDelete
  rw [if_neg (by omega)]
  rcases deleteRange_wrapped R.rep i n hi hn (by omega) hwrap (by omega) with h | ⟨st, s', e, hs', b', hb'⟩
  · rw [h]; exact Or.inl rfl
  · rw [e, Out.ret_bind']
    have hne : sub64 s'.v.size 1 ≠ sub64 t.s.v.size 1 := by
      rw [hs']; unfold sub64; omega
    unfold checkTerminate
    by_cases hf : failed st = true
    · rw [if_pos hf]
      exact Or.inr ⟨_, _, rfl, hne⟩
    · rw [if_neg hf]
      simp only [nullTerminate, strPoke, hb', withData]
      split
      · exact Or.inr ⟨_, _, rfl, hne⟩
      · exact Or.inl rfl

/-- C78 fails for appending and inserting part of a view on every wrapping source range whose end wraps
into the view: memory outside of the view is read. -/
theorem C78_source_negation_all {P : Params} {t : Str} (h : SReach P t) (hdyn : P.allocator.isSome)
    {v : View} {x : List Byte} (hv : Shows v x) (hmem : v.mem.length < 18446744073709551616) {j n : Nat}
    (hj : j < 18446744073709551616) (hn : n < 18446744073709551616)
    (hwrap : 18446744073709551616 ≤ j + n)
    (hin : j + n - 18446744073709551616 ≤ x.length) :
    strAppendEx t v j n = .ub .oob ∧
    ∀ i, i ≤ (textOf t).length → strInsertEx t i v j n = .ub .oob := by
  obtain ⟨b, sl, R⟩ := h.rep
  have hsz : t.s.v.size = (textOf t).length + 1 := by rw [R.textOf]; exact R.size
  have hvs : v.size = x.length + 1 := hv.1
  have hadd : add64 j n = j + n - 18446744073709551616 := by unfold add64; omega
  have hshort : (v.mem.drop j).length < n := by rw [List.length_drop]; omega
  constructor
  · obtain ⟨s', b', e, hb'⟩ := vecResize_any R hdyn (add64 t.s.v.size n)
    unfold strAppendEx strAppendExSrc
    rw [if_neg (by omega), if_neg (by omega)]
    simp only [e, Out.ret_bind', failed_success, Bool.false_eq_true, if_false, vecMemcpy, hb', withData,
      Src.offset, memcpyIn_short hshort, Out.ub_bind']
  · intro i hi
    obtain ⟨s', b', e, hb'⟩ := growFor_any R hdyn (add64 t.s.v.size n)
    unfold strInsertEx
    rw [if_neg (by omega), if_neg (by omega), if_neg (by omega), if_neg (by omega)]
    unfold vecInsertRange
    simp only [Src.offset, Src.isNull, Bool.false_eq_true, false_or]
    rw [if_neg (by omega), if_neg (by omega)]
    simp only [e, Out.ret_bind', failed_success, Bool.false_eq_true, if_false]
    by_cases hlt : i < s'.v.size
    · rw [if_pos hlt]
      simp only [shiftRight, hb', withData]
      rcases memmoveCells_cases b'.cells (add64 i n) i (sub64 s'.v.size i) with h | ⟨cs, h⟩
      · rw [h]; rfl
      · simp only [h, Out.ret_bind', memcpyIn_short hshort, Out.ub_bind']
    · rw [if_neg hlt]
      simp only [Out.ret_bind', hb', withData, memcpyIn_short hshort, Out.ub_bind']

example : strLPosEx (litView (chars ['a', 'b'])) (litView (chars ['b'])) 18446744073709551615 2 = .ub .oob :=
  ((C78_left_search_negation_all (litView_shows _).shows (litView_shows _).shows (by decide) (by decide)
    (by decide) (by decide) (by decide) (by decide) (by decide)).1 (by decide)).1
example : strLPosEx (litView (chars ['a', 'b'])) (litView (chars ['b'])) 1 18446744073709551615 =
    .ret (stFalse, some (-1)) :=
  ((C78_left_search_negation_all (litView_shows _).shows (litView_shows _).shows (by decide) (by decide)
    (by decide) (by decide) (by decide) (by decide) (by decide)).2 (by decide)).1
example : strToLowerEx exStr 18446744073709551615 3 = .ret (stSuccess, exStr) :=
  (C78_view_case_negation_all exStr_reach (by decide) (by decide) (by decide) (by decide +kernel)).2.1
example : strDelete exStr 18446744073709551615 3 = .ub .oob ∨ ∃ st t',
    strDelete exStr 18446744073709551615 3 = .ret (st, t') ∧ strGetSize t' ≠ strGetSize exStr :=
  C78_delete_negation_all exStr_reach (by decide) (by decide) (by decide) (by decide +kernel)
example : strAppendEx exStr (litView (chars ['a', 'b'])) 18446744073709551615 2 = .ub .oob :=
  (C78_source_negation_all exStr_reach rfl (litView_shows (chars ['a', 'b'])).shows (by decide) (by decide)
    (by decide) (by decide) (by decide)).1

end Zy
