import Verif.Spec.Split
import Verif.Lemmas.Replace

/-!
# Lemmas about splitting and joining
-/

namespace Zy

open Spec

theorem splitLoop_ok {v vx : View} {x : List Byte} (hvx : ShowsTerminated vx x) (hx : x ≠ []) (hx0 : 0#8 ∉ x) :
    ∀ (fuel : Nat) {pre h : List Byte}, ShowsTerminated v (pre ++ h) → h.length < fuel →
      pre.length + h.length + x.length + 2 < 9223372036854775808 →
      ∃ rs, splitLoop v vx fuel pre.length = .ret (stSuccess, rs) ∧ Split x h (rs.map (pieceAt (pre ++ h))) ∧
        rs.length ≤ h.length + 1 ∧ ∀ r ∈ rs, r.1 + r.2 ≤ pre.length + h.length := by
  intro fuel
  induction fuel with
  | zero => exact fun _ hf _ => absurd hf (Nat.not_lt_zero _)
  | succ fuel ih =>
    intro pre h hv hf hb
    have hgv : viewGetSize v = pre.length + h.length := by
      unfold viewGetSize; rw [hv.1, sub64_eq (by omega) (by simp; omega)]; simp
    have hgx : viewGetSize vx = x.length := by
      unfold viewGetSize; rw [hvx.1, sub64_eq (by omega) (by omega)]; omega
    obtain ⟨st, p, e, hc⟩ := left_search hv hvx hx hx0 (i := pre.length) (n := h.length)
      (by simp) (by simp; omega)
    have en : viewGetSize v - pre.length = h.length := by omega
    rw [splitLoop, en, e, Out.ret_bind']
    rcases hc with ⟨rfl, hp, h1, h2, h3, h4⟩ | ⟨rfl, rfl, hA⟩
    · obtain ⟨a', b', e1, e2⟩ := occursAt_iff.1 h3
      obtain ⟨a, rfl, rfl⟩ := split_behind e1 (by omega)
      have hpn : p.toNat = pre.length + a.length := by rw [← e2]; simp
      have hxpos : 0 < x.length := List.length_pos_iff.2 hx
      simp only [hpn, hgx]
      rw [if_neg (by decide), if_neg (by decide)]
      have hab : (a ++ x ++ b').length = a.length + x.length + b'.length := by
        simp only [List.length_append]
      rw [hab] at hb hf
      have hpre : pre ++ (a ++ x ++ b') = (pre ++ a ++ x) ++ b' := by simp
      have hl3 : (pre ++ a ++ x).length = pre.length + a.length + x.length := by simp [Nat.add_assoc]
      rw [hpre] at hv
      obtain ⟨rs, e4, hS, hn, hr⟩ := ih hv (by omega) (by rw [hl3]; omega)
      rw [hl3] at e4 hr
      rw [e4, Out.ret_bind']
      refine ⟨_, rfl, ?_, ?_, ?_⟩
      · have h5 : pieceAt (pre ++ (a ++ x ++ b')) (pre.length, pre.length + a.length - pre.length) = a := by
          simp [pieceAt]
        rw [List.map_cons, h5, hpre]
        refine .more ?_ hS
        intro a2 b2 e5
        have := h4 (pre.length + a2.length) (by omega)
          (by have := congrArg List.length e5; simp at this; simp; omega)
          (occursAt_iff.2 ⟨pre ++ a2, b2, by rw [e5]; simp, by simp⟩)
        omega
      · simp only [List.length_cons, hab]; omega
      · intro r hr'
        rcases List.mem_cons.1 hr' with rfl | hr'
        · simp only [hab]; omega
        · have := hr r hr'
          rw [hab]; omega
    · rw [if_pos rfl]
      refine ⟨_, rfl, ?_, by simp, by simp⟩
      have h5 : pieceAt (pre ++ h) (pre.length, h.length) = h := by simp [pieceAt]
      rw [List.map_cons, h5]
      refine .last fun a b' e => ?_
      exact hA (pre.length + a.length) (by omega) (by rw [e]; simp; omega)
        (occursAt_iff.2 ⟨pre ++ a, b', by rw [e]; simp, by simp⟩)

/-- Appending to a string that can grow. -/
theorem appendText_dynamic {P : Params} (hP : P.allocator.isSome) (s : SState) (x : List (Cell Byte)) :
    ∃ c, appendText P s x = (stSuccess, ⟨s.text ++ x, c⟩) := by
  unfold appendText
  by_cases hx : x = []
  · subst hx; exact ⟨s.bytes, by rw [if_pos rfl, List.append_nil]⟩
  · rw [if_neg hx]
    obtain ⟨c, hc⟩ : ∃ c, extend P s.bytes (s.text.length + x.length + 1) = some c := by
      unfold extend
      split
      · exact ⟨_, rfl⟩
      · exact room_dynamic hP _ _
    exact ⟨c, by rw [hc]⟩

theorem appendPiece_ok {P : Params} (hP : P.allocator.isSome) {t : Str} {c : Nat} {b : Block Byte}
    {sl : List (Cell Byte)} {pre s : List Byte} (R : SRep P t ⟨pre.map some, c⟩ b sl) {r : Nat × Nat}
    (hr : r.1 + r.2 ≤ s.length) (hf : SFits (pre.length + s.length + 1)) :
    ∃ t' c' b' sl', strAppendEx t (litView s) r.1 r.2 = .ret (stSuccess, t') ∧
      SRep P t' ⟨(pre ++ pieceAt s r).map some, c'⟩ b' sl' := by
  have hf' : (pre.length + s.length + 1) * 255 < 18446744073709551616 := hf
  obtain ⟨junk, st1, t1, a1, b1, sl1, _, hstep1, hop1, R1⟩ :=
    sop_ok R (.appendEx (s.map some) r.1 r.2) ⟨by simpa using hf, by omega⟩
  simp only [sstep] at hstep1
  rw [if_neg (by simp; omega)] at hstep1
  obtain ⟨c1, hc1⟩ := appendText_dynamic hP ⟨pre.map some, c⟩ (((s.map some).drop r.1).take r.2)
  rw [hc1] at hstep1
  simp only [Prod.mk.injEq] at hstep1
  obtain ⟨rfl, rfl⟩ := hstep1
  refine ⟨t1, c1, b1, sl1, hop1, ?_⟩
  have e : (pre ++ pieceAt s r).map (some : Byte → Cell Byte) = pre.map some ++ ((s.map some).drop r.1).take r.2 := by
    simp [pieceAt, List.map_take, List.map_drop]
  rw [e]
  exact R1

theorem appendLit_ok {P : Params} (hP : P.allocator.isSome) {t : Str} {c : Nat} {b : Block Byte}
    {sl : List (Cell Byte)} {pre y : List Byte} (R : SRep P t ⟨pre.map some, c⟩ b sl)
    (hf : SFits (pre.length + y.length + 1)) :
    ∃ t' c' b' sl', strAppend t (litView y) = .ret (stSuccess, t') ∧ SRep P t' ⟨(pre ++ y).map some, c'⟩ b' sl' := by
  obtain ⟨junk, st1, t1, a1, b1, sl1, _, hstep1, hop1, R1⟩ :=
    sop_ok R (.append (y.map some)) (by show SFits _; simpa using hf)
  simp only [sstep] at hstep1
  obtain ⟨c1, hc1⟩ := appendText_dynamic hP ⟨pre.map some, c⟩ (y.map some)
  rw [hc1] at hstep1
  simp only [Prod.mk.injEq] at hstep1
  obtain ⟨rfl, rfl⟩ := hstep1
  exact ⟨t1, c1, b1, sl1, hop1, by rw [List.map_append]; exact R1⟩

theorem joinLoop_ok {P : Params} (hP : P.allocator.isSome) {s y : List Byte} :
    ∀ (rs : List (Nat × Nat)) {t : Str} {c : Nat} {b : Block Byte} {sl : List (Cell Byte)} {pre : List Byte},
      SRep P t ⟨pre.map some, c⟩ b sl → (∀ r ∈ rs, r.1 + r.2 ≤ s.length) →
      SFits (pre.length + rs.length * (s.length + y.length) + 1) →
      ∃ t' c' b' sl', joinLoop (litView s) (litView y) t rs = .ret (stSuccess, t') ∧
        SRep P t' ⟨(pre ++ joined y (rs.map (pieceAt s))).map some, c'⟩ b' sl' := by
  intro rs
  induction rs with
  | nil =>
    intro t c b sl pre R _ _
    exact ⟨t, c, b, sl, rfl, by simpa [joined] using R⟩
  | cons r rs ih =>
    intro t c b sl pre R hr hf
    have hlen : (pieceAt s r).length ≤ s.length := by simp [pieceAt]; omega
    have hmul : (rs.length + 1) * (s.length + y.length) = rs.length * (s.length + y.length) + (s.length + y.length) :=
      Nat.succ_mul _ _
    rw [List.length_cons, hmul] at hf
    obtain ⟨t1, c1, b1, sl1, e1, R1⟩ := appendPiece_ok hP R (hr r (List.mem_cons_self)) (hf.mono (by omega))
    cases rs with
    | nil => exact ⟨t1, c1, b1, sl1, e1, by simpa [joined] using R1⟩
    | cons r' rs =>
      obtain ⟨t2, c2, b2, sl2, e2, R2⟩ := appendLit_ok hP (y := y) R1 (hf.mono (by simp only [List.length_append]; omega))
      obtain ⟨t', c', b', sl', e3, R'⟩ := ih R2 (fun q hq => hr q (List.mem_cons_of_mem _ hq))
        (hf.mono (by simp only [List.length_append]; omega))
      refine ⟨t', c', b', sl', ?_, ?_⟩
      · rw [joinLoop]
        · rw [e1, Out.ret_bind']
          dsimp only
          rw [if_neg (by rw [failed_success]; decide), e2, Out.ret_bind']
          dsimp only
          rw [if_neg (by rw [failed_success]; decide), e3]
        · exact List.cons_ne_nil _ _
      · simpa [joined, List.append_assoc] using R'

/-- Appending a view of a range is appending one character less than the range has. -/
theorem append_range_view {t : Str} {s : List Byte} {i n : Nat} (hn : n ≠ 0) (hin : i + n ≤ s.length)
    (hb : t.s.v.size + s.length + 1 < 18446744073709551616) {v : View} {st : Status}
    (he : viewInsideViewEx (litView s) i n = (st, some v)) : strAppend t v = strAppendEx t (litView s) i (n - 1) := by
  have hl : (litView s).size = s.length + 1 := (litView_shows s).1
  have hv : v = ⟨(litView s).mem.drop i, n⟩ := by
    unfold viewInsideViewEx at he
    rw [add64_eq (by omega), hl, if_neg (by omega)] at he
    simp only [Prod.mk.injEq, Option.some.injEq] at he
    exact he.2.symm
  subst hv
  have h1 : sub64 (add64 t.s.v.size n) 1 = add64 t.s.v.size (n - 1) := by
    rw [add64_eq (by omega), add64_eq (by omega), sub64_eq (by omega) (by omega)]; omega
  have h2 : sub64 n 1 = n - 1 := sub64_eq (by omega) (by omega)
  unfold strAppend strAppendSrc strAppendEx strAppendExSrc
  rw [if_neg hn, if_neg (by omega), if_neg (by rw [add64_eq (by omega)]; omega)]
  dsimp only
  rw [h1, h2]
  rfl

/-! ## The pieces -/

theorem split_ne_nil {x s : List Byte} {ps : List (List Byte)} (h : Split x s ps) : ps ≠ [] := by
  cases h <;> exact List.cons_ne_nil _ _

theorem joined_cons {y a : List Byte} {ps : List (List Byte)} (h : ps ≠ []) :
    joined y (a :: ps) = a ++ y ++ joined y ps := by
  cases ps with
  | nil => exact absurd rfl h
  | cons b l => rfl

theorem split_replaced {x y s : List Byte} {ps : List (List Byte)} (h : Split x s ps) : Replaced x y s (joined y ps) := by
  induction h with
  | last hn => exact .done hn
  | more hl t ih => rw [joined_cons (split_ne_nil t)]; exact .more hl ih

theorem split_joined {x s : List Byte} {ps : List (List Byte)} (h : Split x s ps) : joined x ps = s := by
  induction h with
  | last hn => rfl
  | more hl t ih => rw [joined_cons (split_ne_nil t), ih]

theorem split_single {c : Byte} : ∀ {ps : List (List Byte)}, ps ≠ [] → (∀ p ∈ ps, c ∉ p) →
    Split [c] (joined [c] ps) ps := by
  intro ps
  induction ps with
  | nil => exact fun h => absurd rfl h
  | cons p ps ih =>
    intro _ hc
    cases ps with
    | nil =>
      refine .last fun a b e => hc p (List.mem_cons_self) ?_
      have e' : p = a ++ [c] ++ b := e
      rw [e']; simp
    | cons q l =>
      rw [joined_cons (List.cons_ne_nil _ _)]
      refine .more (fun a' b' e => ?_) (ih (List.cons_ne_nil _ _) fun r hr => hc r (List.mem_cons_of_mem _ hr))
      by_cases hl : p.length ≤ a'.length
      · exact hl
      · exfalso
        apply hc p (List.mem_cons_self)
        have h1 := congrArg (fun l => l[a'.length]?) e
        simp only [List.append_assoc] at h1
        rw [List.getElem?_append_left (by omega), List.getElem?_append_right (by omega)] at h1
        simp only [Nat.sub_self, List.cons_append, List.getElem?_cons_zero] at h1
        exact List.mem_of_getElem? h1

end Zy
