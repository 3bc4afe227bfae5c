import Verif.Spec.Replace
import Verif.Lemmas.StringProps
import Verif.Lemmas.StringReach
import Verif.Lemmas.StringSearch

/-!
# Lemmas about replacing texts in strings
-/

namespace Zy

open Spec

/-- The search from the left in a terminated text. -/
theorem left_search {v1 v2 : View} {h x : List Byte} (h1 : ShowsTerminated v1 h) (h2 : ShowsTerminated v2 x)
    (hx : x ≠ []) (hx0 : 0#8 ∉ x) {i n : Nat} (hin : i + n ≤ h.length)
    (hb : h.length + x.length + 2 < 9223372036854775808) :
    ∃ st p, strLPosEx v1 v2 i n = .ret (st, some p) ∧
      ((st = stTrue ∧ 0 ≤ p ∧ Leftmost (fun a b => a = b) h x i (i + n) p.toNat) ∨
       (st = stFalse ∧ p = -1 ∧ Absent (fun a b => a = b) h x i (i + n))) := by
  obtain ⟨r1, rfl⟩ := h1.eq
  obtain ⟨r2, rfl⟩ := h2.eq
  obtain ⟨st, p, e, hc⟩ := lpos_ok eqExact (rest := r1) (rest' := r2) hx
    (fun c hc h0 => hx0 (h0 ▸ hc)) hin hb
  refine ⟨st, p, e, ?_⟩
  rcases hc with ⟨h1, h2, h3⟩ | ⟨h1, h2, h3⟩
  · exact Or.inl ⟨h1, h2, Leftmost.congr (fun a _ b _ => rel_exact a b) h3⟩
  · exact Or.inr ⟨h1, h2, Absent.congr (fun a _ b _ => rel_exact a b) h3⟩

/-- An occurrence splits the text. -/
theorem occursAt_iff {h x : List Byte} {p : Nat} :
    OccursAt (fun a b => a = b) h x p ↔ ∃ a b, h = a ++ x ++ b ∧ a.length = p := by
  constructor
  · rintro ⟨h1, h2⟩
    refine ⟨h.take p, h.drop (p + x.length), ?_, by rw [List.length_take]; omega⟩
    have h3 : (h.drop p).take x.length = x := by
      apply List.ext_getElem
      · rw [List.length_take, List.length_drop]; omega
      · intro k hk1 hk2
        rw [List.getElem_take, List.getElem_drop]
        exact h2 k hk2 (by omega)
    have h4 : h.drop (p + x.length) = (h.drop p).drop x.length := by rw [List.drop_drop]
    rw [h4]
    conv => lhs; rw [← List.take_append_drop p h, ← List.take_append_drop x.length (h.drop p)]
    rw [h3, ← List.append_assoc]
  · rintro ⟨a, b, rfl, rfl⟩
    refine ⟨by simp, fun k hk hp => ?_⟩
    rw [List.getElem_append_left (by simp; omega), List.getElem_append_right (by omega)]
    simp

/-- An occurrence behind a part of the text is an occurrence in the rest. -/
theorem split_behind {d h a x b : List Byte} (e : d ++ h = a ++ x ++ b) (hl : d.length ≤ a.length) :
    ∃ c, a = d ++ c ∧ h = c ++ x ++ b := by
  refine ⟨a.drop d.length, ?_, ?_⟩
  · have h1 : a.take d.length = d := by
      have := congrArg (List.take d.length) e
      rw [List.take_left, List.append_assoc, List.take_append_of_le_length hl] at this
      exact this.symm
    conv => lhs; rw [← List.take_append_drop d.length a, h1]
  · have := congrArg (List.drop d.length) e
    rw [List.drop_left, List.append_assoc, List.drop_append_of_le_length hl] at this
    rw [this, List.append_assoc]

theorem room_dynamic {P : Params} (hP : P.allocator.isSome) (c n : Nat) : ∃ c', Spec.room P c n = some c' := by
  unfold Spec.room
  split
  · exact ⟨_, rfl⟩
  · exact ⟨_, rfl⟩

theorem fits_step {p a x b y : Nat} (hx : 0 < x) (h : SFits (p + (a + x + b) * (y + 1) + y + 1)) :
    SFits (p + a + y + b * (y + 1) + y + 1) := by
  refine h.mono ?_
  have h5 : a ≤ a * (y + 1) := Nat.le_mul_of_pos_right _ (by omega)
  have h6 : 1 * (y + 1) ≤ x * (y + 1) := Nat.mul_le_mul_right _ hx
  have h7 : (a + x + b) * (y + 1) = a * (y + 1) + x * (y + 1) + b * (y + 1) := by
    rw [Nat.add_mul, Nat.add_mul]
  omega

theorem replaceLoop_ok {P : Params} (hP : P.allocator.isSome) {vx : View} {x y : List Byte}
    (hv : ShowsTerminated vx x) (hx : x ≠ []) (hx0 : 0#8 ∉ x) (hxl : x.length < 4611686018427387904) :
    ∀ (fuel : Nat) {t : Str} {c : Nat} {b : Block Byte} {sl : List (Cell Byte)} {pre h : List Byte},
      SRep P t ⟨(pre ++ h).map some, c⟩ b sl → h.length < fuel →
      SFits (pre.length + h.length * (y.length + 1) + y.length + 1) →
      ∃ t' c' b' sl' r, replaceLoop vx (litView y) fuel t pre.length = .ret (stSuccess, t') ∧ Replaced x y h r ∧
        SRep P t' ⟨(pre ++ r).map some, c'⟩ b' sl' := by
  intro fuel
  induction fuel with
  | zero => exact fun _ hf _ => absurd hf (Nat.not_lt_zero _)
  | succ fuel ih =>
    intro t c b sl pre h R hf hS
    have hS' : (pre.length + h.length * (y.length + 1) + y.length + 1) * 255 < 18446744073709551616 := hS
    have hmul : h.length ≤ h.length * (y.length + 1) := Nat.le_mul_of_pos_right _ (by omega)
    have hgs : strGetSize t = pre.length + h.length := by rw [R.getSize]; simp
    have hview := R.view rfl
    have hvx : viewGetSize vx = x.length := by
      unfold viewGetSize; rw [hv.1, sub64_eq (by omega) (by omega)]; omega
    have hvy : viewGetSize (litView y) = y.length := by
      unfold viewGetSize; rw [(litView_shows y).1, sub64_eq (by omega) (by omega)]; omega
    obtain ⟨st, p, e, hc⟩ := left_search hview hv hx hx0 (i := pre.length) (n := h.length)
      (by simp) (by simp; omega)
    have en : strGetSize t - pre.length = h.length := by omega
    rw [replaceLoop, en, e, Out.ret_bind']
    rcases hc with ⟨rfl, hp, h1, h2, h3, h4⟩ | ⟨rfl, rfl, hA⟩
    · obtain ⟨a', b', e1, e2⟩ := occursAt_iff.1 h3
      obtain ⟨a, rfl, rfl⟩ := split_behind e1 (by omega)
      have hpn : p.toNat = pre.length + a.length := by rw [← e2]; simp
      simp only [hpn, hvx, hvy]
      rw [if_neg (by decide), if_neg (by decide)]
      have hxpos : 0 < x.length := List.length_pos_iff.2 hx
      have hab : (a ++ x ++ b').length = a.length + x.length + b'.length := by
        simp only [List.length_append]
      rw [hab] at hS' hmul hf
      have hmul2 : a.length + b'.length * (y.length + 1) + (y.length + 1) ≤
          (a.length + x.length + b'.length) * (y.length + 1) := by
        have h5 : a.length ≤ a.length * (y.length + 1) := Nat.le_mul_of_pos_right _ (by omega)
        have h6 : 1 * (y.length + 1) ≤ x.length * (y.length + 1) := Nat.mul_le_mul_right _ hxpos
        have h7 : (a.length + x.length + b'.length) * (y.length + 1) =
          a.length * (y.length + 1) + x.length * (y.length + 1) + b'.length * (y.length + 1) := by
          rw [Nat.add_mul, Nat.add_mul]
        omega
      -- the deletion
      obtain ⟨junk, st1, t1, a1, b1, sl1, _, hstep1, hop1, R1⟩ :=
        sop_ok R (.delete (pre.length + a.length) x.length) (by show _ < _; omega)
      have hlen : ((pre ++ (a ++ x ++ b')).map some).length = pre.length + (a.length + x.length + b'.length) := by
        simp only [List.length_append, List.length_map]
      have htext : ((pre ++ (a ++ x ++ b')).map (some : Byte → Cell Byte)) =
          (pre ++ a).map some ++ (x.map some ++ b'.map some) := by simp
      have ht1 : List.take (pre.length + a.length) ((pre ++ (a ++ x ++ b')).map (some : Byte → Cell Byte)) =
          (pre ++ a).map some := by
        rw [htext]; exact List.take_left' (by simp)
      have ht2 : List.drop (pre.length + a.length + x.length) ((pre ++ (a ++ x ++ b')).map (some : Byte → Cell Byte)) =
          b'.map some := by
        rw [htext, ← List.append_assoc]; exact List.drop_left' (by simp [Nat.add_assoc])
      simp only [sstep] at hstep1
      rw [if_neg (by rw [hlen]; omega), if_neg (by omega), ht1, ht2] at hstep1
      simp only [Prod.mk.injEq] at hstep1
      obtain ⟨rfl, rfl⟩ := hstep1
      have hop1' : strDelete t (pre.length + a.length) x.length = .ret (stSuccess, t1) := hop1
      rw [hop1', Out.ret_bind']
      rw [if_neg (by rw [failed_success]; decide)]
      by_cases hy : y.length = 0
      · have hy' : y = [] := List.length_eq_zero_iff.1 hy
        subst hy'
        rw [if_pos hy]
        have e3 : (pre ++ a).map (some : Byte → Cell Byte) ++ b'.map some = ((pre ++ a) ++ b').map some := by simp
        rw [e3] at R1
        obtain ⟨t', c', b'', sl'', r, e4, hR, R'⟩ := ih R1 (by omega)
          (by
            refine (fits_step (y := ([] : List Byte).length) hxpos (by rw [← hab]; exact hS)).mono ?_
            simp only [List.length_append, List.length_nil]
            omega)
        rw [List.length_append] at e4
        refine ⟨t', c', b'', sl'', a ++ [] ++ r, e4, .more ?_ hR, by simpa using R'⟩
        intro a2 b2 e5
        have := h4 (pre.length + a2.length) (by omega)
          (by have := congrArg List.length e5; simp at this; simp; omega)
          (occursAt_iff.2 ⟨pre ++ a2, b2, by rw [e5]; simp, by simp⟩)
        omega
      · rw [if_neg hy]
        -- the insertion
        have hl1 : ((pre ++ a).map (some : Byte → Cell Byte) ++ b'.map some).length =
            pre.length + a.length + b'.length := by simp only [List.length_append, List.length_map]
        have hb2 : b'.length ≤ b'.length * (y.length + 1) := Nat.le_mul_of_pos_right _ (by omega)
        obtain ⟨junk, st2, t2, a2, b2, sl2, _, hstep2, hop2, R2⟩ :=
          sop_ok R1 (.insert (pre.length + a.length) (y.map some)) (by
            show SFits _
            refine (fits_step hxpos (by rw [← hab]; exact hS)).mono ?_
            simp only [List.length_append, List.length_map]
            omega)
        simp only [sstep] at hstep2
        rw [if_neg (by rw [hl1]; omega), if_neg (by rw [hl1]; omega)] at hstep2
        unfold insertText at hstep2
        rw [if_neg (by intro h0; exact hy (by simpa using congrArg List.length h0))] at hstep2
        obtain ⟨c2, hc2⟩ := room_dynamic hP
          (trim P c (((pre ++ (a ++ x ++ b')).map (some : Byte → Cell Byte)).length + 1 - x.length))
          (((pre ++ a).map (some : Byte → Cell Byte) ++ b'.map some).length + (y.map (some : Byte → Cell Byte)).length + 1)
        simp only [hc2] at hstep2
        rw [List.take_left' (by simp), List.drop_left' (by simp)] at hstep2
        simp only [Prod.mk.injEq] at hstep2
        obtain ⟨rfl, rfl⟩ := hstep2
        have hop2' : strInsert t1 (pre.length + a.length) (litView y) = .ret (stSuccess, t2) := hop2
        rw [hop2', Out.ret_bind', if_neg (by rw [failed_success]; decide)]
        have e3 : (pre ++ a).map (some : Byte → Cell Byte) ++ y.map some ++ b'.map some =
            ((pre ++ a ++ y) ++ b').map some := by simp
        rw [e3] at R2
        obtain ⟨t', c', b'', sl'', r, e4, hR, R'⟩ := ih R2 (by omega)
          (by rw [List.length_append, List.length_append]; exact fits_step hxpos (by rw [← hab]; exact hS))
        rw [List.length_append, List.length_append] at e4
        refine ⟨t', c', b'', sl'', a ++ y ++ r, e4, .more ?_ hR, by simpa using R'⟩
        intro a3 b3 e5
        have := h4 (pre.length + a3.length) (by omega)
          (by have := congrArg List.length e5; simp at this; simp; omega)
          (occursAt_iff.2 ⟨pre ++ a3, b3, by rw [e5]; simp, by simp⟩)
        omega
    · rw [if_pos rfl]
      refine ⟨t, c, b, sl, h, rfl, .done fun a b' e => ?_, R⟩
      exact hA (pre.length + a.length) (by omega) (by rw [e]; simp; omega)
        (occursAt_iff.2 ⟨pre ++ a, b', by rw [e]; simp, by simp⟩)

/-! ## Undoing changes -/

theorem insert_delete_ok {P : Params} {t : Str} {x : List (Cell Byte)} {cap : Nat} {b : Block Byte}
    {sl : List (Cell Byte)} (R : SRep P t ⟨x, cap⟩ b sl) {i : Nat} {y : List (Cell Byte)} (hi : i ≤ x.length)
    (hy : y ≠ []) (hroom : P.allocator.isSome ∨ x.length + y.length + 1 ≤ cap) (hf : SFits (x.length + y.length + 1)) :
    ∃ t1 t2, strInsert t i (textView y) = .ret (stSuccess, t1) ∧ textOf t1 = x.take i ++ y ++ x.drop i ∧
      strDelete t1 i y.length = .ret (stSuccess, t2) ∧ textOf t2 = x := by
  have hyl : 0 < y.length := List.length_pos_iff.2 hy
  have hw : x.length + y.length + 1 < 18446744073709551616 := by unfold SFits at hf; omega
  obtain ⟨junk, st, t1, a1, b1, sl1, _, hstep, hop, R1⟩ := sop_ok R (.insert i y) hf
  obtain ⟨c, hc⟩ : ∃ c, Spec.room P cap (x.length + y.length + 1) = some c := by
    rcases hroom with h1 | h1
    · exact room_dynamic h1 _ _
    · exact ⟨_, if_pos h1⟩
  simp only [sstep, insertText] at hstep
  rw [if_neg (by omega), if_neg (by omega), if_neg hy] at hstep
  simp only [hc, Prod.mk.injEq] at hstep
  obtain ⟨rfl, rfl⟩ := hstep
  obtain ⟨junk, st2, t2, a2, b2, sl2, _, hstep2, hop2, R2⟩ := sop_ok R1 (.delete i y.length) (by
    show _ < _; omega)
  have htl : (x.take i).length = i := by rw [List.length_take]; omega
  have hlen : (x.take i ++ y ++ x.drop i).length = x.length + y.length := by
    simp only [List.length_append, List.length_take, List.length_drop]; omega
  have e1 : (x.take i ++ y ++ x.drop i).take i = x.take i := by
    rw [List.append_assoc]; exact List.take_left' htl
  have e2 : (x.take i ++ y ++ x.drop i).drop (i + y.length) = x.drop i :=
    List.drop_left' (by rw [List.length_append, htl])
  simp only [sstep] at hstep2
  rw [if_neg (by rw [hlen]; omega), if_neg (by omega), e1, e2, List.take_append_drop] at hstep2
  simp only [Prod.mk.injEq] at hstep2
  obtain ⟨rfl, rfl⟩ := hstep2
  exact ⟨t1, t2, hop, R1.textOf, hop2, R2.textOf⟩

theorem append_truncate_ok {P : Params} {t : Str} {x : List (Cell Byte)} {cap : Nat} {b : Block Byte}
    {sl : List (Cell Byte)} (R : SRep P t ⟨x, cap⟩ b sl) {y : List (Cell Byte)}
    (hy : y ≠ []) (hroom : P.allocator.isSome ∨ x.length + y.length + 1 ≤ cap) (hf : SFits (x.length + y.length + 1)) :
    ∃ t1 t2, strAppend t (textView y) = .ret (stSuccess, t1) ∧ textOf t1 = x ++ y ∧
      strTruncate t1 x.length = .ret (stSuccess, t2) ∧ textOf t2 = x := by
  have hyl : 0 < y.length := List.length_pos_iff.2 hy
  obtain ⟨junk, st, t1, a1, b1, sl1, _, hstep, hop, R1⟩ := sop_ok R (.append y) hf
  obtain ⟨c, hc⟩ : ∃ c, extend P cap (x.length + y.length + 1) = some c := by
    unfold extend
    split
    · exact ⟨_, rfl⟩
    · rcases hroom with h1 | h1
      · exact room_dynamic h1 _ _
      · omega
  simp only [sstep, appendText] at hstep
  rw [if_neg hy] at hstep
  simp only [hc, Prod.mk.injEq] at hstep
  obtain ⟨rfl, rfl⟩ := hstep
  obtain ⟨junk, st2, t2, a2, b2, sl2, _, hstep2, hop2, R2⟩ := sop_ok R1 (.truncate x.length) trivial
  simp only [sstep] at hstep2
  rw [if_neg (by simp), if_neg (by simp; omega), List.take_left] at hstep2
  simp only [Prod.mk.injEq] at hstep2
  obtain ⟨rfl, rfl⟩ := hstep2
  exact ⟨t1, t2, hop, R1.textOf, hop2, R2.textOf⟩

theorem delete_insert_ok {P : Params} {t : Str} {x : List (Cell Byte)} {cap : Nat} {b : Block Byte}
    {sl : List (Cell Byte)} (R : SRep P t ⟨x, cap⟩ b sl) {i n : Nat} (hn : n ≠ 0) (hi : i + n ≤ x.length)
    (hf : SFits (x.length + 1)) :
    ∃ t1 t2, strDelete t i n = .ret (stSuccess, t1) ∧ textOf t1 = x.take i ++ x.drop (i + n) ∧
      strInsert t1 i (textView ((x.drop i).take n)) = .ret (stSuccess, t2) ∧ textOf t2 = x := by
  have hw : x.length + 1 < 18446744073709551616 := by unfold SFits at hf; omega
  have hcap : x.length + 1 ≤ cap := by
    have h1 := R.rep.len
    simp only [List.length_append, List.length_cons, List.length_nil] at h1
    omega
  obtain ⟨junk, st, t1, a1, b1, sl1, _, hstep, hop, R1⟩ := sop_ok R (.delete i n) (by show _ < _; omega)
  simp only [sstep] at hstep
  rw [if_neg (by omega), if_neg hn] at hstep
  simp only [Prod.mk.injEq] at hstep
  obtain ⟨rfl, rfl⟩ := hstep
  have hl1 : (x.take i ++ x.drop (i + n)).length = x.length - n := by
    simp only [List.length_append, List.length_take, List.length_drop]; omega
  have hl2 : ((x.drop i).take n).length = n := by rw [List.length_take, List.length_drop]; omega
  obtain ⟨junk, st2, t2, a2, b2, sl2, _, hstep2, hop2, R2⟩ := sop_ok R1 (.insert i ((x.drop i).take n)) (by
    show SFits _
    refine hf.mono ?_
    simp only [hl1, hl2]
    omega)
  obtain ⟨c, hc⟩ : ∃ c, Spec.room P (trim P cap (x.length + 1 - n)) (x.length - n + n + 1) = some c := by
    by_cases hP : P.allocator.isSome
    · exact room_dynamic hP _ _
    · have e : trim P cap (x.length + 1 - n) = cap := by unfold trim; rw [if_neg fun h0 => hP h0.1]
      rw [e]
      exact ⟨_, if_pos (by omega)⟩
  have htl : (x.take i).length = i := by rw [List.length_take]; omega
  have e1 : (x.take i ++ x.drop (i + n)).take i = x.take i := List.take_left' htl
  have e2 : (x.take i ++ x.drop (i + n)).drop i = x.drop (i + n) := List.drop_left' htl
  have e3 : x.take i ++ (x.drop i).take n ++ x.drop (i + n) = x := by
    rw [List.append_assoc, ← List.drop_drop, List.take_append_drop, List.take_append_drop]
  simp only [sstep, insertText] at hstep2
  rw [if_neg (by rw [hl1]; omega), if_neg (by rw [hl1]; omega),
    if_neg (by intro h0; rw [h0] at hl2; exact hn hl2.symm)] at hstep2
  simp only [hl1, hl2, hc, e1, e2, e3, Prod.mk.injEq] at hstep2
  obtain ⟨rfl, rfl⟩ := hstep2
  exact ⟨t1, t2, hop, R1.textOf, hop2, R2.textOf⟩

end Zy
