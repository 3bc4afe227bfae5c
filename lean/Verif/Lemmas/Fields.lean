import Verif.Spec.Fields
import Verif.Lemmas.Numbers

/-!
# Lemmas: lines of fields in different formats
-/

namespace Zy

open Spec

theorem natAbs_bits_lt (v : BitVec 64) : v.toInt.natAbs < 18446744073709551616 := by
  have h1 := BitVec.toInt_lt (x := v)
  have h2 := BitVec.le_toInt (x := v)
  simp only [Nat.add_one_sub_one] at h1 h2
  omega

theorem bits_lt (v : BitVec 64) : v.toNat < 18446744073709551616 := v.isLt

theorem signOf_length (v : Int) (s : Bool) : (signOf v s).length ≤ 1 := by
  unfold signOf
  split
  · exact Nat.le_refl 1
  · split <;> simp

theorem fieldText_length {f : Field} (hw : f.width ≤ 255) : (fieldText f).length ≤ 256 := by
  have h1 := fun (base : Nat) (hb : 10 ≤ base) (u : Bool) => padded_length_le (w := f.width) (bits_lt f.bits) base hb u
  have h2 := fun (base : Nat) (hb : 10 ≤ base) (u : Bool) => padded_length_le (w := f.width) (natAbs_bits_lt f.bits) base hb u
  have h3 := signOf_length f.bits.toInt
  unfold fieldText
  split
  · have := h1 10 (by decide) false
    omega
  · rename_i u _
    have := h1 16 (by decide) u
    omega
  · rename_i s _
    have := h2 10 (by decide) false
    have := h3 s
    rw [List.length_append]
    omega
  · rename_i u s _
    have := h2 16 (by decide) u
    have := h3 s
    rw [List.length_append]
    omega

theorem writeField_res {P : Params} {t : Str} {a : SState} {b : Block Byte} {sl : List (Cell Byte)}
    (R : SRep P t a b sl) {f : Field} (hw : f.width ≤ 255) (hf : SFits (a.text.length + 301))
    (hb : a.bytes < 18446744073709551616) : AppRes P (writeField t f) a ((fieldText f).map some) := by
  have hs : ∀ v s, signPrefix v s [] = signOf v s := by
    intro v s
    unfold signPrefix signOf
    rw [List.append_nil]
  unfold writeField fieldText
  split
  · exact (decU_res R (bits_lt _) hw (hf.mono (by omega))).app hb
  · exact (hexU_res R (bits_lt _) hw (hf.mono (by omega)) hb _).app hb
  · rename_i s _
    have := decS_res R f.bits hw s (pre := none) (px := []) rfl hf hb
    rw [hs] at this
    exact this
  · rename_i u s _
    have := hexS_res R f.bits hw u s (pre := none) (px := []) rfl hf hb
    rw [hs] at this
    exact this

theorem writeFields_res {P : Params} {y : List Byte} (fs : List Field) : ∀ (f : Field) {t : Str} {a : SState}
    {b : Block Byte} {sl : List (Cell Byte)}, SRep P t a b sl → (∀ g ∈ f :: fs, g.width ≤ 255) →
    SFits (a.text.length + (f :: fs).length * (301 + y.length) + 1) → a.bytes < 18446744073709551616 →
    AppRes P (writeFields (litView y) t (f :: fs)) a ((joined y ((f :: fs).map fieldText)).map some) := by
  induction fs with
  | nil =>
    intro f t a b sl R hw hf hb
    exact writeField_res R (hw f List.mem_cons_self) (hf.mono (by simp only [List.length_cons, List.length_nil]; omega)) hb
  | cons g fs ih =>
    intro f t a b sl R hw hf hb
    have hmul : ((g :: fs).length + 1) * (301 + y.length) = (g :: fs).length * (301 + y.length) + (301 + y.length) :=
      Nat.succ_mul _ _
    rw [List.length_cons, hmul] at hf
    have hl := fieldText_length (hw f List.mem_cons_self)
    have e1 : writeFields (litView y) t (f :: g :: fs) = (writeField t f).bind fun r => if failed r.1 then .ret r
        else checkAppend r.2 (litView y) fun t => writeFields (litView y) t (g :: fs) := by
      rw [writeFields]
      · rfl
      · exact List.cons_ne_nil _ _
    have e2 : joined y ((f :: g :: fs).map fieldText) = fieldText f ++ (y ++ joined y ((g :: fs).map fieldText)) := by
      rw [← List.append_assoc]
      rfl
    rw [e1, e2, List.map_append, List.map_append]
    have h1 : AppRes P (writeField t f) a ((fieldText f).map some) :=
      writeField_res R (hw f List.mem_cons_self) (hf.mono (by omega)) hb
    refine AppRes.bind (k := fun t1 => checkAppend t1 (litView y) fun t => writeFields (litView y) t (g :: fs)) h1 hb ?_
    intro t1 c1 b1 sl1 hc1 R1
    refine checkAppend_app (k := fun t => writeFields (litView y) t (g :: fs)) R1 (litView_shows y).shows
      (hf.mono ?_) hc1 ?_
    · simp only [List.length_append, List.length_map]
      omega
    intro t2 c2 b2 sl2 hc2 R2
    refine ih g R2 (fun k hk => hw k (List.mem_cons_of_mem _ hk)) (hf.mono ?_) hc2
    simp only [List.length_append, List.length_map]
    omega

theorem AppRes.room {P : Params} {res : Out (Status × Str)} {a : SState} {x : List (Cell Byte)} (h : AppRes P res a x)
    (hroom : P.allocator = none → a.text.length + x.length + 1 ≤ a.bytes) :
    ∃ t' c' b' sl', res = .ret (stSuccess, t') ∧ SRep P t' ⟨a.text ++ x, c'⟩ b' sl' := by
  obtain ⟨h1, _, h3⟩ := h
  by_cases hd : P.allocator = none
  · obtain ⟨t', b', sl', e, R⟩ := h1 hd (hroom hd)
    exact ⟨t', _, b', sl', e, R⟩
  · obtain ⟨c, _, t', b', sl', e, R⟩ := h3 hd
    exact ⟨t', c, b', sl', e, R⟩

theorem setsApart_padded {c : Byte} (hc : SetsApart c) {base : Nat} (hb : 2 ≤ base) (hb' : base ≤ 16) (u : Bool) (w n : Nat) :
    c ∉ padded w (numeral base u n) := by
  rw [padded_numeral]
  intro h
  obtain ⟨d, hd, he⟩ := List.mem_map.1 h
  have hd := paddedDigits_bound hb w n d hd
  have := hc.2.2.2 d (by omega)
  cases u
  · exact this.1 he.symm
  · exact this.2 he.symm

theorem setsApart_sign {c : Byte} (hc : SetsApart c) (v : Int) (s : Bool) : c ∉ signOf v s := by
  unfold signOf
  intro h
  split at h
  · exact hc.2.2.1 (List.mem_singleton.1 h)
  · split at h
    · exact hc.2.1 (List.mem_singleton.1 h)
    · cases h

theorem fieldText_free {c : Byte} (hc : SetsApart c) (f : Field) : c ∉ fieldText f := by
  unfold fieldText
  split
  · exact setsApart_padded hc (by decide) (by decide) _ _ _
  · exact setsApart_padded hc (by decide) (by decide) _ _ _
  · exact fun h => (List.mem_append.1 h).elim (setsApart_sign hc _ _) (setsApart_padded hc (by decide) (by decide) _ _ _)
  · exact fun h => (List.mem_append.1 h).elim (setsApart_sign hc _ _) (setsApart_padded hc (by decide) (by decide) _ _ _)

/-- The first character of a number is a digit. -/
theorem padded_head {base : Nat} (hb : 2 ≤ base) (hb' : base ≤ 16) (u : Bool) (w n : Nat) :
    ∃ c x, padded w (numeral base u n) = c :: x ∧ c ≠ 45#8 ∧ c ≠ 43#8 := by
  have hne : paddedDigits base w n ≠ [] := by
    intro h
    have : digits base n = [] := (List.append_eq_nil_iff.1 h).2
    rw [digits] at this
    split at this
    · cases this
    · simp at this
  rw [padded_numeral]
  cases hd : paddedDigits base w n with
  | nil => exact absurd hd hne
  | cons d ds =>
    have hdb := paddedDigits_bound hb w n d (by rw [hd]; exact List.mem_cons_self)
    refine ⟨digitChar u d, ds.map (digitChar u), rfl, ?_⟩
    have hall : ∀ u : Bool, ∀ d < 16, digitChar u d ≠ 45#8 ∧ digitChar u d ≠ 43#8 := by decide
    exact hall u d (by omega)

theorem readSigned_cons (base : Nat) (c : Byte) (x : List Byte) : readSigned base (c :: x) =
    if c = 45#8 then -(readNumeral base x : Int) else if c = 43#8 then readNumeral base x else readNumeral base (c :: x) := rfl

theorem readSigned_text {base : Nat} (hb : 2 ≤ base) (hb' : base ≤ 16) (u s : Bool) (w : Nat) (v : Int) :
    readSigned base (signOf v s ++ padded w (numeral base u v.natAbs)) = v := by
  have hr := readNumeral_padded hb hb' u w v.natAbs
  unfold signOf
  split
  · rw [List.singleton_append, readSigned_cons, if_pos rfl, hr]
    omega
  · split
    · rw [List.singleton_append, readSigned_cons, if_neg (by decide), if_pos rfl, hr]
      omega
    · obtain ⟨c, x, e, h1, h2⟩ := padded_head hb hb' u w v.natAbs
      rw [List.nil_append, e, readSigned_cons, if_neg h1, if_neg h2, ← e, hr]
      omega

theorem readField_text (f : Field) : readField f.fmt (fieldText f) = f.value := by
  obtain ⟨fmt, w, v⟩ := f
  cases fmt with
  | decU => exact congrArg Int.ofNat (readNumeral_padded (by decide) (by decide) false w v.toNat)
  | hexU u => exact congrArg Int.ofNat (readNumeral_padded (by decide) (by decide) u w v.toNat)
  | decS s => exact readSigned_text (by decide) (by decide) false s w v.toInt
  | hexS u s => exact readSigned_text (by decide) (by decide) u s w v.toInt

end Zy
