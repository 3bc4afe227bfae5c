import Verif.Lemmas.StringSearch

/-!
# Helper lemmas for the property theorems about strings
-/

namespace Zy

open Spec


/-! ## Views -/

theorem Shows.eq {v : View} {x : List Byte} (h : Shows v x) : ∃ rest, v = openView x rest := by
  obtain ⟨h1, rest, h2⟩ := h
  obtain ⟨mem, size⟩ := v
  subst h1 h2
  exact ⟨rest, rfl⟩

theorem ShowsTerminated.eq {v : View} {x : List Byte} (h : ShowsTerminated v x) :
    ∃ rest, v = termView x rest := by
  obtain ⟨h1, rest, h2⟩ := h
  obtain ⟨mem, size⟩ := v
  subst h1
  refine ⟨rest, ?_⟩
  simp only [termView, View.mk.injEq, and_true]
  simp only at h2
  rw [← h2]; simp

theorem ShowsTerminated.shows {v : View} {x : List Byte} (h : ShowsTerminated v x) : Shows v x :=
  ⟨h.1, List.IsPrefix.trans (List.prefix_append _ _) h.2⟩

theorem litView_shows (x : List Byte) : ShowsTerminated (litView x) x := by
  refine ⟨?_, ?_⟩
  · simp [litView, textView]
  · exact List.prefix_refl _

theorem SRep.view {P : Params} {t : Str} {a : SState} {b : Block Byte} {sl : List (Cell Byte)}
    (R : SRep P t a b sl) {x : List Byte} (h : a.text = x.map some) : ShowsTerminated (strView t) x := by
  refine ⟨?_, sl, ?_⟩
  · have := R.size
    rw [h, List.length_map] at this
    exact this
  · simp only [strView, R.rep.data, R.rep.cells, h]

/-! ## Fixed strings -/

theorem sstep_fixed_bytes {P : Params} (hf : P.allocator = none) (junk : List (Cell Byte)) (a : SState)
    (op : SOp) : (sstep P junk a op).2.bytes = a.bytes := by
  have hr : ∀ n c, Spec.room P a.bytes n = some c → c = a.bytes := by
    intro n c h
    simp only [Spec.room, hf] at h
    split at h
    · injection h with h; exact h.symm
    · simp at h
  have ht : ∀ n, trim P a.bytes n = a.bytes := by intro n; simp [trim, hf]
  have he : ∀ n c, extend P a.bytes n = some c → c = a.bytes := by
    intro n c h
    simp only [extend, ht] at h
    split at h
    · injection h with h; exact h.symm
    · exact hr n c h
  have ha : ∀ x, (appendText P a x).2.bytes = a.bytes := by
    intro x
    unfold appendText
    split
    · rfl
    · split
      · rfl
      · exact he _ _ (by assumption)
  have hi : ∀ i x, (insertText P a i x).2.bytes = a.bytes := by
    intro i x
    unfold insertText
    split
    · rfl
    · split
      · rfl
      · exact hr _ _ (by assumption)
  cases op <;> simp only [sstep] <;> (repeat' split) <;>
    first | rfl | exact ha _ | exact hi _ _ | exact ht _ | (apply he; assumption) | simp_all

theorem sruns_fixed_bytes {P : Params} (hf : P.allocator = none) {a a' : SState} {ops : List SOp}
    {sts : List Status} (h : SRuns P a ops sts a') : a'.bytes = a.bytes := by
  induction h with
  | nil => rfl
  | cons junk hj h t ih =>
    have := congrArg (fun r => r.2.bytes) h
    simp only [sstep_fixed_bytes hf] at this
    exact ih.trans this.symm

/-- What a single in-domain call does. -/
theorem sop_abs {P : Params} {t : Str} {a : SState} {b : Block Byte} {sl : List (Cell Byte)}
    (R : SRep P t a b sl) (op : SOp) (hd : SInDomain a op) (hj : sjunkLen a op = 0) :
    ∃ t' b' sl', strOp t op = .ret ((sstep P [] a op).1, t') ∧ SRep P t' (sstep P [] a op).2 b' sl' := by
  obtain ⟨junk, st, t', a', b', sl', hj', hs, e, R'⟩ := sop_ok R op hd
  rw [hj] at hj'
  obtain rfl := List.eq_nil_of_length_eq_zero hj'
  rw [hs]
  exact ⟨t', b', sl', e, R'⟩

/-- Appending to and inserting into a string of fixed capacity. -/
theorem fixed_append_insert {P : Params} {t : Str} {a : SState} {b : Block Byte} {sl : List (Cell Byte)}
    (R : SRep P t a b sl) (hf : P.allocator = none)
    (x : List (Cell Byte)) (hx : x ≠ []) (hfit : SFits (a.text.length + x.length + 1)) :
    (a.bytes < a.text.length + x.length + 1 →
      (∃ t', strAppend t (textView x) = .ret (stInsufficient, t') ∧ textOf t' = a.text) ∧
      ∀ i, i ≤ a.text.length →
        ∃ t', strInsert t i (textView x) = .ret (stInsufficient, t') ∧ textOf t' = a.text) ∧
    (a.text.length + x.length + 1 ≤ a.bytes →
      (∃ t', strAppend t (textView x) = .ret (stSuccess, t') ∧ textOf t' = a.text ++ x) ∧
      ∀ i, i ≤ a.text.length → ∃ t', strInsert t i (textView x) = .ret (stSuccess, t') ∧
        textOf t' = a.text.take i ++ x ++ a.text.drop i) := by
  obtain ⟨t1, b1, sl1, e1, R1⟩ := sop_abs R (.append x) hfit rfl
  have h2 := fun i => sop_abs R (.insert i x) hfit rfl
  simp only [sstep, appendText, insertText, extend, Spec.room, trim, hf, hx, if_false] at e1 R1 h2
  refine ⟨fun hlt => ⟨?_, fun i hi => ?_⟩, fun hle => ⟨?_, fun i hi => ?_⟩⟩
  · simp only [if_neg (show ¬ a.text.length + x.length + 1 ≤ a.bytes by omega)] at e1 R1
    exact ⟨t1, e1, R1.textOf⟩
  · obtain ⟨t2, b2, sl2, e2, R2⟩ := h2 i
    simp only [if_neg (show ¬ a.text.length + x.length + 1 ≤ a.bytes by omega),
      if_neg (show ¬ i = a.text.length + 1 by omega),
      if_neg (show ¬ i > a.text.length by omega)] at e2 R2
    exact ⟨t2, e2, R2.textOf⟩
  · simp only [if_pos hle] at e1 R1
    exact ⟨t1, e1, R1.textOf⟩
  · obtain ⟨t2, b2, sl2, e2, R2⟩ := h2 i
    simp only [if_pos hle, if_neg (show ¬ i = a.text.length + 1 by omega),
      if_neg (show ¬ i > a.text.length by omega)] at e2 R2
    exact ⟨t2, e2, R2.textOf⟩

/-! ## Case conversion -/

theorem mapRange_getElem? (f : Byte → Byte) (l : List (Cell Byte)) {i n : Nat} (h : i + n ≤ l.length)
    (k : Nat) : (mapRange f l i n)[k]? =
      if i ≤ k ∧ k < i + n then (l[k]?).map (Option.map f) else l[k]? := by
  unfold mapRange
  by_cases h1 : k < i
  · rw [if_neg (by omega), List.append_assoc, List.getElem?_append_left (by simp; omega),
      List.getElem?_take, if_pos h1]
  · by_cases h2 : k < i + n
    · rw [if_pos (by omega), List.append_assoc, List.getElem?_append_right (by simp; omega),
        List.getElem?_append_left (by simp; omega)]
      simp only [List.length_take, Nat.min_eq_left (show i ≤ l.length by omega), List.getElem?_map]
      rw [List.getElem?_take, if_pos (by omega), List.getElem?_drop]
      have : i + (k - i) = k := by omega
      rw [this]
    · rw [if_neg (by omega), List.getElem?_append_right (by simp; omega), List.getElem?_drop]
      congr 1
      simp
      omega

theorem mapRange_length (f : Byte → Byte) (l : List (Cell Byte)) {i n : Nat} (h : i + n ≤ l.length) :
    (mapRange f l i n).length = l.length := by
  unfold mapRange
  simp
  omega

theorem mapRange_twice {f : Byte → Byte} (hf : ∀ c, f (f c) = f c) (l : List (Cell Byte)) {i n : Nat}
    (h : i + n ≤ l.length) : mapRange f (mapRange f l i n) i n = mapRange f l i n := by
  apply List.ext_getElem?
  intro k
  have h' : i + n ≤ (mapRange f l i n).length := by rw [mapRange_length f l h]; exact h
  rw [mapRange_getElem? f _ h', mapRange_getElem? f _ h]
  split
  · cases l[k]? with
    | none => rfl
    | some c => cases c with
      | none => rfl
      | some c => simp [hf]
  · rfl

theorem lowerChar_idem : ∀ c : Byte, lowerChar (lowerChar c) = lowerChar c := by decide +kernel
theorem upperChar_idem : ∀ c : Byte, upperChar (upperChar c) = upperChar c := by decide +kernel

theorem mapRange_determinate {f : Byte → Byte} {l : List (Cell Byte)} {i n : Nat}
    (h : i + n ≤ l.length) (hd : Determinate l i n) : Determinate (mapRange f l i n) i n := by
  unfold Determinate at *
  intro x hx
  have e : ((mapRange f l i n).drop i).take n = ((l.drop i).take n).map (Option.map f) := by
    unfold mapRange
    rw [List.append_assoc, List.drop_append_of_le_length (by simp; omega)]
    have h1 : (l.take i).drop i = [] := by simp
    rw [h1, List.nil_append]
    have h2 : n = (((l.drop i).take n).map (Option.map f)).length := by simp; omega
    rw [List.take_append_of_le_length (Nat.le_of_eq h2), List.take_of_length_le (Nat.le_of_eq h2.symm)]
  rw [e] at hx
  obtain ⟨y, hy, rfl⟩ := List.mem_map.1 hx
  have := hd y hy
  cases y with
  | none => exact absurd rfl this
  | some c => simp

/-! ## C strings -/

theorem cStrlen_ok {x : List Byte} (h : ∀ c ∈ x, c ≠ 0#8) (rest : List (Cell Byte)) :
    cStrlen (x.map some ++ some 0#8 :: rest) = .ret x.length := by
  induction x with
  | nil => simp [cStrlen]
  | cons c x ih =>
    simp only [List.map_cons, List.cons_append, cStrlen]
    rw [if_neg (h c (by simp)), ih (fun c hc => h c (by simp [hc])), Out.ret_bind']
    rfl

/-! ## Comparison -/

/-- The first differing characters of two texts of the same length. -/
theorem first_diff {x y : List Byte} (hl : x.length = y.length) {k : Nat} {hk : k < x.length}
    {hk' : k < y.length} (h1 : eqExact x[k] y[k] = false)
    (h2 : ∀ j (hj : j < x.length) (hj' : j < y.length), j < k → eqExact x[j] y[j] = true) :
    ∃ p a b u v, x = p ++ a :: u ∧ y = p ++ b :: v ∧ a ≠ b ∧ a = x[k] ∧ b = y[k] := by
  refine ⟨x.take k, x[k], y[k], x.drop (k + 1), y.drop (k + 1), ?_, ?_, ?_, rfl, rfl⟩
  · rw [List.getElem_cons_drop, List.take_append_drop]
  · have e : x.take k = y.take k := by
      apply List.ext_getElem
      · simp; omega
      · intro j hj hj'
        simp only [List.length_take] at hj hj'
        simp only [List.getElem_take]
        have := h2 j (by omega) (by omega) (by omega)
        simpa [eqExact] using this
    rw [e, List.getElem_cons_drop, List.take_append_drop]
  · intro h
    rw [h] at h1
    simp [eqExact] at h1

theorem split_unique {p p' u v u' v' : List Byte} {a b a' b' : Byte}
    (hx : p ++ a :: u = p' ++ a' :: u') (hy : p ++ b :: v = p' ++ b' :: v') (h : a ≠ b) (h' : a' ≠ b') :
    a = a' ∧ b = b' := by
  have key : p.length = p'.length := by
    rcases Nat.lt_trichotomy p.length p'.length with hlt | heq | hgt
    · exfalso
      have e1 : (p ++ a :: u)[p.length]? = some a := by simp
      have e2 : (p ++ b :: v)[p.length]? = some b := by simp
      rw [hx, List.getElem?_append_left hlt] at e1
      rw [hy, List.getElem?_append_left hlt] at e2
      rw [e1] at e2
      exact h (by injection e2)
    · exact heq
    · exfalso
      have e1 : (p' ++ a' :: u')[p'.length]? = some a' := by simp
      have e2 : (p' ++ b' :: v')[p'.length]? = some b' := by simp
      rw [← hx, List.getElem?_append_left hgt] at e1
      rw [← hy, List.getElem?_append_left hgt] at e2
      rw [e1] at e2
      exact h' (by injection e2)
  have hx' := List.append_inj hx key
  have hy' := List.append_inj hy key
  injection hx'.2 with h1 _
  injection hy'.2 with h2 _
  exact ⟨h1, h2⟩

/-! ## Case conversion of a represented string -/

theorem case_ok {P : Params} {t : Str} {a : SState} {b : Block Byte} {sl : List (Cell Byte)}
    (R : SRep P t a b sl) (f : Byte → Byte) {i n : Nat} (h : i + n ≤ a.text.length)
    (hd : Determinate a.text i n) :
    ∃ t' b' sl', strCaseEx f t i n = .ret (stSuccess, t') ∧
      SRep P t' ⟨mapRange f a.text i n, a.bytes⟩ b' sl' := by
  have hs := R.small
  have := case_res R f i n (by omega) hd
  rw [if_neg (by omega), if_neg (by omega)] at this
  exact this

/-- All about a case conversion inside of the text. -/
theorem case_full {P : Params} {t : Str} {a : SState} {b : Block Byte} {sl : List (Cell Byte)}
    (R : SRep P t a b sl) (f : Byte → Byte) (hf : ∀ c, f (f c) = f c) {i n : Nat}
    (h : i + n ≤ a.text.length) (hd : Determinate a.text i n) :
    ∃ t', strCaseEx f t i n = .ret (stSuccess, t') ∧ strGetSize t' = a.text.length ∧ Terminated t' ∧
      (∀ k, (textOf t')[k]? = if i ≤ k ∧ k < i + n then (a.text[k]?).map (Option.map f) else a.text[k]?) ∧
      ∃ t'', strCaseEx f t' i n = .ret (stSuccess, t'') ∧ textOf t'' = textOf t' := by
  obtain ⟨t', b', sl', e, R'⟩ := case_ok R f h hd
  have hl := mapRange_length f a.text h
  obtain ⟨t'', b'', sl'', e', R''⟩ := case_ok R' f (by rw [hl]; exact h) (mapRange_determinate h hd)
  refine ⟨t', e, ?_, R'.terminated, ?_, t'', e', ?_⟩
  · rw [R'.getSize]; exact hl
  · intro k
    rw [R'.textOf]
    exact mapRange_getElem? f a.text h k
  · rw [R''.textOf, R'.textOf]
    exact mapRange_twice hf a.text h

/-- Case conversion of a range that is not inside of the text changes nothing, even if it wraps. -/
theorem case_outside {P : Params} {t : Str} {a : SState} {b : Block Byte} {sl : List (Cell Byte)}
    (R : SRep P t a b sl) (f : Byte → Byte) {i n : Nat} (hi : i < 18446744073709551616)
    (hn : n < 18446744073709551616) (h : a.text.length < i + n) :
    ∃ st, strCaseEx f t i n = .ret (st, t) := by
  unfold strCaseEx
  split
  · exact ⟨_, rfl⟩
  · next hlt =>
    have hz : add64 i n - i = 0 := by
      rw [R.size] at hlt
      unfold add64 at hlt ⊢
      omega
    rw [hz]
    exact ⟨_, rfl⟩

/-! ## Insertion of arbitrary views -/

theorem insert_any {P : Params} {t : Str} {a : SState} {b : Block Byte} {sl : List (Cell Byte)}
    (R : SRep P t a b sl) (i : Nat) (x rest : List (Cell Byte))
    (hf : SFits (a.text.length + x.length + 1)) :
    SRes P (strInsert t i ⟨x ++ rest, x.length + 1⟩) (sstep P [] a (.insert i x)).1
      (sstep P [] a (.insert i x)).2 := by
  have hf' := hf
  unfold SFits at hf'
  by_cases h1 : i = a.text.length + 1
  · simp only [sstep, if_pos h1, strInsert]
    rw [if_neg (by omega), R.size, if_pos h1]
    exact append_res R x rest hf
  by_cases h2 : i > a.text.length
  · simp only [sstep, if_neg h1, if_pos h2, strInsert]
    rw [if_neg (by omega), R.size, if_neg h1, if_pos (by omega)]
    exact SRes.self R _
  · simp only [sstep, if_neg h1, if_neg h2, strInsert]
    rw [if_neg (by omega), R.size, if_neg h1, if_neg (by omega)]
    exact insertCore_ok R (by omega) hf (by rw [sub64_eq (by omega) (by omega)]; omega)

theorem insertEx_any {P : Params} {t : Str} {a : SState} {b : Block Byte} {sl : List (Cell Byte)}
    (R : SRep P t a b sl) (i : Nat) (x rest : List (Cell Byte)) (j n : Nat)
    (hf : SFits (a.text.length + x.length + 1)) (hw : j + n < 18446744073709551616) :
    SRes P (strInsertEx t i ⟨x ++ rest, x.length + 1⟩ j n) (sstep P [] a (.insertEx i x j n)).1
      (sstep P [] a (.insertEx i x j n)).2 := by
  have hf' := hf
  unfold SFits at hf'
  by_cases h0 : i > a.text.length + 1 ∨ j + n > x.length
  · simp only [sstep, if_pos h0, strInsertEx, R.size]
    rw [if_neg (by omega)]
    by_cases h1 : i = a.text.length + 1
    · rw [if_pos h1]
      have := appendEx_any R x rest j n hf hw
      rwa [if_pos (by omega)] at this
    · rw [if_neg h1]
      by_cases h2 : i ≥ a.text.length + 1
      · rw [if_pos h2]; exact SRes.self R _
      · rw [if_neg h2, add64_eq hw, if_pos (by omega)]; exact SRes.self R _
  by_cases h1 : i = a.text.length + 1
  · simp only [sstep, if_neg h0, if_pos h1, strInsertEx, R.size]
    rw [if_neg (by omega)]
    exact appendEx_res R x rest j n hf hw (by omega)
  · have hxl : ((x.drop j).take n).length = n := by simp; omega
    have hsplit : (x ++ rest).drop j = (x.drop j).take n ++ ((x.drop j).drop n ++ rest) := by
      rw [List.drop_append_of_le_length (by omega), ← List.append_assoc, List.take_append_drop]
    simp only [sstep, if_neg h0, if_neg h1, strInsertEx, R.size, Src.offset]
    rw [if_neg (by omega), if_neg (by omega), add64_eq hw, if_neg (by omega), hsplit]
    have hfx : SFits (a.text.length + ((x.drop j).take n).length + 1) :=
      hf.mono (by rw [hxl]; omega)
    exact insertCore_ok R (by omega) hfx hxl.symm

/-! ## Independence of the bytes behind a view -/

/-- Two calls that return the same status and leave equal texts (and storage sizes). -/
theorem SRes.agree {P : Params} {r r' : Out (Status × Str)} {st : Status} {a : SState}
    (h : SRes P r st a) (h' : SRes P r' st a) :
    ∃ t1 t2, r = .ret (st, t1) ∧ r' = .ret (st, t2) ∧ sabsOf t1 = sabsOf t2 := by
  obtain ⟨t1, _, _, e1, R1⟩ := h
  obtain ⟨t2, _, _, e2, R2⟩ := h'
  exact ⟨t1, t2, e1, e2, by rw [R1.abs_eq, R2.abs_eq]⟩

theorem rpos_agree (eq : Byte → Byte → Bool) {v1 v1' v2 v2' : View} {h x : List Byte} (h1 : Shows v1 h)
    (h1' : Shows v1' h) (h2 : Shows v2 x) (h2' : Shows v2' x) (i n : Nat) :
    strRPosExWith eq v1 v2 i n = strRPosExWith eq v1' v2' i n := by
  obtain ⟨r1, rfl⟩ := h1.eq
  obtain ⟨r1', rfl⟩ := h1'.eq
  obtain ⟨r2, rfl⟩ := h2.eq
  obtain ⟨r2', rfl⟩ := h2'.eq
  have e1 : (openView h r1).size = h.length + 1 := rfl
  have e1' : (openView h r1').size = h.length + 1 := rfl
  have e2 : (openView x r2).size = x.length + 1 := rfl
  have e2' : (openView x r2').size = x.length + 1 := rfl
  by_cases hr : i ≥ h.length + 1 ∨ n > i
  · unfold strRPosExWith
    rw [e1, e1', if_pos hr, if_pos hr]
  by_cases hx : x = []
  · have hc : ∀ r r' : View, r'.size = 1 → (i = 0 ∨ n = 0 ∨ r.size = 1 ∨ r'.size = 1 ∨ r.size < r'.size) :=
      fun r r' h => by omega
    have hz : x.length + 1 = 1 := by simp [hx]
    unfold strRPosExWith
    rw [e1, e1', if_neg hr, if_neg hr, e2, e2', hz, if_pos (by omega), if_pos (by omega)]
  obtain ⟨st, p, e, hc⟩ := rpos_ok eq (h := h) (x := x) (rest := r1) (rest' := r2) hx (i := i) (n := n) (by omega) (by omega)
  obtain ⟨st', p', e', hc'⟩ := rpos_ok eq (h := h) (x := x) (rest := r1') (rest' := r2') hx (i := i) (n := n) (by omega)
    (by omega)
  rw [e, e']
  rcases hc with ⟨a1, a2, a3⟩ | ⟨a1, a2, a3⟩ <;> rcases hc' with ⟨b1, b2, b3⟩ | ⟨b1, b2, b3⟩
  · have := a3.2.2.2 _ b3.1 b3.2.1 b3.2.2.1
    have := b3.2.2.2 _ a3.1 a3.2.1 a3.2.2.1
    have hp : p = p' := by omega
    rw [a1, b1, hp]
  · exact absurd a3.2.2.1 (b3 _ a3.1 a3.2.1)
  · exact absurd b3.2.2.1 (a3 _ b3.1 b3.2.1)
  · rw [a1, b1, a2, b2]

theorem compare_agree {v1 v1' v2 v2' : View} {x y : List Byte} (h1 : Shows v1 x) (h1' : Shows v1' x)
    (h2 : Shows v2 y) (h2' : Shows v2' y) (hne : x ≠ y) (hb : x.length + 1 < 18446744073709551616) :
    strCompare v1 v2 = strCompare v1' v2' := by
  obtain ⟨r1, rfl⟩ := h1.eq
  obtain ⟨r1', rfl⟩ := h1'.eq
  obtain ⟨r2, rfl⟩ := h2.eq
  obtain ⟨r2', rfl⟩ := h2'.eq
  have e1 : (openView x r1).size = x.length + 1 := rfl
  have e1' : (openView x r1').size = x.length + 1 := rfl
  have e2 : (openView y r2).size = y.length + 1 := rfl
  have e2' : (openView y r2').size = y.length + 1 := rfl
  unfold strCompare strCompareWith
  rw [e1, e1', e2, e2']
  rcases Nat.lt_trichotomy x.length y.length with hl | hl | hl
  · rw [if_pos (by omega), if_pos (by omega)]
  · have key : ∀ r r' : List (Cell Byte), ∃ k, ∃ hk : k < x.length, ∃ hk' : k < y.length,
        x[k] ≠ y[k] ∧ (∀ j (hj : j < x.length) (hj' : j < y.length), j < k → x[j] = y[j]) ∧
        cmpLoop eqExact (openView x r) (openView y r') (x.length + 1 + 1) 0 = .ret k := by
      intro r r'
      obtain ⟨k, hk, _, hk2, hk3, hk4⟩ := cmpLoop_ok eqExact (rest := r) (rest' := r') hl hb
        x.length 0 (x.length + 1 + 1) (by omega) (by omega)
      by_cases hkl : k < x.length
      · refine ⟨k, hkl, by omega, ?_, ?_, hk⟩
        · have := hk4 hkl (by omega); simpa [eqExact] using this
        · intro j hj hj' hjk
          have := hk3 j hj hj' (by omega) hjk; simpa [eqExact] using this
      · refine absurd (List.ext_getElem hl fun j hj hj' => ?_) hne
        have := hk3 j hj hj' (by omega) (by omega); simpa [eqExact] using this
    obtain ⟨k, hk, hk', hd, hbef, e⟩ := key r1 r2
    obtain ⟨l, hl1, hl2, hd', hbef', e'⟩ := key r1' r2'
    have hkl : k = l := by
      rcases Nat.lt_trichotomy k l with h | h | h
      · exact absurd (hbef' k hk hk' h) hd
      · exact h
      · exact absurd (hbef l hl1 hl2 h) hd'
    subst hkl
    rw [if_neg (by omega), if_neg (by omega), if_neg (by omega), if_neg (by omega), e, e', Out.ret_bind',
      Out.ret_bind']
    have hx : ∀ r, rdChar (openView x r).mem (k : Int) = .ret x[k] := fun r => rdChar_some hk
    have hy : ∀ r, rdChar (openView y r).mem (k : Int) = .ret y[k] := fun r => rdChar_some hk'
    rw [hx, hx, hy, hy]
  · have hA : ¬ x.length + 1 < y.length + 1 := by omega
    have hB : x.length + 1 > y.length + 1 := by omega
    rw [if_neg hA, if_pos hB, if_neg hA, if_pos hB]

/-! ## A string appended to itself -/

theorem appendSelf_ok {P : Params} {t : Str} {a : SState} {b : Block Byte} {sl : List (Cell Byte)}
    (R : SRep P t a b sl) (hfit : a.text.length + a.text.length + 1 ≤ a.bytes)
    (hkeep : P.thr = 0 ∨ a.bytes ≤ (a.text.length + a.text.length + 1) * P.thr)
    (hsmall : SFits (a.text.length + a.text.length + 1)) :
    SRes P (strAppendSrc t (.self b.id 0) t.s.v.size) stSuccess ⟨a.text ++ a.text, a.bytes⟩ := by
  have hs := hsmall
  unfold SFits at hs
  have hcap : t.s.v.cap = a.bytes := R.rep.cap
  have hroom := R.rep.room
  simp only at hroom
  have hcells : b.cells = a.text ++ [some 0#8] ++ sl := R.rep.cells
  have hneed : sub64 (add64 (a.text.length + 1) (a.text.length + 1)) 1 =
      a.text.length + a.text.length + 1 := by
    rw [add64_eq (by omega), sub64_eq (by omega) (by omega)]; omega
  have hsub : sub64 (a.text.length + 1) 1 = a.text.length := by
    rw [sub64_eq (by omega) (by omega)]; omega
  have hthr := R.rep.thr255
  have hmul : (a.text.length + a.text.length + 1) * P.thr < 18446744073709551616 :=
    Nat.lt_of_le_of_lt (Nat.mul_le_mul_left _ hthr) hs
  -- the resize
  have hres : vecResize t.s (a.text.length + a.text.length + 1) =
      .ret (stSuccess, { t.s with v := { t.s.v with size := a.text.length + a.text.length + 1 } }) := by
    unfold vecResize vecResizeEx
    rw [R.size]
    by_cases h0 : a.text.length = 0
    · rw [if_pos (by omega)]
      have hh : t.s.v.size = a.text.length + a.text.length + 1 := by rw [R.size]; omega
      rw [← hh]
    · rw [if_neg (by omega), if_neg (by omega), Out.ret_bind']
      have hg : shouldGrow (a.text.length + a.text.length + 1) t.s.v.cap = false := by
        simp only [shouldGrow, hcap, decide_eq_false_iff_not]; omega
      have hk : shouldShrink (a.text.length + a.text.length + 1) t.s.v.cap t.s.v.shrink = false := by
        simp only [shouldShrink, hcap, R.rep.shrink, mul64_eq hmul]
        rcases hkeep with h | h
        · simp [h]
        · simp only [Bool.and_eq_false_iff, decide_eq_false_iff_not]
          exact Or.inr (by omega)
      simp [hg, hk, Src.isNull]
  -- the copy
  have hlsl : a.text.length + 1 + sl.length = b.cells.length := by rw [hcells]; simp; omega
  have hsplit : b.cells = a.text ++ (some 0#8 :: sl).take a.text.length ++
      (some 0#8 :: sl).drop a.text.length := by
    rw [List.append_assoc, List.take_append_drop, hcells]; simp
  have hmid : a.text.length = ((some 0#8 :: sl).take a.text.length).length := by simp; omega
  have hpost : 0 < ((some 0#8 :: sl).drop a.text.length).length := by simp; omega
  have hcopy : vecMemcpy { t.s.v with size := a.text.length + a.text.length + 1 } a.text.length
      (.self b.id 0) a.text.length =
      .ret { t.s.v with size := a.text.length + a.text.length + 1,
                        data := some ⟨b.id, a.text ++ a.text ++ (some 0#8 :: sl).drop a.text.length⟩ } := by
    have hrd : readRange b.cells 0 a.text.length = .ret a.text := by
      rw [hcells]; simp [readRange]
    unfold vecMemcpy
    simp only [R.rep.data, withData, memcpyIn]
    rw [if_pos trivial, if_neg (by omega), hrd, Out.ret_bind', hsplit, writeRange_at hmid]
    rfl
  obtain ⟨old, post, hop⟩ : ∃ old post, (some 0#8 :: sl).drop a.text.length = old :: post := by
    cases h : (some 0#8 :: sl).drop a.text.length with
    | nil => rw [h] at hpost; simp at hpost
    | cons o p => exact ⟨o, p, rfl⟩
  have hlen : b.cells.length = (a.text ++ a.text ++ [old] ++ post).length := by
    rw [hsplit, hop]; simp; omega
  have hyl : (a.text ++ a.text ++ [old]).length = a.text.length + a.text.length + 1 := by
    simp; omega
  have R1 := R.rep.setSize (ys := a.text ++ a.text ++ [old]) (rest := post)
    (n := a.text.length + a.text.length + 1) hlen
    ((fits_iff R.one _).2 (by rw [hyl]; exact hsmall)) (by rw [hyl]; exact hfit) hyl.symm
  obtain ⟨s', e, R2⟩ := nullTerminate_ok (t := ⟨⟨{ t.s.v with
      data := some ⟨b.id, a.text ++ a.text ++ [old] ++ post⟩,
      size := a.text.length + a.text.length + 1 }, t.s.w⟩, t.fixed⟩) R1
  have e' : nullTerminate ⟨⟨{ t.s.v with
      size := a.text.length + a.text.length + 1,
      data := some ⟨b.id, a.text ++ a.text ++ (some 0#8 :: sl).drop a.text.length⟩ }, t.s.w⟩, t.fixed⟩ =
      .ret ⟨s', t.fixed⟩ := by
    rw [hop]
    have h3 : a.text ++ a.text ++ old :: post = a.text ++ a.text ++ [old] ++ post := by simp
    rw [h3]
    exact e
  unfold strAppendSrc
  rw [if_neg (by rw [R.size]; omega)]
  simp only
  rw [R.size, hneed, hres, Out.ret_bind', hsub]
  simp only [failed_success, Bool.false_eq_true, if_false]
  rw [hcopy, Out.ret_bind', e', Out.ret_bind']
  exact ⟨_, _, _, rfl, ⟨R2, R.one, R.nod, R.fixed⟩⟩

/-- Truncation in terms of the abstract text. -/
theorem truncate_abs {P : Params} {t : Str} {a : SState} {b : Block Byte} {sl : List (Cell Byte)}
    (R : SRep P t a b sl) (i : Nat) :
    (i < a.text.length → ∃ t', strTruncate t i = .ret (stSuccess, t') ∧
      textOf t' = a.text.take i ∧ Terminated t') ∧
    (a.text.length < i → ∃ t', strTruncate t i = .ret (stOutOfRange, t') ∧ textOf t' = a.text) := by
  obtain ⟨t1, b1, sl1, e1, R1⟩ := sop_abs R (.truncate i) trivial rfl
  have ht := R1.textOf
  have htrunc : strOp t (.truncate i) = strTruncate t i := rfl
  rw [htrunc] at e1
  constructor
  · intro hi
    have hs : sstep P [] a (.truncate i) = (stSuccess, ⟨a.text.take i, trim P a.bytes (i + 1)⟩) := by
      simp only [sstep]
      rw [if_neg (by omega), if_neg (by omega)]
    rw [hs] at e1 ht R1
    exact ⟨t1, e1, ht, R1.terminated⟩
  · intro hi
    have hs : sstep P [] a (.truncate i) = (stOutOfRange, a) := by
      simp only [sstep]
      rw [if_pos (by omega)]
    rw [hs] at e1 ht
    exact ⟨t1, e1, ht⟩

/-- Reserving in terms of the abstract text. -/
theorem reserve_abs {P : Params} {t : Str} {a : SState} {b : Block Byte} {sl : List (Cell Byte)}
    (R : SRep P t a b sl) (hdyn : P.allocator.isSome) {n : Nat} (hn : n < 18446744073709551616) :
    ∃ t', strReserve t n = .ret (stSuccess, t') ∧ textOf t' = a.text ∧ Terminated t' ∧
      n ≤ t'.s.v.cap ∧ (t'.s.v.cap < 18446744073709551616 → n ≤ strGetCapacity t' + 1) := by
  obtain ⟨t1, b1, sl1, e1, R1⟩ := sop_abs R (.reserve n) hn rfl
  have hcap := R1.rep.cap
  have hcap1 := R1.rep.cap1
  have ht := R1.textOf
  have hs : ∃ c, n ≤ c ∧ sstep P [] a (.reserve n) = (stSuccess, ⟨a.text, c⟩) := by
    simp only [sstep]
    by_cases hle : n ≤ a.bytes
    · rw [if_pos hle]; exact ⟨a.bytes, hle, rfl⟩
    · rw [if_neg hle, if_pos hdyn]; exact ⟨n, Nat.le_refl _, rfl⟩
  obtain ⟨c, hc, hs⟩ := hs
  rw [hs] at e1 ht hcap hcap1 R1
  simp only at hcap hcap1 ht
  refine ⟨t1, e1, ht, R1.terminated, by omega, ?_⟩
  intro hlt
  unfold strGetCapacity
  rw [sub64_eq (by omega) hlt]
  omega

/-- Indexing in terms of the abstract text. -/
theorem index_abs {P : Params} {t : Str} {a : SState} {b : Block Byte} {sl : List (Cell Byte)}
    (R : SRep P t a b sl) {i : Nat} (hi : i < 18446744073709551616) :
    (i < a.text.length → strGetChar (strView t) (some t.s.v.esz) i = .ret (stSuccess, a.text[i]?) ∧
      strGetCharMutable t i = (stSuccess, some i) ∧
      ∀ c, ∃ t', strSetChar t i c = .ret (stSuccess, t') ∧ textOf t' = a.text.set i (some c)) ∧
    (a.text.length ≤ i → strGetChar (strView t) (some t.s.v.esz) i = .ret (stOutOfRange, none) ∧
      strGetCharMutable t i = (stOutOfRange, none) ∧
      ∀ c, strSetChar t i c = .ret (stOutOfRange, t)) := by
  have hs := R.small
  unfold SFits at hs
  have hsz : (strView t).size = a.text.length + 1 := R.size
  have hesz : t.s.v.esz = 1 := R.rep.esz.trans R.one
  have hmem : (strView t).mem = a.text ++ [some 0#8] ++ sl := by
    unfold strView
    rw [R.rep.data]
    exact R.rep.cells
  constructor
  · intro hlt
    have hadd : add64 i 1 = i + 1 := add64_eq (by omega)
    refine ⟨?_, ?_, ?_⟩
    · unfold strGetChar
      rw [hadd, hsz, if_neg (by omega), if_neg (by omega), hmem, List.append_assoc, hesz]
      simp only [charOffset, mul64_eq (show i * 1 < 18446744073709551616 by omega), Nat.mul_one]
      rw [List.getElem?_append_left hlt, List.getElem?_eq_getElem hlt]
    · unfold strGetCharMutable vecGetPointer
      rw [hadd, R.size, if_neg (by omega), if_neg (by omega)]
    · intro c
      obtain ⟨t1, b1, sl1, e1, R1⟩ := sop_abs R (.setChar i c) hi rfl
      have ht := R1.textOf
      have hst : sstep P [] a (.setChar i c) = (stSuccess, ⟨a.text.set i (some c), a.bytes⟩) := by
        simp only [sstep]
        rw [if_pos hlt]
      rw [hst] at e1 ht
      exact ⟨t1, e1, ht⟩
  · intro hge
    by_cases hw : i + 1 < 18446744073709551616
    · have hadd : add64 i 1 = i + 1 := add64_eq hw
      refine ⟨?_, ?_, ?_⟩
      · unfold strGetChar
        rw [hadd, hsz, if_pos (by omega)]
      · unfold strGetCharMutable
        rw [hadd, R.size, if_pos (by omega)]
      · intro c
        unfold strSetChar
        rw [hadd, R.size, if_pos (by omega)]
    · have hadd : add64 i 1 = 0 := by unfold add64; omega
      refine ⟨?_, ?_, ?_⟩
      · unfold strGetChar
        rw [hadd, hsz, if_neg (by omega), if_pos (by omega)]
      · unfold strGetCharMutable vecGetPointer
        rw [hadd, R.size, if_neg (by omega), if_pos (by omega)]
      · intro c
        unfold strSetChar vecSet
        rw [hadd, R.size, if_neg (by omega)]
        simp only [Src.isNull, Bool.false_eq_true, if_false]
        rw [if_pos (by omega), Out.ret_bind']

end Zy
