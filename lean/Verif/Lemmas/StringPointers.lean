import Verif.Lemmas.Pointers
import Verif.Lemmas.StringReach
import Verif.Model.StringPointers
import Verif.Spec.StringPointers

/-! # Lemmas: where the characters of a string are -/

namespace Zy

open Spec

theorem nullTerminate_blk (t : Str) :
    Ensures (nullTerminate t) fun r => blkOf r.s = blkOf t.s ∧ r.s.w = t.s.w :=
  (strPoke_keeps _ _ _).bind fun _ hv => ensures_ret ⟨hv.data, rfl⟩

section
variable {P : Params} {t : Str} {a : SState} {b : Block Byte} {sl : List (Cell Byte)}

theorem SRep.grants (R : SRep P t a b sl) : Grants t.s := R.rep.reliable_now

theorem resize_at (R : SRep P t a b sl) {n : Nat} (hn : SFits n) (h1 : 1 ≤ n) :
    Ensures (vecResize t.s n) fun r => Loc (n ≠ a.text.length + 1 ∧ Refit P a.bytes n) t.s r.2 := by
  refine (op_loc R.rep (.resize n none) ((fits_iff R.one n).2 hn)).imp fun r hr => hr.iff ?_
  simp only [Moves, Refit, List.length_append, List.length_singleton]
  exact ⟨fun h => ⟨h.2.1, h.1, h.2.2, .inl (by omega)⟩, fun h => ⟨h.2.1, h.1, h.2.2.1⟩⟩

theorem append_at (R : SRep P t a b sl) (src : Src Byte) (n : Nat) (hf : SFits (a.text.length + n + 1)) :
    Ensures (strAppendSrc t src (n + 1)) fun r =>
      Loc (n ≠ 0 ∧ Refit P a.bytes (a.text.length + n + 1)) t.s r.2.s := by
  have hs := R.small
  have hf' := hf
  unfold SFits at hf'
  refine ensures_ite (fun h => by cases h) fun _ => ?_
  have e : sub64 (add64 t.s.v.size (n + 1)) 1 = a.text.length + n + 1 := by
    rw [R.size, add64_eq (by omega), sub64_eq (by omega) (by omega)]
    omega
  show Ensures ((vecResize t.s (sub64 (add64 t.s.v.size (n + 1)) 1)).bind _) _
  rw [e]
  refine (resize_at R hf (by omega)).bind fun r hr => ?_
  have hr' := hr.iff (t' := n ≠ 0 ∧ Refit P a.bytes (a.text.length + n + 1))
    ⟨fun h => ⟨by omega, h.2⟩, fun h => ⟨by omega, h.2⟩⟩
  refine ensures_ite (fun _ => ensures_ret hr') fun _ => (vecMemcpy_keeps _ _ _ _).bind fun v hv =>
    (nullTerminate_blk _).bind fun q hq => ensures_ret (hr'.same (hq.1.trans hv.data) hq.2)

theorem appendEx_at (R : SRep P t a b sl) (src : Src Byte) (m j n : Nat) (hj : j + n < 18446744073709551616)
    (hf : SFits (a.text.length + m + 1)) :
    Ensures (strAppendExSrc t src (m + 1) j n) fun r =>
      Loc ((j + n ≤ m ∧ n ≠ 0) ∧ Refit P a.bytes (a.text.length + n + 1)) t.s r.2.s := by
  have hs := R.small
  refine ensures_ite (fun h => by cases h) fun _ => ensures_ite (fun h => ?_) fun h => ?_
  · rw [add64_eq hj] at h
    exact ensures_ret ((Same.refl _).loc fun h' => by omega)
  · rw [add64_eq hj] at h
    have hf2 : SFits (a.text.length + n + 1) := hf.mono (by omega)
    have hf' := hf2
    unfold SFits at hf'
    have e : add64 t.s.v.size n = a.text.length + n + 1 := by
      rw [R.size, add64_eq (by omega)]
      omega
    show Ensures ((vecResize t.s (add64 t.s.v.size n)).bind _) _
    rw [e]
    refine (resize_at R hf2 (by omega)).bind fun r hr => ?_
    have hr' := hr.iff (t' := (j + n ≤ m ∧ n ≠ 0) ∧ Refit P a.bytes (a.text.length + n + 1))
      ⟨fun h => ⟨by omega, h.2⟩, fun h => ⟨by omega, h.2⟩⟩
    refine ensures_ite (fun _ => ensures_ret hr') fun _ => (vecMemcpy_keeps _ _ _ _).bind fun v hv =>
      (nullTerminate_blk _).bind fun q hq => ensures_ret (hr'.same (hq.1.trans hv.data) hq.2)

theorem insert_at (R : SRep P t a b sl) (src : Src Byte) (hx : src.isNull = false) {i n : Nat}
    (hi : i ≤ a.text.length) (hf : SFits (a.text.length + n + 1)) :
    Ensures (vecInsertRange t.s i src n) fun r =>
      Loc (n ≠ 0 ∧ P.allocator.isSome ∧ a.bytes < a.text.length + n + 1) t.s r.2 := by
  unfold SFits at hf
  refine (vecInsertRange_loc t.s i src n R.grants hx).imp fun r hr => hr.iff ?_
  rw [R.rep.allocator, R.size, R.rep.cap, add64_eq (by omega)]
  show _ ↔ _ ∧ _ ∧ a.bytes < _
  exact ⟨fun h => ⟨h.2.1, ⟨h.1, by omega⟩, by omega⟩, fun h => ⟨h.2.1.1, h.1, by omega⟩⟩

theorem checkTerminate_at {p : Prop} {r : Status × VS Byte} (h : Loc p t.s r.2) :
    Ensures (checkTerminate t r) fun q => Loc p t.s q.2.s :=
  ensures_ite (fun _ => ensures_ret h) fun _ => (nullTerminate_blk _).bind fun _ hq =>
    ensures_ret (h.same hq.1 hq.2)

theorem delete_at (R : SRep P t a b sl) {i n : Nat} (hi : i + n ≤ a.text.length) :
    Ensures (vecDeleteRange t.s i n) fun r =>
      Loc (n ≠ 0 ∧ P.allocator.isSome ∧ Loose P a.bytes (a.text.length + 1 - n)) t.s r.2 := by
  have hs := R.small
  refine (op_loc R.rep (.deleteRange i n) (by show i + n < _; omega)).imp fun r hr => hr.iff ?_
  simp only [Moves, List.length_append, List.length_singleton]
  exact ⟨fun h => ⟨h.2.1, ⟨h.1, by omega⟩, h.2.2⟩, fun h => ⟨h.2.1.1, h.1, h.2.2⟩⟩

theorem case_at (f : Byte → Byte) (t : Str) (i n : Nat) :
    Ensures (strCaseEx f t i n) fun r => Loc False t.s r.2.s :=
  ensures_ite (fun _ => ensures_ret ((Same.refl _).loc id)) fun _ => (caseLoop_keeps f _ _ _).bind fun _ hv =>
    ensures_ret (((Same.refl t.s).loc id).same hv.data rfl)

theorem sop_loc (R : SRep P t a b sl) (op : SOp) (hd : SInDomain a op) :
    Ensures (strOp t op) fun r => Loc (SMoves P a op) t.s r.2.s := by
  have hs := R.small
  cases op with
  | append x =>
    have hd' : SFits (a.text.length + x.length + 1) := hd
    refine (append_at R (.ext (textView x).mem) x.length hd').imp fun r hr => hr.iff ?_
    simp only [SMoves, elems_ne_nil]
  | appendEx x j n => exact appendEx_at R _ x.length j n hd.2 hd.1
  | insert i x =>
    show Ensures (strInsert t i (textView x)) _
    unfold strInsert
    have h0 : ¬ (textView x).size = 0 := by simp [textView]
    rw [if_neg h0, R.size]
    refine ensures_ite (fun h => ?_) fun h => ensures_ite (fun h' => ?_) fun h' => ?_
    · refine (append_at R _ x.length hd).imp fun r hr => hr.iff ?_
      simp only [SMoves, elems_ne_nil]
      exact ⟨fun q => by rcases q with q | q; exact q.2; omega, fun q => .inl ⟨h, q⟩⟩
    · refine ensures_ret ((Same.refl _).loc fun q => ?_)
      simp only [SMoves] at q
      omega
    · have e : sub64 (textView x).size 1 = x.length := by
        have hd' : SFits (a.text.length + x.length + 1) := hd
        unfold SFits at hd'
        show sub64 (x.length + 1) 1 = _
        rw [sub64_eq (by omega) (by omega)]
        omega
      rw [e]
      refine (insert_at R (.ext (textView x).mem) rfl (by omega) hd).bind fun r hr => ?_
      have hr' : Loc (SMoves P a (.insert i x)) t.s r.2 := hr.iff (by
        simp only [SMoves, elems_ne_nil]
        exact ⟨fun q => by rcases q with q | q; omega; exact q.2, fun q => .inr ⟨by omega, q⟩⟩)
      exact ensures_ite (fun _ => ensures_ret hr') fun _ => ensures_ret hr'
  | insertEx i x j n =>
    show Ensures (strInsertEx t i (textView x) j n) _
    unfold strInsertEx
    have h0 : ¬ (textView x).size = 0 := by simp [textView]
    rw [if_neg h0, R.size]
    refine ensures_ite (fun h => ?_) fun h => ensures_ite (fun h' => ?_) fun h' => ensures_ite (fun h2 => ?_) fun h2 => ?_
    · refine (appendEx_at R _ x.length j n hd.2 hd.1).imp fun r hr => hr.iff ?_
      simp only [SMoves]
      exact ⟨fun q => by rcases q with q | q; exact q.2; omega, fun q => .inl ⟨h, q⟩⟩
    · refine ensures_ret ((Same.refl _).loc fun q => ?_)
      simp only [SMoves] at q
      omega
    · refine ensures_ret ((Same.refl _).loc fun q => ?_)
      rw [add64_eq hd.2] at h2
      simp only [textView] at h2
      simp only [SMoves] at q
      omega
    · rw [add64_eq hd.2] at h2
      simp only [textView] at h2
      refine (insert_at R _ rfl (by omega) (hd.1.mono (by omega))).bind fun r hr => ?_
      have hr' : Loc (SMoves P a (.insertEx i x j n)) t.s r.2 := hr.iff (by
        simp only [SMoves]
        exact ⟨fun q => by rcases q with q | q; omega; exact ⟨q.2.1.2, q.2.2⟩,
          fun q => .inr ⟨by omega, ⟨by omega, q.1⟩, q.2⟩⟩)
      exact ensures_ite (fun _ => ensures_ret hr') fun _ => ensures_ret hr'
  | delete i n =>
    show Ensures (strDelete t i n) _
    unfold strDelete
    rw [add64_eq hd, R.size]
    refine ensures_ite (fun h => ?_) fun h => ?_
    · refine ensures_ret ((Same.refl _).loc fun q => ?_)
      simp only [SMoves] at q
      omega
    · refine (delete_at R (by omega)).bind fun r hr => checkTerminate_at (hr.iff ?_)
      simp only [SMoves]
      exact ⟨fun q => ⟨q.1.1, q.2⟩, fun q => ⟨⟨q.1, by omega⟩, q.2⟩⟩
  | truncate i =>
    show Ensures (strTruncate t i) _
    unfold strTruncate
    rw [R.size]
    refine ensures_ite (fun h => ?_) fun h => ?_
    · refine ensures_ret ((Same.refl _).loc fun q => ?_)
      simp only [SMoves] at q
      omega
    · have e : sub64 (sub64 (a.text.length + 1) i) 1 = a.text.length - i := by
        rw [sub64_eq (a := a.text.length + 1) (b := i) (by omega) (by omega), sub64_eq (by omega) (by omega)]
        omega
      rw [e]
      refine (delete_at R (by omega)).bind fun r hr => checkTerminate_at (hr.iff ?_)
      simp only [SMoves]
      rw [show a.text.length + 1 - (a.text.length - i) = i + 1 by omega]
      exact ⟨fun q => ⟨by omega, q.2⟩, fun q => ⟨by omega, q.2⟩⟩
  | clear =>
    refine (op_loc R.rep .clear trivial).bind fun r hr => ?_
    have hr' : Loc (SMoves P a .clear) t.s r.2 := hr.iff (by
      simp only [SMoves, Moves]
      exact ⟨fun q => ⟨q.1, by simp, q.2⟩, fun q => ⟨q.1, q.2.2⟩⟩)
    exact ensures_ite (fun _ => ensures_ret hr') fun _ => (strStart_keeps _).bind fun _ hv =>
      ensures_ret (hr'.same hv.data rfl)
  | setChar i c =>
    exact ensures_ite (fun _ => ensures_ret ((Same.refl _).loc id)) fun _ => (vecSet_loc _ _ _).bind fun _ h =>
      ensures_ret h
  | lower i n => exact case_at _ t i n
  | upper i n => exact case_at _ t i n
  | resize n =>
    have hd' : SFits (n + 1) := hd
    have hd2 := hd'
    unfold SFits at hd2
    show Ensures (strResize t n) _
    unfold strResize
    rw [add64_eq (by omega)]
    refine (resize_at R hd' (by omega)).bind fun r hr => checkTerminate_at (hr.iff ?_)
    simp only [SMoves]
    exact ⟨fun q => ⟨by omega, q.2⟩, fun q => ⟨by omega, q.2⟩⟩
  | reserve c =>
    refine (op_loc R.rep (.reserve c) (by
      show c * P.esz < _
      rw [R.one, Nat.mul_one]
      exact hd)).bind fun r hr => ensures_ret hr
  | shrinkToFit =>
    refine (op_loc R.rep .shrinkToFit trivial).bind fun r hr => ensures_ret (hr.iff ?_)
    simp only [SMoves, Moves]
    exact ⟨fun q => ⟨q, .inl (by simp)⟩, fun q => q.1⟩

/-! ## Characters that are spared -/

theorem appendText_elem {x : List (Cell Byte)} {k : Nat} (hk : k < a.text.length) :
    (appendText P a x).2.text[k]? = a.text[k]? := by
  unfold appendText
  split
  · rfl
  · split
    · rfl
    · exact List.getElem?_append_left hk

theorem insertText_elem {i : Nat} {x : List (Cell Byte)} {k : Nat} (hk : k < a.text.length) (hi : k < i) :
    (insertText P a i x).2.text[k]? = a.text[k]? := by
  unfold insertText
  split
  · rfl
  · split
    · rfl
    · show (a.text.take i ++ x ++ a.text.drop i)[k]? = _
      rw [List.append_assoc, List.getElem?_append_left (by rw [List.length_take]; omega),
        List.getElem?_take_of_lt hi]

theorem mapRange_elem {f : Byte → Byte} {i n k : Nat} (hin : i + n ≤ a.text.length) (h : k < i ∨ i + n ≤ k) :
    (mapRange f a.text i n)[k]? = a.text[k]? := by
  unfold mapRange
  rcases h with h | h
  · rw [List.append_assoc, List.getElem?_append_left (by rw [List.length_take]; omega),
      List.getElem?_take_of_lt h]
  · rw [List.getElem?_append_right (by simp; omega), List.getElem?_drop]
    congr 1
    simp
    omega

theorem sspares_elem {junk : List (Cell Byte)} {op : SOp} {k : Nat} (hk : k < a.text.length) (h : SSpares k op) :
    (sstep P junk a op).2.text[k]? = a.text[k]? := by
  cases op with
  | append x => exact appendText_elem hk
  | appendEx x j n =>
    simp only [sstep]
    split
    · rfl
    · exact appendText_elem hk
  | insert i x =>
    simp only [sstep]
    split
    · exact appendText_elem hk
    · split
      · rfl
      · exact insertText_elem hk h
  | insertEx i x j n =>
    simp only [sstep]
    split
    · rfl
    · split
      · exact appendText_elem hk
      · exact insertText_elem hk h
  | delete i n =>
    have h' : k < i := h
    simp only [sstep]
    split
    · rfl
    · split
      · rfl
      · rw [List.getElem?_append_left (by rw [List.length_take]; omega), List.getElem?_take_of_lt h']
  | truncate i =>
    simp only [sstep]
    split
    · rfl
    · split
      · rfl
      · exact List.getElem?_take_of_lt h
  | clear => exact h.elim
  | setChar i c =>
    simp only [sstep]
    split
    · exact List.getElem?_set_ne (Ne.symm h)
    · rfl
  | lower i n =>
    simp only [sstep]
    split
    · rfl
    · exact mapRange_elem (by omega) h
  | upper i n =>
    simp only [sstep]
    split
    · rfl
    · exact mapRange_elem (by omega) h
  | resize n =>
    simp only [sstep]
    split
    · rfl
    · split
      · exact List.getElem?_take_of_lt h
      · split
        · rfl
        · exact List.getElem?_append_left hk
  | reserve c =>
    simp only [sstep]
    split
    · rfl
    · split <;> rfl
  | shrinkToFit =>
    simp only [sstep]
    split <;> rfl

/-! ## Views -/

theorem keepView_rep (R : SRep P t a b sl) {i n : Nat} (hw : i + n < 18446744073709551616) (k : KeptView) :
    (keepView t i n).2 = some k ↔ i + n ≤ a.text.length ∧ k = ⟨⟨b.id, i⟩, n⟩ := by
  unfold keepView
  rw [add64_eq hw, R.size, R.rep.data]
  by_cases h : i + n ≤ a.text.length
  · rw [if_neg (by omega)]
    simp [h, eq_comm]
  · rw [if_pos (by omega)]
    simp [h]

theorem seeView_rep (R : SRep P t a b sl) (i n : Nat) :
    seeView t ⟨⟨b.id, i⟩, n⟩ = .ret ⟨(a.text ++ [some 0#8] ++ sl).drop i, n⟩ := by
  unfold seeView
  rw [R.rep.data]
  simp only [withData, if_true]
  rw [R.rep.cells]

theorem seeView_gone (R : SRep P t a b sl) {k : KeptView} (h : k.ptr.blk ≠ b.id) : seeView t k = .ub .uaf := by
  unfold seeView
  rw [R.rep.data]
  simp only [withData]
  rw [if_neg h]

theorem take_view {i n : Nat} {y : List (Cell Byte)} (h : n = 0 ∨ i + n ≤ a.text.length) :
    ((a.text ++ y).drop i).take n = (a.text.drop i).take n := by
  rcases h with rfl | h
  · rw [List.take_zero, List.take_zero]
  rw [List.drop_append_of_le_length (by omega), List.take_append_of_le_length (by simp; omega)]

/-- Equal characters make equal ranges. -/
theorem range_eq {x y : List (Cell Byte)} {i n : Nat} (h : ∀ k, i ≤ k → k < i + n → y[k]? = x[k]?) :
    (y.drop i).take n = (x.drop i).take n := by
  apply List.ext_getElem?
  intro k
  by_cases hk : k < n
  · rw [List.getElem?_take_of_lt hk, List.getElem?_take_of_lt hk, List.getElem?_drop, List.getElem?_drop,
      h (i + k) (by omega) (by omega)]
  · rw [List.getElem?_take_eq_none (by omega), List.getElem?_take_eq_none (by omega)]

theorem sstep_loc (R : SRep P t a b sl) {op : SOp} (hd : SInDomain a op) {st : Status} {t' : Str}
    (h : strOp t op = .ret (st, t')) :
    ∃ junk b' sl', junk.length = sjunkLen a op ∧ SRep P t' (sstep P junk a op).2 b' sl' ∧
      (SMoves P a op → b'.id = t.s.w.nextBlk) ∧ (¬ SMoves P a op → b'.id = b.id) := by
  obtain ⟨junk, st', t'', a', b', sl', hj, hstep, hop, R'⟩ := sop_ok R op hd
  have hl := sop_loc R op hd
  rw [hop] at h hl
  obtain ⟨rfl, rfl⟩ : st' = st ∧ t'' = t' := by simpa using h
  refine ⟨junk, b', sl', hj, ?_, loc_rep R.rep R'.rep (hl _ rfl)⟩
  rw [hstep]
  exact R'

theorem smoves_dyn {op : SOp} (h : SMoves P a op) : P.allocator.isSome := by
  cases op with
  | append x => exact h.2.1
  | appendEx x j n => exact h.2.1
  | insert i x =>
    rcases h with h | h
    · exact h.2.2.1
    · exact h.2.2.1
  | insertEx i x j n =>
    rcases h with h | h
    · exact h.2.2.1
    · exact h.2.2.1
  | delete i n => exact h.2.1
  | truncate i => exact h.2.1
  | clear => exact h.1
  | setChar i c => exact h.elim
  | lower i n => exact h.elim
  | upper i n => exact h.elim
  | resize n => exact h.2.1
  | reserve c => exact h.1
  | shrinkToFit => exact h

end

/-- A view into an older block is never good again. -/
theorem view_gone_run {P : Params} {k : KeptView} : ∀ (ops : List SOp) {t t' : Str} {a : SState} {b : Block Byte}
    {sl : List (Cell Byte)} {sts : List Status}, SRep P t a b sl → P.allocator.isSome → k.ptr.blk < b.id →
    SAllInDomain P a ops → runStr t ops = .ret (sts, t') → seeView t' k = .ub .uaf
  | [], t, t', a, b, sl, sts, R, _, hb, _, hr => by
    obtain ⟨_, rfl⟩ : _ ∧ t = t' := by simpa [runStr] using hr
    exact seeView_gone R (by omega)
  | op :: ops, t, t', a, b, sl, sts, R, hP, hb, .cons hd ht, hr => by
    cases h1 : strOp t op with
    | ub w => simp [runStr, h1] at hr
    | ret r =>
      simp only [runStr, h1, Out.ret_bind'] at hr
      cases h2 : runStr r.2 ops with
      | ub w => simp [h2] at hr
      | ret q =>
        simp only [h2, Out.ret_bind', Out.ret.injEq, Prod.mk.injEq] at hr
        obtain ⟨junk, b', sl', hj, R', hm, hn⟩ := sstep_loc R hd (t' := r.2) (st := r.1) h1
        have hq' : runStr r.2 ops = .ret (q.1, t') := by rw [h2, ← hr.2]
        refine view_gone_run ops R' hP ?_ (ht junk hj) hq'
        by_cases hmv : SMoves P a op
        · have := hm hmv
          have := R.rep.old hP
          omega
        · rw [hn hmv]
          exact hb

/-- Calls that leave the range alone leave the view good. -/
theorem view_rest_run {P : Params} {i n : Nat} {x : List (Cell Byte)} : ∀ (ops : List SOp) {t t' : Str} {a : SState}
    {b : Block Byte} {sl : List (Cell Byte)} {sts : List Status}, SRep P t a b sl → n = 0 ∨ i + n ≤ a.text.length →
    (a.text.drop i).take n = x → SAllInDomain P a ops → SAtRest P i n a ops → runStr t ops = .ret (sts, t') →
    ∃ v, seeView t' ⟨⟨b.id, i⟩, n⟩ = .ret v ∧ v.size = n ∧ v.mem.take n = x
  | [], t, t', a, b, sl, sts, R, hi, hx, _, _, hr => by
    obtain ⟨_, rfl⟩ : _ ∧ t = t' := by simpa [runStr] using hr
    refine ⟨_, seeView_rep R i n, rfl, ?_⟩
    show ((a.text ++ [some 0#8] ++ sl).drop i).take n = x
    rw [List.append_assoc, take_view hi, hx]
  | op :: ops, t, t', a, b, sl, sts, R, hi, hx, .cons hd ht, .cons hmv hs hq, hr => by
    cases h1 : strOp t op with
    | ub w => simp [runStr, h1] at hr
    | ret r =>
      simp only [runStr, h1, Out.ret_bind'] at hr
      cases h2 : runStr r.2 ops with
      | ub w => simp [h2] at hr
      | ret q =>
        simp only [h2, Out.ret_bind', Out.ret.injEq, Prod.mk.injEq] at hr
        obtain ⟨junk, b', sl', hj, R', _, hn⟩ := sstep_loc R hd (t' := r.2) (st := r.1) h1
        have hq' : runStr r.2 ops = .ret (q.1, t') := by rw [h2, ← hr.2]
        have he : ∀ k, i ≤ k → k < i + n → (sstep P junk a op).2.text[k]? = a.text[k]? :=
          fun k h3 h4 => sspares_elem (by omega) (hs k h3 h4)
        have hi' : n = 0 ∨ i + n ≤ (sstep P junk a op).2.text.length := by
          by_cases h0 : n = 0
          · exact .inl h0
          · have := he (i + n - 1) (by omega) (by omega)
            rw [List.getElem?_eq_getElem (show i + n - 1 < a.text.length by omega)] at this
            have := (List.getElem?_eq_some_iff.1 this).1
            exact .inr (by omega)
        have := view_rest_run ops R' hi' ((range_eq he).trans hx) (ht junk hj) (hq junk hj) hq'
        rw [hn hmv] at this
        exact this

/-! ## Appending into reserved room -/

theorem appendText_room {P : Params} (h0 : P.thr = 0) {a : SState} {x : List (Cell Byte)}
    (h : a.text.length + x.length + 1 ≤ a.bytes) :
    (appendText P a x).2.text.length = a.text.length + x.length ∧ (appendText P a x).2.bytes = a.bytes := by
  unfold appendText
  by_cases hx : x = []
  · subst hx
    exact ⟨rfl, rfl⟩
  · rw [if_neg hx]
    simp only [extend]
    rw [if_pos h]
    simp only [trim]
    rw [if_neg fun q => q.2.1 h0]
    exact ⟨List.length_append, rfl⟩

theorem rest_appends {P : Params} (h0 : P.thr = 0) {i n : Nat} : ∀ (xs : List (List (Cell Byte))) {a : SState},
    a.text.length + xs.flatten.length + 1 ≤ a.bytes → SAtRest P i n a (xs.map .append)
  | [], a, _ => .nil a
  | x :: xs, a, h => by
    simp only [List.flatten_cons, List.length_append] at h
    refine .cons (fun hm => ?_) (fun _ _ _ => trivial) fun junk _ => ?_
    · rcases hm.2.2 with h1 | h1
      · omega
      · exact h1.1 h0
    · obtain ⟨e1, e2⟩ := appendText_room h0 (a := a) (x := x) (by omega)
      refine rest_appends h0 xs ?_
      show (appendText P a x).2.text.length + _ + 1 ≤ (appendText P a x).2.bytes
      rw [e1, e2]
      omega

theorem domain_appends {P : Params} (h0 : P.thr = 0) (xs : List (List (Cell Byte))) : ∀ {a : SState},
    a.text.length + xs.flatten.length + 1 ≤ a.bytes → SFits (a.text.length + xs.flatten.length + 1) →
    SAllInDomain P a (xs.map .append) := by
  induction xs with
  | nil => exact fun {a} _ _ => .nil a
  | cons x xs ih =>
    intro a h hf
    simp only [List.flatten_cons, List.length_append] at h hf
    have h1 : SFits (a.text.length + x.length + 1) := hf.mono (by omega)
    have h2 : SFits (a.text.length + x.length + xs.flatten.length + 1) := hf.mono (by omega)
    refine SAllInDomain.cons (op := .append x) h1 fun junk _ => ?_
    obtain ⟨e1, e2⟩ := appendText_room h0 (a := a) (x := x) (by omega)
    refine ih ?_ ?_
    · show (appendText P a x).2.text.length + _ + 1 ≤ (appendText P a x).2.bytes
      rw [e1, e2]
      omega
    · show SFits ((appendText P a x).2.text.length + _ + 1)
      rw [e1]
      exact h2

theorem append_trims {P : Params} (hP : P.allocator.isSome) (h0 : P.thr ≠ 0) {a : SState} {x : List (Cell Byte)}
    (hx : x ≠ []) (hl : (a.text.length + x.length + 1) * P.thr < a.bytes) :
    appendText P a x = (stSuccess, ⟨a.text ++ x, max 1 ((a.text.length + x.length + 1) * P.growth)⟩) := by
  have hpos : 1 ≤ P.thr := by omega
  have hle : a.text.length + x.length + 1 < a.bytes :=
    Nat.lt_of_le_of_lt (Nat.le_mul_of_pos_right _ hpos) hl
  unfold appendText
  rw [if_neg hx]
  simp only [extend]
  rw [if_pos (by omega)]
  simp only [trim]
  rw [if_pos ⟨hP, h0, hl⟩]

theorem append_gives_back {P : Params} {t : Str} {a : SState} {b : Block Byte} {sl : List (Cell Byte)}
    (R : SRep P t a b sl) (hP : P.allocator.isSome) (h0 : P.thr ≠ 0) {x : List (Cell Byte)} (hx : x ≠ [])
    (hl : (a.text.length + x.length + 1) * P.thr < a.bytes) (hf : SFits (a.text.length + x.length + 1)) :
    ∃ t2, strAppend t (textView x) = .ret (stSuccess, t2) ∧
      (sabsOf t2).bytes = max 1 ((a.text.length + x.length + 1) * P.growth) ∧
      ∀ i n k, i + n < 18446744073709551616 → (keepView t i n).2 = some k → seeView t2 k = .ub .uaf := by
  obtain ⟨junk, st', t2, a', b', sl', _, hstep, hop, R'⟩ := sop_ok R (.append x) hf
  have e : sstep P junk a (.append x) = appendText P a x := rfl
  rw [e, append_trims hP h0 hx hl] at hstep
  have e1 : stSuccess = st' := congrArg Prod.fst hstep
  have e2 : _ = a' := congrArg Prod.snd hstep
  subst e1
  refine ⟨t2, hop, ?_, fun i n k hw hk => ?_⟩
  · rw [R'.abs_eq, ← e2]
  · obtain ⟨_, rfl⟩ := (keepView_rep R hw k).1 hk
    have hm := (loc_rep R.rep R'.rep (sop_loc R (.append x) hf _ hop)).1 ⟨hx, hP, .inr ⟨h0, hl⟩⟩
    have := R.rep.old hP
    refine seeView_gone R' ?_
    show b.id ≠ b'.id
    omega

end Zy
