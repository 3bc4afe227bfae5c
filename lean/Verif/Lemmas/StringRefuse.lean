import Verif.Lemmas.StringReach
import Verif.Lemmas.VectorShrink

/-!
# Lemmas about strings whose allocator refuses a request
-/

namespace Zy

open Spec

/-- The string `t` in an environment where the next allocator call returns `st`. -/
def strRefuse (t : Str) (st : Status) : Str := { t with s := refuseNext t.s st }

/-- The string after a refused reallocation to `c` bytes. -/
def strAfter (t : Str) (st : Status) (al c : Nat) : Str := { t with s := afterRefusal t.s st al c }

theorem trim_ne {P : Params} {cap n : Nat} (h : trim P cap n ≠ cap) :
    P.thr ≠ 0 ∧ n * P.thr < cap ∧ trim P cap n = max 1 (n * P.growth) := by
  unfold trim at h ⊢
  split at h
  · rename_i hh; rw [if_pos hh]; exact ⟨hh.2.1, hh.2.2, rfl⟩
  · exact absurd rfl h

theorem ne_nil_of_gap {β : Type} {n m : Nat} {x : List β} (h1 : n + 1 ≤ m) (h2 : m < n + x.length + 1) :
    x ≠ [] := by
  intro h
  subst h
  simp at h2
  omega

variable {P : Params} {t : Str} {a : SState} {b : Block Byte} {sl : List (Cell Byte)}

/-- Refused growth (or shrinking) in the two append functions. -/
theorem refused_appendCore (R : SRep P t a b sl) {st : Status} (hst : failed st = true) {al : Nat}
    (hal : P.allocator = some al) {x : List (Cell Byte)} (hf : SFits (a.text.length + x.length + 1))
    (hb : (appendText P a x).2.bytes ≠ a.bytes) {m : Nat} (hm : m = a.text.length + x.length + 1) :
    vecResize (refuseNext t.s st) m = .ret (st, afterRefusal t.s st al (max 1 (m * P.growth))) := by
  subst hm
  unfold appendText at hb
  by_cases hx : x = []
  · rw [if_pos hx] at hb; exact absurd rfl hb
  have hxp : 0 < x.length := List.length_pos_iff.2 hx
  rw [if_neg hx] at hb
  refine refused_resize R.rep hst hal R.nod (by simp; omega) ((fits_iff R.one _).2 hf) (by omega) ?_ .null
  show a.bytes < _ ∨ _ ∧ _ < a.bytes
  by_cases hle : a.text.length + x.length + 1 ≤ a.bytes
  · unfold extend at hb
    rw [if_pos hle] at hb
    have := trim_ne hb
    exact Or.inr ⟨this.1, this.2.1⟩
  · exact Or.inl (by omega)

theorem refused_append (R : SRep P t a b sl) {st : Status} (hst : failed st = true) {al : Nat}
    (hal : P.allocator = some al) {x rest : List (Cell Byte)} (hf : SFits (a.text.length + x.length + 1))
    (hb : (appendText P a x).2.bytes ≠ a.bytes) :
    strAppend (strRefuse t st) ⟨x ++ rest, x.length + 1⟩ =
      .ret (st, strAfter t st al (max 1 ((a.text.length + x.length + 1) * P.growth))) := by
  have hf' := hf
  unfold SFits at hf'
  have e := refused_appendCore R hst hal hf hb rfl
  have hsz : (strRefuse t st).s.v.size = a.text.length + 1 := R.size
  have hm : sub64 (add64 (a.text.length + 1) (x.length + 1)) 1 = a.text.length + x.length + 1 := by
    rw [add64_eq (by omega), sub64_eq (by omega) (by omega)]; omega
  simp only [strAppend, strAppendSrc]
  rw [if_neg (by omega), hsz, hm, show (strRefuse t st).s = refuseNext t.s st from rfl, e, Out.ret_bind']
  simp only [hst, if_true]
  rfl

theorem refused_appendEx (R : SRep P t a b sl) {st : Status} (hst : failed st = true) {al : Nat}
    (hal : P.allocator = some al) {x rest : List (Cell Byte)} {j n : Nat}
    (hf : SFits (a.text.length + x.length + 1)) (hle : j + n ≤ x.length)
    (hb : (appendText P a ((x.drop j).take n)).2.bytes ≠ a.bytes) :
    ∃ c, strAppendEx (strRefuse t st) ⟨x ++ rest, x.length + 1⟩ j n = .ret (st, strAfter t st al c) := by
  have hf' := hf
  unfold SFits at hf'
  have hxl : ((x.drop j).take n).length = n := by simp; omega
  have e := refused_appendCore R hst hal (hf.mono (by rw [hxl]; omega)) hb rfl
  refine ⟨max 1 ((a.text.length + ((x.drop j).take n).length + 1) * P.growth), ?_⟩
  have hsz : (strRefuse t st).s.v.size = a.text.length + 1 := R.size
  have hm : add64 (a.text.length + 1) n = a.text.length + ((x.drop j).take n).length + 1 := by
    rw [hxl, add64_eq (by omega)]; omega
  simp only [strAppendEx, strAppendExSrc]
  rw [if_neg (by omega), add64_eq (by omega), if_neg (by omega), hsz, hm,
    show (strRefuse t st).s = refuseNext t.s st from rfl, e, Out.ret_bind']
  simp only [hst, if_true]
  rfl

theorem refused_insertCore (R : SRep P t a b sl) {st : Status} (hst : failed st = true) {al : Nat}
    (hal : P.allocator = some al) {x : List (Cell Byte)} {src : Src Byte} (hsrc : src.isNull = false)
    (hf : SFits (a.text.length + x.length + 1)) {i : Nat} (hi : i ≤ a.text.length)
    (hb : (insertText P a i x).2.bytes ≠ a.bytes) {n : Nat} (hn : n = x.length) :
    ∃ c, vecInsertRange (refuseNext t.s st) i src n = .ret (st, afterRefusal t.s st al c) := by
  subst hn
  unfold insertText at hb
  by_cases hx : x = []
  · rw [if_pos hx] at hb; exact absurd rfl hb
  have hxp : 0 < x.length := List.length_pos_iff.2 hx
  rw [if_neg hx] at hb
  have hgt : a.bytes < a.text.length + x.length + 1 := by
    by_cases hle : a.text.length + x.length + 1 ≤ a.bytes
    · simp only [Spec.room, hle, if_true] at hb; exact absurd rfl hb
    · omega
  have hl : (a.text ++ [some 0#8]).length + x.length = a.text.length + x.length + 1 := by simp; omega
  exact ⟨_, refused_insertRange R.rep hst hal hsrc (by omega) (by simp; omega) (by simp only [hl]; exact hgt)
    (by simp only [hl]; exact (fits_iff R.one _).2 hf)⟩

/-- A refused request in any operation other than a deletion. -/
theorem refused_strOp (R : SRep P t a b sl) {st : Status} (hst : failed st = true) {al : Nat}
    (hal : P.allocator = some al) (op : SOp) (hd : SInDomain a op) {junk : List (Cell Byte)}
    (hb : (sstep P junk a op).2.bytes ≠ a.bytes) (h1 : ∀ i n, op ≠ .delete i n) (h2 : ∀ i, op ≠ .truncate i) :
    ∃ c, strOp (strRefuse t st) op = .ret (st, strAfter t st al c) := by
  have hs : (strRefuse t st).s = refuseNext t.s st := rfl
  have hsz : (strRefuse t st).s.v.size = a.text.length + 1 := R.size
  have hsz' : (refuseNext t.s st).v.size = a.text.length + 1 := R.size
  have hcp : (refuseNext t.s st).v.cap = a.bytes := R.rep.cap
  have hsm := R.small
  cases op with
  | append x => exact ⟨_, refused_append R hst hal hd hb⟩
  | appendEx x j n =>
    simp only [sstep] at hb
    split at hb
    · exact absurd rfl hb
    · exact refused_appendEx R hst hal hd.1 (by omega) hb
  | insert i x =>
    have hf : SFits (a.text.length + x.length + 1) := hd
    have hf' := hf
    unfold SFits at hf'
    simp only [sstep] at hb
    simp only [strOp, strInsert]
    rw [if_neg (show ¬(textView x).size = 0 by simp [textView]), hsz]
    by_cases hi : i = a.text.length + 1
    · rw [if_pos hi] at hb ⊢
      exact ⟨_, refused_append R hst hal hf hb⟩
    · rw [if_neg hi] at hb ⊢
      by_cases hi2 : i > a.text.length
      · rw [if_pos hi2] at hb; exact absurd rfl hb
      · rw [if_neg hi2] at hb
        obtain ⟨c, e⟩ := refused_insertCore R hst hal (x := x) (src := .ext (x ++ [some 0#8])) rfl hf (by omega) hb
          (n := sub64 (textView x).size 1) (by
            show sub64 (x.length + 1) 1 = _
            rw [sub64_eq (by omega) (by omega)]; omega)
        refine ⟨c, ?_⟩
        rw [if_neg (show ¬i ≥ a.text.length + 1 by omega), hs,
          show Src.ext (textView x).mem = .ext (x ++ [some 0#8]) from rfl, e, Out.ret_bind']
        simp only [hst, if_true]
        rfl
  | insertEx i x j n =>
    obtain ⟨hf, hw⟩ := hd
    have hf' := hf
    unfold SFits at hf'
    simp only [sstep] at hb
    simp only [strOp, strInsertEx]
    by_cases h0 : i > a.text.length + 1 ∨ j + n > x.length
    · rw [if_pos h0] at hb; exact absurd rfl hb
    rw [if_neg h0] at hb
    rw [if_neg (show ¬(textView x).size = 0 by simp [textView]), hsz]
    by_cases hi : i = a.text.length + 1
    · rw [if_pos hi] at hb ⊢
      exact refused_appendEx R hst hal hf (by omega) hb
    · rw [if_neg hi] at hb ⊢
      have hxl : ((x.drop j).take n).length = n := by simp; omega
      obtain ⟨c, e⟩ := refused_insertCore R hst hal (x := (x.drop j).take n)
        (src := (Src.ext (x ++ [some 0#8])).offset j) rfl (hf.mono (by rw [hxl]; omega)) (by omega) hb hxl.symm
      refine ⟨c, ?_⟩
      rw [if_neg (show ¬i ≥ a.text.length + 1 by omega), add64_eq hw,
        if_neg (show ¬j + n ≥ (textView x).size by simp only [textView]; omega), hs,
        show Src.ext (textView x).mem = .ext (x ++ [some 0#8]) from rfl, e, Out.ret_bind']
      simp only [hst, if_true]
      rfl
  | delete i n => exact absurd rfl (h1 i n)
  | truncate i => exact absurd rfl (h2 i)
  | clear =>
    have ht := trim_ne hb
    have hc1 := R.rep.cap1
    have e := refused_resize R.rep hst hal R.nod (m := 0) (by simp) ((fits_iff R.one _).2 (by simp [SFits]))
      (fun _ => by
        have : trim P a.bytes 0 = 1 := by rw [ht.2.2]; simp
        have h3 : (sstep P junk a .clear).2.bytes = 1 := this
        rw [h3] at hb
        simp only at hc1 ⊢
        omega)
      (Or.inr ⟨ht.1, ht.2.1⟩) .null
    refine ⟨max 1 (0 * P.growth), ?_⟩
    simp only [strOp, strClear, vecClear]
    rw [hs, e, Out.ret_bind']
    simp only [hst, if_true]
    rfl
  | setChar i c =>
    simp only [sstep] at hb
    split at hb <;> exact absurd rfl hb
  | lower i n =>
    simp only [sstep] at hb
    split at hb <;> exact absurd rfl hb
  | upper i n =>
    simp only [sstep] at hb
    split at hb <;> exact absurd rfl hb
  | resize n =>
    have hf : SFits (n + 1) := hd
    have hf' := hf
    unfold SFits at hf'
    simp only [sstep] at hb
    by_cases hn : n = a.text.length
    · rw [if_pos hn] at hb; exact absurd rfl hb
    rw [if_neg hn] at hb
    have hc : a.bytes < n + 1 ∨ (P.thr ≠ 0 ∧ (n + 1) * P.thr < a.bytes) := by
      by_cases hlt : n < a.text.length
      · rw [if_pos hlt] at hb
        have := trim_ne hb
        exact Or.inr ⟨this.1, this.2.1⟩
      · rw [if_neg hlt] at hb
        by_cases hle : n + 1 ≤ a.bytes
        · unfold extend at hb
          rw [if_pos hle] at hb
          have := trim_ne hb
          exact Or.inr ⟨this.1, this.2.1⟩
        · exact Or.inl (by omega)
    have e := refused_resize R.rep hst hal R.nod (m := n + 1) (by simp; omega) ((fits_iff R.one _).2 hf) (by omega) hc
      .null
    refine ⟨max 1 ((n + 1) * P.growth), ?_⟩
    simp only [strOp, strResize, vecResize]
    rw [add64_eq (by omega), hs, e, Out.ret_bind']
    simp only [checkTerminate, hst, if_true]
    rfl
  | reserve c =>
    simp only [sstep] at hb
    by_cases hle : c ≤ a.bytes
    · rw [if_pos hle] at hb; exact absurd rfl hb
    have hc1 : 1 ≤ a.bytes := R.rep.cap1
    refine ⟨c, ?_⟩
    simp only [strOp, strReserve, vecReserve]
    rw [hs, hcp, if_pos (by omega), refused_reallocate R.rep hst hal (by omega)]
    simp only [Out.ret_bind', hst, if_true]
    rfl
  | shrinkToFit =>
    refine ⟨a.text.length + 1, ?_⟩
    simp only [strOp, strShrinkToFit, vecShrinkToFit]
    rw [hs, hsz', refused_reallocate R.rep hst hal (by omega)]
    rfl

/-- Resizing into a capacity that covers the new size does not touch the memory. -/
theorem resize_after (R : SRep P t a b sl) {st : Status} {al c m : Nat} (h1 : a.text.length + 1 < m) (h2 : m ≤ c)
    (hft : m * P.thr < 18446744073709551616) (hthr : P.thr = 0 ∨ c ≤ m * P.thr) :
    vecResize (strAfter t st al c).s m =
      .ret (stSuccess, ⟨{ t.s.v with cap := c, size := m }, (afterRefusal t.s st al c).w⟩) := by
  have hsz : (strAfter t st al c).s.v.size = a.text.length + 1 := R.size
  have hsh : (strAfter t st al c).s.v.shrink = P.thr := R.rep.shrink
  have hcp : (strAfter t st al c).s.v.cap = c := rfl
  have hno : (shouldGrow m c || shouldShrink m c P.thr) = false := by
    simp only [shouldGrow, shouldShrink, mul64_eq hft]
    simp
    clear hft
    omega
  clear hft
  simp only [vecResize, vecResizeEx, hsz]
  rw [if_neg (by omega), if_neg (by omega), Out.ret_bind', hcp, hsh, hno]
  simp only [Bool.false_eq_true, if_false, Out.ret_bind', failed_success, Src.isNull, not_true_eq_false, false_and]
  rfl

theorem terminate_oob {u : Str} {b : Block Byte} {k : Nat} (hdat : u.s.v.data = some b)
    (hk : sub64 u.s.v.size 1 = k) (h : b.cells.length ≤ k) : nullTerminate u = .ub .oob := by
  simp only [nullTerminate, strPoke, withData, hdat, hk]
  rw [if_neg (Nat.not_lt.2 h), Out.ub_bind']

/-- Copying `x` behind the text and terminating it needs more bytes than the block has. -/
theorem copy_oob {b : Block Byte} {v : Vec Byte} {u : Str} {k : Nat} {x rest : List (Cell Byte)}
    (hdat : v.data = some b) (hm : sub64 v.size 1 = k + x.length) (hlt : b.cells.length < k + x.length + 1) :
    (vecMemcpy v k (.ext (x ++ rest)) x.length).bind (fun v' =>
      (nullTerminate { u with s := { u.s with v := v' } }).bind fun t => .ret (stSuccess, t)) = .ub .oob := by
  by_cases hw : k + x.length ≤ b.cells.length
  · have e : vecMemcpy v k (.ext (x ++ rest)) x.length =
        .ret { v with data := some { b with cells := b.cells.take k ++ x ++ b.cells.drop (k + x.length) } } := by
      simp only [vecMemcpy, withData, hdat, memcpyIn, readRange, writeRange]
      rw [if_pos (by simp)]
      simp only [Out.ret_bind', List.drop_zero, List.take_left, if_pos hw]
    have hl : (b.cells.take k ++ x ++ b.cells.drop (k + x.length)).length ≤ k + x.length := by
      clear hm e
      simp
      omega
    have e2 := terminate_oob (u := { u with s := { u.s with v := { v with data := some { b with
      cells := b.cells.take k ++ x ++ b.cells.drop (k + x.length) } } } }) (k := k + x.length) rfl hm hl
    rw [e, Out.ret_bind', e2, Out.ub_bind']
  · have e : vecMemcpy v k (.ext (x ++ rest)) x.length = .ub .oob := by
      simp only [vecMemcpy, withData, hdat, memcpyIn, readRange, writeRange]
      rw [if_pos (by simp)]
      simp only [Out.ret_bind', List.drop_zero, List.take_left, if_neg hw, Out.ub_bind']
    rw [e, Out.ub_bind']

/-- Appending again after a refused growth: the capacity promises room that the block does not have. -/
theorem append_after (R : SRep P t a b sl) {st : Status} {al : Nat} (hal : P.allocator = some al)
    {x rest : List (Cell Byte)} (hf : SFits (a.text.length + x.length + 1))
    (hgt : a.bytes < a.text.length + x.length + 1) (hthr : P.thr = 0 ∨ P.growth ≤ P.thr) :
    strAppend (strAfter t st al (max 1 ((a.text.length + x.length + 1) * P.growth))) ⟨x ++ rest, x.length + 1⟩ =
      .ub .oob := by
  have hlen : a.text.length + 1 ≤ a.bytes := by have := R.rep.len; simp at this; exact this
  have hge := Nat.le_mul_of_pos_right (a.text.length + x.length + 1) R.rep.growth1
  have hle : P.thr = 0 ∨ (a.text.length + x.length + 1) * P.growth ≤ (a.text.length + x.length + 1) * P.thr :=
    hthr.imp_right fun h => Nat.mul_le_mul_left _ h
  have hft := (((fits_iff R.one _).2 hf).mul_growth R.rep.thr255 R.rep.esz1).2.1
  have hbl : b.cells.length = a.bytes := R.rep.dyn (by simp [hal])
  have hm : sub64 (add64 (a.text.length + 1) (x.length + 1)) 1 = a.text.length + x.length + 1 := by
    unfold SFits at hf
    rw [add64_eq (by omega), sub64_eq (by omega) (by omega)]; omega
  have hs1 : sub64 (a.text.length + 1) 1 = a.text.length := by
    unfold SFits at hf
    rw [sub64_eq (by omega) (by omega)]; omega
  have hs2 : sub64 (x.length + 1) 1 = x.length := by
    unfold SFits at hf
    rw [sub64_eq (by omega) (by omega)]; omega
  have hs3 : sub64 (a.text.length + x.length + 1) 1 = a.text.length + x.length := by
    unfold SFits at hf
    rw [sub64_eq (by omega) (by omega)]; omega
  clear hf
  rw [show max 1 ((a.text.length + x.length + 1) * P.growth) = (a.text.length + x.length + 1) * P.growth from
    Nat.max_eq_right (Nat.le_trans (Nat.le_add_left 1 _) hge)]
  have hres := resize_after R (st := st) (al := al) (m := a.text.length + x.length + 1)
    (Nat.lt_of_le_of_lt hlen hgt) hge hft hle
  clear hft hle
  generalize (a.text.length + x.length + 1) * P.growth = c at *
  have hsz : (strAfter t st al c).s.v.size = a.text.length + 1 := R.size
  simp only [strAppend, strAppendSrc]
  rw [if_neg (Nat.succ_ne_zero _), hsz, hm, hres, Out.ret_bind']
  simp only [failed_success, Bool.false_eq_true, if_false]
  rw [hs1, hs2]
  exact copy_oob (u := ⟨⟨t.s.v, (afterRefusal t.s st al c).w⟩, t.fixed⟩) R.rep.data hs3 (hbl ▸ hgt)

theorem SRep.after (R : SRep P t a b sl) (st : Status) (al c : Nat) :
    Zy.textOf (strAfter t st al c) = a.text ∧ Terminated (strAfter t st al c) :=
  ⟨R.textOf, R.terminated⟩

theorem SRep.repair (R : SRep P t a b sl) {st : Status} {al c : Nat} (hal : P.allocator = some al) :
    ∃ t' b' sl', strShrinkToFit (strAfter t st al c) = .ret (stSuccess, t') ∧
      SRep P t' ⟨a.text, a.text.length + 1⟩ b' sl' := by
  obtain ⟨s', b', sl', e, R'⟩ := refused_repair' R.rep (st := st) hal (c := c) (Or.inr (by simp))
  refine ⟨{ t with s := s' }, b', sl', ?_, ?_⟩
  · simp only [strShrinkToFit, strAfter]
    rw [e]; rfl
  · refine ⟨?_, R.one, R.nod, R.fixed⟩
    have hl : max 1 (a.text ++ [some 0#8]).length = a.text.length + 1 := by simp
    simp only [hl] at R'
    exact R'

/-- A refused shrinking in the two deletion functions. -/
theorem refused_deleteCore (R : SRep P t a b sl) {st : Status} (hst : failed st = true) {al : Nat}
    (hal : P.allocator = some al) {i n : Nat} (h : i + n ≤ a.text.length) (hn : n ≠ 0) (ht : P.thr ≠ 0)
    (hc : (a.text.length + 1 - n) * P.thr < a.bytes) :
    ∃ t1 b1 sl1 c c0, (vecDeleteRange (refuseNext t.s st) i n).bind (fun r => checkTerminate (strRefuse t st) r) =
        .ret (st, strAfter t1 st al c) ∧ SRep P t1 ⟨a.text.take i ++ a.text.drop (i + n), c0⟩ b1 sl1 := by
  have hs := R.small
  have hsz : (refuseNext t.s st).v.size = a.text.length + 1 := R.size
  obtain ⟨s1, cells, sl1, e1, R1⟩ := deletePre_ok R.rep (i := i) (n := n) (by simp; omega)
  have hl : ((a.text ++ [some 0#8]).take i ++ (a.text ++ [some 0#8]).drop (i + n)).length =
      a.text.length + 1 - n := by simp; omega
  have e2 := refused_shrinkAfter R1 hst hal ht (by simp only [hl]; exact hc)
  refine ⟨{ t with s := s1 }, ⟨b.id, cells⟩, sl1, max 1 ((a.text.length + 1 - n) * P.growth), a.bytes, ?_, ?_⟩
  · rw [vecDeleteRange_eq, if_neg hn, add64_eq (by omega), hsz, if_neg (by omega), deletePre_refuseNext e1,
      Out.ret_bind', e2, Out.ret_bind']
    simp only [checkTerminate, hst, if_true, hl]
    rfl
  · refine ⟨?_, R.one, R.nod, R.fixed⟩
    rw [List.take_append_of_le_length (by omega), List.drop_append_of_le_length h, ← List.append_assoc] at R1
    simp only [killed_nod R.nod, List.append_nil] at R1
    exact R1

end Zy
