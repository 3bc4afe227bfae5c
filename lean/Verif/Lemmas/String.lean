import Verif.Lemmas.VectorReach
import Verif.Spec.StringRun

/-!
# Helper lemmas: the representation relation of strings and one lemma per operation
-/

namespace Zy

open Spec

/-- The concrete string `t` represents a text with a number of bytes of storage. -/
structure SRep (P : Params) (t : Str) (a : SState) (b : Block Byte) (slack : List (Cell Byte)) :
    Prop where
  rep : Rep P t.s ⟨a.text ++ [some 0#8], a.bytes, []⟩ b slack
  one : P.esz = 1
  nod : P.dtor = false
  fixed : t.fixed = P.allocator.isNone

theorem fits_iff {P : Params} (h : P.esz = 1) (n : Nat) : Fits P n ↔ SFits n := by
  unfold Fits SFits; rw [h, Nat.mul_one]

theorem Spec.SFits.mono {n m : Nat} (h : SFits n) (hm : m ≤ n) : SFits m := by
  unfold SFits at *
  exact Nat.lt_of_le_of_lt (Nat.mul_le_mul_right _ hm) h

theorem Rep.write {α : Type} {P : Params} {s : VS α} {pre mid post dead : List (Cell α)} {cap : Nat}
    {b : Block α} {sl : List (Cell α)} (R : Rep P s ⟨pre ++ mid ++ post, cap, dead⟩ b sl)
    {ys : List (Cell α)} (h : ys.length = mid.length) :
    Rep P ⟨{ s.v with data := some ⟨b.id, pre ++ ys ++ post ++ sl⟩ }, s.w⟩
      ⟨pre ++ ys ++ post, cap, dead⟩ ⟨b.id, pre ++ ys ++ post ++ sl⟩ sl := by
  have hl : (pre ++ ys ++ post ++ sl).length = b.cells.length := by
    rw [R.cells]; simp [h]
  have hl2 : (pre ++ ys ++ post).length = (pre ++ mid ++ post).length := by simp [h]
  exact { R with
    size := by rw [hl2]; exact R.size
    data := rfl
    cells := rfl
    room := by simp only [hl]; exact R.room
    dyn := by intro h; simp only [hl]; exact R.dyn h
    fits := by simp only [hl2]; exact R.fits
    len := by simp only [hl2]; exact R.len
    alloc := by have := R.alloc; unfold AllocOK at *; exact this }

theorem strPoke_ok {P : Params} {s : VS Byte} {pre post dead : List (Cell Byte)} {old : Cell Byte}
    {cap : Nat} {b : Block Byte} {sl : List (Cell Byte)}
    (R : Rep P s ⟨pre ++ [old] ++ post, cap, dead⟩ b sl) {i : Nat} (hi : i = pre.length) (c : Cell Byte) :
    strPoke s.v i c = .ret { s.v with data := some ⟨b.id, pre ++ [c] ++ post ++ sl⟩ } := by
  subst hi
  unfold strPoke
  rw [R.data]
  simp only [withData, R.cells]
  rw [if_pos (by simp)]
  simp

theorem vecMemcpy_ok {P : Params} {s : VS Byte} {pre mid post dead : List (Cell Byte)}
    {cap : Nat} {b : Block Byte} {sl : List (Cell Byte)}
    (R : Rep P s ⟨pre ++ mid ++ post, cap, dead⟩ b sl) {ys rest : List (Cell Byte)} {i n : Nat}
    (hi : i = pre.length) (hn : n = ys.length) (h : ys.length = mid.length) :
    vecMemcpy s.v i (.ext (ys ++ rest)) n =
      .ret { s.v with data := some ⟨b.id, pre ++ ys ++ post ++ sl⟩ } := by
  subst hi hn
  have h1 : readRange (ys ++ rest) 0 ys.length = .ret ys := by simp [readRange]
  have h2 : b.cells = pre ++ mid ++ (post ++ sl) := by rw [R.cells]; simp
  unfold vecMemcpy
  rw [R.data]
  simp only [withData, memcpyIn, h1, Out.ret_bind', h2, writeRange_at h]
  simp

/-- Terminating a string whose last byte is arbitrary. -/
theorem nullTerminate_ok' {P : Params} {t : Str} {xs dead : List (Cell Byte)} {old : Cell Byte}
    {cap : Nat} {b : Block Byte} {sl : List (Cell Byte)}
    (R : Rep P t.s ⟨xs ++ [old], cap, dead⟩ b sl) :
    ∃ s', nullTerminate t = .ret { t with s := s' } ∧ s'.w = t.s.w ∧
      Rep P s' ⟨xs ++ [some 0#8], cap, dead⟩ ⟨b.id, xs ++ [some 0#8] ++ sl⟩ sl := by
  have R0 : Rep P t.s ⟨xs ++ [old] ++ [], cap, dead⟩ b sl := by simpa using R
  have hs : sub64 t.s.v.size 1 = xs.length := by
    have h1 := R.size
    have h2 := (R.fits.mul_growth (g := 1) (by omega) R.esz1).2.2
    simp at h1 h2
    rw [h1, sub64_eq (by omega) (by omega)]; omega
  have hp := strPoke_ok R0 hs (some 0#8)
  refine ⟨⟨{ t.s.v with data := some ⟨b.id, xs ++ [some 0#8] ++ sl⟩ }, t.s.w⟩, ?_, rfl, ?_⟩
  · simp only [nullTerminate, hp, Out.ret_bind']
    simp
  · have := R0.write (ys := [some 0#8]) rfl
    simpa using this

theorem nullTerminate_ok {P : Params} {t : Str} {xs dead : List (Cell Byte)} {old : Cell Byte}
    {cap : Nat} {b : Block Byte} {sl : List (Cell Byte)}
    (R : Rep P t.s ⟨xs ++ [old], cap, dead⟩ b sl) :
    ∃ s', nullTerminate t = .ret { t with s := s' } ∧
      Rep P s' ⟨xs ++ [some 0#8], cap, dead⟩ ⟨b.id, xs ++ [some 0#8] ++ sl⟩ sl := by
  obtain ⟨s', e, _, R'⟩ := nullTerminate_ok' R
  exact ⟨s', e, R'⟩

theorem SRep.size {P : Params} {t : Str} {a : SState} {b : Block Byte} {sl : List (Cell Byte)}
    (R : SRep P t a b sl) : t.s.v.size = a.text.length + 1 := by
  have := R.rep.size; simpa using this

theorem SRep.small {P : Params} {t : Str} {a : SState} {b : Block Byte} {sl : List (Cell Byte)}
    (R : SRep P t a b sl) : (a.text.length + 1) * 255 < 18446744073709551616 := by
  have := (fits_iff R.one _).1 R.rep.fits
  unfold SFits at this
  simpa using this

/-- The operation `op` on the concrete string does what the specification says. -/
def SOpOK (P : Params) (t : Str) (a : SState) (op : SOp) : Prop :=
  ∃ junk st t' a' b' slack', junk.length = sjunkLen a op ∧ sstep P junk a op = (st, a') ∧
    strOp t op = .ret (st, t') ∧ SRep P t' a' b' slack'

/-- Result of a call: a status and a represented string. -/
def SRes (P : Params) (res : Out (Status × Str)) (st : Status) (a' : SState) : Prop :=
  ∃ t' b' sl', res = .ret (st, t') ∧ SRep P t' a' b' sl'

theorem killed_nod {α : Type} {P : Params} (h : P.dtor = false) (xs : List (Cell α)) :
    killed P xs = [] := by simp [killed, h]

/-- Copying characters over a part of the string and terminating it. -/
theorem copyTerminate_ok {P : Params} {s : VS Byte} {fx : Bool} {pre mid : List (Cell Byte)}
    {last : Cell Byte} {cap : Nat} {b : Block Byte} {sl : List (Cell Byte)}
    (R : Rep P s ⟨pre ++ mid ++ [last], cap, []⟩ b sl) (one : P.esz = 1) (nod : P.dtor = false)
    (hfix : fx = P.allocator.isNone) {x rest : List (Cell Byte)} {len n : Nat}
    (hl : len = pre.length) (hn : n = x.length) (h : x.length = mid.length) :
    SRes P ((vecMemcpy s.v len (.ext (x ++ rest)) n).bind fun v =>
        (nullTerminate ⟨⟨v, s.w⟩, fx⟩).bind fun t => .ret (stSuccess, t))
      stSuccess ⟨pre ++ x, cap⟩ := by
  have h1 := vecMemcpy_ok R (ys := x) (rest := rest) hl hn h
  have R2 := R.write (ys := x) h
  obtain ⟨s', e, R3⟩ := nullTerminate_ok
    (t := ⟨⟨{ s.v with data := some ⟨b.id, pre ++ x ++ [last] ++ sl⟩ }, s.w⟩, fx⟩) R2
  refine ⟨⟨s', fx⟩, _, _, ?_, ⟨R3, one, nod, hfix⟩⟩
  rw [h1, Out.ret_bind', e, Out.ret_bind']

/-- Appending the characters `x` by the resize-and-copy sequence of both append functions. -/
theorem appendCore_ok {P : Params} {t : Str} {a : SState} {b : Block Byte} {sl : List (Cell Byte)}
    (R : SRep P t a b sl) {x rest : List (Cell Byte)} {m len n : Nat}
    (hf : SFits (a.text.length + x.length + 1)) (hm : m = a.text.length + x.length + 1)
    (hlen : len = a.text.length) (hn : n = x.length) :
    SRes P ((vecResize t.s m).bind fun r =>
      if failed r.1 then .ret (r.1, { t with s := r.2 })
      else
        (vecMemcpy r.2.v len (.ext (x ++ rest)) n).bind fun v =>
        (nullTerminate { t with s := { r.2 with v := v } }).bind fun t => .ret (stSuccess, t))
      (appendText P a x).1 (appendText P a x).2 := by
  subst hm hlen hn
  have hf' : Fits P (a.text.length + x.length + 1) := (fits_iff R.one _).2 hf
  by_cases hx : x = []
  · have hat : appendText P a x = (stSuccess, a) := if_pos hx
    have hx0 : x.length = 0 := by rw [hx]; rfl
    have hs : vecResize t.s (a.text.length + x.length + 1) = .ret (stSuccess, t.s) := by
      rw [vecResize, vecResizeEx_eq, R.size, hx0, Nat.add_zero, if_pos rfl]
    rw [hs, hat, Out.ret_bind']
    simp only [failed_success, Bool.false_eq_true, if_false]
    have R0 : Rep P t.s ⟨a.text ++ [] ++ [some 0#8], a.bytes, []⟩ b sl := by
      rw [List.append_nil]; exact R.rep
    have := copyTerminate_ok R0 R.one R.nod R.fixed (x := x) (rest := rest) rfl rfl hx0
    rw [hx, List.append_nil] at this
    rw [hx]
    exact this
  · have hpos : 0 < x.length := List.length_pos_iff.2 hx
    obtain ⟨junk, st, s1, a1, b1, sl1, hj, hstep, hop, R1⟩ :=
      resize_ok R.rep (a.text.length + x.length + 1) none hf'
    simp only [vecOp, initSrc] at hop
    have hle : (a.text ++ [some 0#8]).length = a.text.length + 1 := by simp
    simp only [step, hle] at hstep
    rw [if_neg (by omega)] at hstep
    simp only [vecResize, hop, Out.ret_bind']
    simp only [appendText, if_neg hx, extend]
    cases hr : Spec.room P a.bytes (a.text.length + x.length + 1) with
    | none =>
      rw [hr] at hstep
      have hnb : ¬ a.text.length + x.length + 1 ≤ a.bytes := by
        intro h; unfold Spec.room at hr; rw [if_pos h] at hr; simp at hr
      rw [if_neg hnb]
      simp only [Prod.mk.injEq] at hstep
      obtain ⟨h1, h2⟩ := hstep
      subst h1 h2
      simp only [failed_insufficient, if_true]
      exact ⟨_, _, _, rfl, ⟨R1, R.one, R.nod, R.fixed⟩⟩
    | some c =>
      rw [hr] at hstep
      simp only at hstep
      rw [if_neg (by omega)] at hstep
      simp only [Prod.mk.injEq] at hstep
      obtain ⟨h1, h2⟩ := hstep
      subst h1 h2
      simp only [newElems] at R1
      simp only [failed_success, Bool.false_eq_true, if_false]
      simp only [junkLen, hle] at hj
      have hjl : junk.length = x.length := by omega
      obtain ⟨mid, last, hml⟩ : ∃ mid last, [some 0#8] ++ junk = mid ++ [last] := by
        refine ⟨([some 0#8] ++ junk).dropLast, ([some 0#8] ++ junk).getLast (by simp), ?_⟩
        rw [List.dropLast_concat_getLast]
      have hmid : mid.length = x.length := by
        have := congrArg List.length hml
        simp at this; omega
      rw [List.append_assoc, hml, ← List.append_assoc] at R1
      have hcap : (if a.text.length + x.length + 1 ≤ a.bytes then
          some (trim P a.bytes (a.text.length + x.length + 1)) else some c) =
          some (if a.text.length + x.length + 1 ≤ a.bytes then
            trim P a.bytes (a.text.length + x.length + 1) else c) := by split <;> rfl
      rw [hcap]
      exact copyTerminate_ok R1 R.one R.nod R.fixed rfl rfl hmid.symm

theorem append_res {P : Params} {t : Str} {a : SState} {b : Block Byte} {sl : List (Cell Byte)}
    (R : SRep P t a b sl) (x rest : List (Cell Byte)) (hf : SFits (a.text.length + x.length + 1)) :
    SRes P (strAppend t ⟨x ++ rest, x.length + 1⟩) (appendText P a x).1 (appendText P a x).2 := by
  have hf' := hf
  unfold SFits at hf'
  simp only [strAppend, strAppendSrc]
  rw [if_neg (by omega), R.size]
  exact appendCore_ok R hf
    (by rw [add64_eq (by omega), sub64_eq (by omega) (by omega)]; omega)
    (by rw [sub64_eq (by omega) (by omega)]; omega)
    (by rw [sub64_eq (by omega) (by omega)]; omega)

theorem appendEx_res {P : Params} {t : Str} {a : SState} {b : Block Byte} {sl : List (Cell Byte)}
    (R : SRep P t a b sl) (x rest : List (Cell Byte)) (j n : Nat)
    (hf : SFits (a.text.length + x.length + 1)) (hw : j + n < 18446744073709551616)
    (hle : j + n ≤ x.length) :
    SRes P (strAppendEx t ⟨x ++ rest, x.length + 1⟩ j n) (appendText P a ((x.drop j).take n)).1
      (appendText P a ((x.drop j).take n)).2 := by
  have hf' := hf
  unfold SFits at hf'
  have hxl : ((x.drop j).take n).length = n := by simp; omega
  have hsplit : (x ++ rest).drop j = (x.drop j).take n ++ ((x.drop j).drop n ++ rest) := by
    rw [List.drop_append_of_le_length (by omega), ← List.append_assoc, List.take_append_drop]
  simp only [strAppendEx, strAppendExSrc, add64_eq hw, Src.offset]
  rw [if_neg (by omega), if_neg (by omega), R.size, hsplit]
  have hfx : SFits (a.text.length + ((x.drop j).take n).length + 1) :=
    hf.mono (by rw [hxl]; omega)
  exact appendCore_ok R hfx
    (by rw [hxl, add64_eq (by omega)]; omega)
    (by rw [sub64_eq (by omega) (by omega)]; omega) hxl.symm

theorem SRep.of_res {P : Params} {t : Str} {a a' : SState} {op : SOp} {st : Status}
    (h : SRes P (strOp t op) st a') (hs : sstep P [] a op = (st, a')) (hj : sjunkLen a op = 0) :
    SOpOK P t a op := by
  obtain ⟨t', b', sl', e, R⟩ := h
  exact ⟨[], st, t', a', b', sl', by simp [hj], hs, e, R⟩

theorem sappend_ok {P : Params} {t : Str} {a : SState} {b : Block Byte} {sl : List (Cell Byte)}
    (R : SRep P t a b sl) (x : List (Cell Byte)) (hd : SInDomain a (.append x)) :
    SOpOK P t a (.append x) :=
  SRep.of_res (append_res R x [some 0#8] hd) rfl rfl

theorem SRes.self {P : Params} {t : Str} {a : SState} {b : Block Byte} {sl : List (Cell Byte)}
    (R : SRep P t a b sl) (st : Status) : SRes P (.ret (st, t)) st a := ⟨t, b, sl, rfl, R⟩

theorem appendEx_any {P : Params} {t : Str} {a : SState} {b : Block Byte} {sl : List (Cell Byte)}
    (R : SRep P t a b sl) (x rest : List (Cell Byte)) (j n : Nat)
    (hf : SFits (a.text.length + x.length + 1)) (hw : j + n < 18446744073709551616) :
    SRes P (strAppendEx t ⟨x ++ rest, x.length + 1⟩ j n)
      (if j + n > x.length then (stOutOfRange, a) else appendText P a ((x.drop j).take n)).1
      (if j + n > x.length then (stOutOfRange, a) else appendText P a ((x.drop j).take n)).2 := by
  by_cases hle : j + n ≤ x.length
  · rw [if_neg (by omega)]
    exact appendEx_res R x rest j n hf hw hle
  · rw [if_pos (by omega)]
    simp only [strAppendEx, strAppendExSrc, add64_eq hw]
    rw [if_neg (by omega), if_pos (by omega)]
    exact SRes.self R _

theorem sappendEx_ok {P : Params} {t : Str} {a : SState} {b : Block Byte} {sl : List (Cell Byte)}
    (R : SRep P t a b sl) (x : List (Cell Byte)) (j n : Nat) (hd : SInDomain a (.appendEx x j n)) :
    SOpOK P t a (.appendEx x j n) :=
  SRep.of_res (appendEx_any R x [some 0#8] j n hd.1 hd.2) rfl rfl

/-- A vector operation whose result is again terminated text. -/
theorem insertCore_ok {P : Params} {t : Str} {a : SState} {b : Block Byte} {sl : List (Cell Byte)}
    (R : SRep P t a b sl) {x rest : List (Cell Byte)} {i n : Nat} (hi : i ≤ a.text.length)
    (hf : SFits (a.text.length + x.length + 1)) (hn : n = x.length) :
    SRes P ((vecInsertRange t.s i (.ext (x ++ rest)) n).bind fun r =>
      if failed r.1 then .ret (r.1, { t with s := r.2 }) else .ret (stSuccess, { t with s := r.2 }))
      (insertText P a i x).1 (insertText P a i x).2 := by
  subst hn
  have hsrc : vecInsertRange t.s i (.ext (x ++ rest)) x.length =
      vecInsertRange t.s i (.ext x) x.length := by
    have : ∀ (b : Block Byte) (i : Nat),
        memcpyIn b i (.ext (x ++ rest)) x.length = memcpyIn b i (.ext x) x.length := by
      intro b i; simp [memcpyIn, readRange]
    simp only [vecInsertRange, Src.isNull, this]
  rw [hsrc]
  obtain ⟨junk, st, s1, a1, b1, sl1, hj, hstep, hop, R1⟩ :=
    insertRange_ok R.rep i x (by
      show Fits P _
      rw [fits_iff R.one]
      have : (a.text ++ [some 0#8]).length + x.length = a.text.length + x.length + 1 := by
        simp; omega
      rw [this]; exact hf)
  simp only [vecOp] at hop
  rw [hop]
  simp only [Out.ret_bind']
  have hle : (a.text ++ [some 0#8]).length = a.text.length + 1 := by simp
  have hadd : a.text.length + 1 + x.length = a.text.length + x.length + 1 := by omega
  simp only [step, hle, hadd] at hstep
  by_cases hx : x = []
  · rw [if_pos hx] at hstep
    simp only [insertText, if_pos hx]
    simp only [Prod.mk.injEq] at hstep
    obtain ⟨h1, h2⟩ := hstep
    subst h1 h2
    simp only [failed_invalid, if_true]
    exact ⟨_, _, _, rfl, ⟨R1, R.one, R.nod, R.fixed⟩⟩
  · rw [if_neg hx, if_neg (by omega)] at hstep
    simp only [insertText, if_neg hx]
    cases hr : Spec.room P a.bytes (a.text.length + x.length + 1) with
    | none =>
      rw [hr] at hstep
      simp only [Prod.mk.injEq] at hstep
      obtain ⟨h1, h2⟩ := hstep
      subst h1 h2
      simp only [failed_insufficient, if_true]
      exact ⟨_, _, _, rfl, ⟨R1, R.one, R.nod, R.fixed⟩⟩
    | some c =>
      rw [hr] at hstep
      simp only [Prod.mk.injEq] at hstep
      obtain ⟨h1, h2⟩ := hstep
      subst h1 h2
      simp only [failed_success, Bool.false_eq_true, if_false]
      rw [List.take_append_of_le_length hi, List.drop_append_of_le_length hi,
        ← List.append_assoc] at R1
      exact ⟨_, _, _, rfl, ⟨R1, R.one, R.nod, R.fixed⟩⟩

theorem sinsert_ok {P : Params} {t : Str} {a : SState} {b : Block Byte} {sl : List (Cell Byte)}
    (R : SRep P t a b sl) (i : Nat) (x : List (Cell Byte)) (hd : SInDomain a (.insert i x)) :
    SOpOK P t a (.insert i x) := by
  have hf : SFits (a.text.length + x.length + 1) := hd
  have hf' := hf
  unfold SFits at hf'
  by_cases h1 : i = a.text.length + 1
  · refine SRep.of_res (st := (appendText P a x).1) (a' := (appendText P a x).2) ?_
      (by simp only [sstep, if_pos h1]) rfl
    show SRes P (strInsert t i ⟨x ++ [some 0#8], x.length + 1⟩) _ _
    simp only [strInsert]
    rw [if_neg (by omega), R.size, if_pos h1]
    exact append_res R x [some 0#8] hf
  by_cases h2 : i > a.text.length
  · refine SRep.of_res (st := stOutOfRange) (a' := a) ?_
      (by simp only [sstep, if_neg h1, if_pos h2]) rfl
    show SRes P (strInsert t i ⟨x ++ [some 0#8], x.length + 1⟩) _ _
    simp only [strInsert]
    rw [if_neg (by omega), R.size, if_neg h1, if_pos (by omega)]
    exact SRes.self R _
  · refine SRep.of_res (st := (insertText P a i x).1) (a' := (insertText P a i x).2) ?_
      (by simp only [sstep, if_neg h1, if_neg h2]) rfl
    show SRes P (strInsert t i ⟨x ++ [some 0#8], x.length + 1⟩) _ _
    simp only [strInsert]
    rw [if_neg (by omega), R.size, if_neg h1, if_neg (by omega)]
    exact insertCore_ok R (by omega) hf (by rw [sub64_eq (by omega) (by omega)]; omega)

theorem sinsertEx_ok {P : Params} {t : Str} {a : SState} {b : Block Byte} {sl : List (Cell Byte)}
    (R : SRep P t a b sl) (i : Nat) (x : List (Cell Byte)) (j n : Nat)
    (hd : SInDomain a (.insertEx i x j n)) : SOpOK P t a (.insertEx i x j n) := by
  obtain ⟨hf, hw⟩ := hd
  have hf' := hf
  unfold SFits at hf'
  by_cases h0 : i > a.text.length + 1 ∨ j + n > x.length
  · refine SRep.of_res (st := stOutOfRange) (a' := a) ?_ (by simp only [sstep, if_pos h0]) rfl
    show SRes P (strInsertEx t i ⟨x ++ [some 0#8], x.length + 1⟩ j n) _ _
    simp only [strInsertEx, R.size]
    rw [if_neg (by omega)]
    by_cases h1 : i = a.text.length + 1
    · rw [if_pos h1]
      have := appendEx_any R x [some 0#8] j n hf hw
      rwa [if_pos (by omega)] at this
    · rw [if_neg h1]
      by_cases h2 : i ≥ a.text.length + 1
      · rw [if_pos h2]; exact SRes.self R _
      · rw [if_neg h2, add64_eq hw, if_pos (by omega)]; exact SRes.self R _
  by_cases h1 : i = a.text.length + 1
  · refine SRep.of_res (st := (appendText P a ((x.drop j).take n)).1)
      (a' := (appendText P a ((x.drop j).take n)).2) ?_
      (by simp only [sstep, if_neg h0, if_pos h1]) rfl
    show SRes P (strInsertEx t i ⟨x ++ [some 0#8], x.length + 1⟩ j n) _ _
    simp only [strInsertEx, R.size]
    rw [if_neg (by omega), if_pos h1]
    exact appendEx_res R x [some 0#8] j n hf hw (by omega)
  · refine SRep.of_res (st := (insertText P a i ((x.drop j).take n)).1)
      (a' := (insertText P a i ((x.drop j).take n)).2) ?_
      (by simp only [sstep, if_neg h0, if_neg h1]) rfl
    have hxl : ((x.drop j).take n).length = n := by simp; omega
    have hsplit : (x ++ [some 0#8]).drop j =
        (x.drop j).take n ++ ((x.drop j).drop n ++ [some 0#8]) := by
      rw [List.drop_append_of_le_length (by omega), ← List.append_assoc, List.take_append_drop]
    show SRes P (strInsertEx t i ⟨x ++ [some 0#8], x.length + 1⟩ j n) _ _
    simp only [strInsertEx, R.size, Src.offset]
    rw [if_neg (by omega), if_neg h1, if_neg (by omega), add64_eq hw, if_neg (by omega), hsplit]
    have hfx : SFits (a.text.length + ((x.drop j).take n).length + 1) :=
      hf.mono (by rw [hxl]; omega)
    exact insertCore_ok R (by omega) hfx hxl.symm

/-- `ZYAN_CHECK` and terminate after a vector operation that left at least one byte. -/
theorem checkTerminate_ok {P : Params} {t : Str} {s : VS Byte} {xs : List (Cell Byte)} {old : Cell Byte}
    {cap : Nat} {b : Block Byte} {sl : List (Cell Byte)}
    (R : Rep P s ⟨xs ++ [old], cap, []⟩ b sl) (one : P.esz = 1) (nod : P.dtor = false)
    (hfix : t.fixed = P.allocator.isNone) :
    SRes P (checkTerminate t (stSuccess, s)) stSuccess ⟨xs, cap⟩ := by
  simp only [checkTerminate, failed_success, Bool.false_eq_true, if_false]
  obtain ⟨s', e, R'⟩ := nullTerminate_ok (t := { t with s := s }) R
  rw [e]
  exact ⟨_, _, _, rfl, ⟨R', one, nod, hfix⟩⟩

theorem deleteCore_ok {P : Params} {t : Str} {a : SState} {b : Block Byte} {sl : List (Cell Byte)}
    (R : SRep P t a b sl) {i n : Nat} (h : i + n ≤ a.text.length) :
    SRes P ((vecDeleteRange t.s i n).bind fun r => checkTerminate t r)
      (if n = 0 then stInvalidArgument else stSuccess)
      (if n = 0 then a else
        ⟨a.text.take i ++ a.text.drop (i + n), trim P a.bytes (a.text.length + 1 - n)⟩) := by
  have hs := R.small
  obtain ⟨junk, st, s1, a1, b1, sl1, hj, hstep, hop, R1⟩ :=
    deleteRange_ok R.rep i n (by show _ < _; omega)
  simp only [vecOp] at hop
  rw [hop]
  simp only [Out.ret_bind']
  have hle : (a.text ++ [some 0#8]).length = a.text.length + 1 := by simp
  simp only [step, hle, killed_nod R.nod, List.append_nil] at hstep
  by_cases h0 : n = 0
  · rw [if_pos h0] at hstep
    simp only [Prod.mk.injEq] at hstep
    obtain ⟨h1, h2⟩ := hstep
    subst h1 h2
    rw [if_pos h0, if_pos h0]
    simp only [checkTerminate, failed_invalid, if_true]
    exact ⟨_, _, _, rfl, ⟨R1, R.one, R.nod, R.fixed⟩⟩
  · rw [if_neg h0, if_neg (by omega)] at hstep
    simp only [Prod.mk.injEq] at hstep
    obtain ⟨h1, h2⟩ := hstep
    subst h1 h2
    rw [if_neg h0, if_neg h0]
    rw [List.take_append_of_le_length (by omega), List.drop_append_of_le_length h,
      ← List.append_assoc] at R1
    exact checkTerminate_ok R1 R.one R.nod R.fixed

theorem sdelete_ok {P : Params} {t : Str} {a : SState} {b : Block Byte} {sl : List (Cell Byte)}
    (R : SRep P t a b sl) (i n : Nat) (hd : SInDomain a (.delete i n)) :
    SOpOK P t a (.delete i n) := by
  have hw : i + n < 18446744073709551616 := hd
  by_cases h : i + n > a.text.length
  · refine SRep.of_res (st := stOutOfRange) (a' := a) ?_ (by simp only [sstep, if_pos h]) rfl
    simp only [strOp, strDelete, R.size, add64_eq hw]
    rw [if_pos (by omega)]
    exact SRes.self R _
  · refine SRep.of_res ?_ (st := if n = 0 then stInvalidArgument else stSuccess)
      (a' := if n = 0 then a else
        ⟨a.text.take i ++ a.text.drop (i + n), trim P a.bytes (a.text.length + 1 - n)⟩) ?_ rfl
    · simp only [strOp, strDelete, R.size, add64_eq hw]
      rw [if_neg (by omega)]
      exact deleteCore_ok R (by omega)
    · simp only [sstep, if_neg h]
      split <;> rfl

theorem struncate_ok {P : Params} {t : Str} {a : SState} {b : Block Byte} {sl : List (Cell Byte)}
    (R : SRep P t a b sl) (i : Nat) : SOpOK P t a (.truncate i) := by
  have hs := R.small
  by_cases h : i > a.text.length
  · refine SRep.of_res (st := stOutOfRange) (a' := a) ?_ (by simp only [sstep, if_pos h]) rfl
    simp only [strOp, strTruncate, R.size]
    rw [if_pos (by omega)]
    exact SRes.self R _
  · refine SRep.of_res ?_ (st := if i = a.text.length then stInvalidArgument else stSuccess)
      (a' := if i = a.text.length then a else ⟨a.text.take i, trim P a.bytes (i + 1)⟩) ?_ rfl
    · simp only [strOp, strTruncate, R.size]
      rw [if_neg (by omega)]
      have e1 : sub64 (sub64 (a.text.length + 1) i) 1 = a.text.length - i := by
        have e0 : sub64 (a.text.length + 1) i = a.text.length + 1 - i :=
          sub64_eq (by omega) (by omega)
        rw [e0, sub64_eq (by omega) (by omega)]; omega
      rw [e1]
      have := deleteCore_ok R (i := i) (n := a.text.length - i) (by omega)
      by_cases h0 : i = a.text.length
      · rw [if_pos (by omega), if_pos (by omega)] at this
        rw [if_pos h0, if_pos h0]; exact this
      · rw [if_neg (by omega), if_neg (by omega)] at this
        rw [if_neg h0, if_neg h0]
        have e2 : i + (a.text.length - i) = a.text.length := by omega
        have e3 : a.text.length + 1 - (a.text.length - i) = i + 1 := by omega
        rw [e2, e3] at this
        simpa using this
    · simp only [sstep, if_neg h]
      split <;> rfl

theorem strStart_ok {P : Params} {s : VS Byte} {cap : Nat} {b : Block Byte} {sl : List (Cell Byte)}
    (R : Rep P s ⟨[], cap, []⟩ b sl) (one : P.esz = 1) :
    ∃ v, strStart s.v = .ret v ∧
      Rep P ⟨v, s.w⟩ ⟨[some 0#8], cap, []⟩ ⟨b.id, [some 0#8] ++ sl.drop 1⟩ (sl.drop 1) := by
  have hroom := R.room
  have hcap := R.cap1
  have hcells := R.cells
  simp only [List.nil_append] at hcells
  have hz : s.v.size = 0 := R.size
  simp only at hcap
  obtain ⟨y, rest, hsl⟩ : ∃ y rest, sl = y :: rest := by
    cases sl with
    | nil => rw [hcells] at hroom; simp at hroom; omega
    | cons y rest => exact ⟨y, rest, rfl⟩
  subst hsl
  refine ⟨{ s.v with data := some ⟨b.id, [some 0#8] ++ rest⟩, size := 1 }, ?_, ?_⟩
  · simp only [strStart, strPoke, R.data, withData, hcells]
    rw [if_pos (by simp)]
    simp [hz, add64]
  · have hl : ([some 0#8] ++ rest).length = b.cells.length := by rw [hcells]; simp
    exact { R with
      size := rfl
      data := rfl
      cells := rfl
      room := by simp only [List.drop_succ_cons, List.drop_zero, hl]; exact R.room
      dyn := by
        intro h; simp only [List.drop_succ_cons, List.drop_zero, hl]; exact R.dyn h
      fits := by rw [fits_iff one]; simp [SFits]
      len := by simpa using hcap
      alloc := by have := R.alloc; unfold AllocOK at *; exact this }

theorem sclear_ok {P : Params} {t : Str} {a : SState} {b : Block Byte} {sl : List (Cell Byte)}
    (R : SRep P t a b sl) : SOpOK P t a .clear := by
  refine SRep.of_res (st := stSuccess) (a' := ⟨[], trim P a.bytes 0⟩) ?_ rfl rfl
  obtain ⟨junk, st, s1, a1, b1, sl1, hj, hstep, hop, R1⟩ := clear_ok R.rep
  simp only [vecOp] at hop
  simp only [step] at hstep
  rw [if_neg (by simp)] at hstep
  simp only [killed_nod R.nod, List.append_nil, Prod.mk.injEq] at hstep
  obtain ⟨h1, h2⟩ := hstep
  subst h1 h2
  obtain ⟨v, e, R2⟩ := strStart_ok R1 R.one
  simp only [strOp, strClear, hop, Out.ret_bind', failed_success, Bool.false_eq_true, if_false, e]
  exact ⟨_, _, _, rfl, ⟨R2, R.one, R.nod, R.fixed⟩⟩

theorem ssetChar_ok {P : Params} {t : Str} {a : SState} {b : Block Byte} {sl : List (Cell Byte)}
    (R : SRep P t a b sl) (i : Nat) (c : Byte) (hd : SInDomain a (.setChar i c)) :
    SOpOK P t a (.setChar i c) := by
  have hi : i < 18446744073709551616 := hd
  have hs := R.small
  by_cases h : i < a.text.length
  · refine SRep.of_res (st := stSuccess) (a' := { a with text := a.text.set i (some c) }) ?_
      (by simp only [sstep, if_pos h]) rfl
    obtain ⟨junk, st, s1, a1, b1, sl1, hj, hstep, hop, R1⟩ := set_ok R.rep i (some c)
    simp only [vecOp] at hop
    simp only [step] at hstep
    rw [List.getElem?_append_left h, List.getElem?_eq_getElem h] at hstep
    simp only [killed_nod R.nod, List.append_nil, Prod.mk.injEq] at hstep
    obtain ⟨h1, h2⟩ := hstep
    subst h1 h2
    rw [List.set_append_left _ _ h] at R1
    simp only [strOp, strSetChar, R.size]
    rw [add64_eq (by omega), if_neg (by omega), hop]
    exact ⟨_, _, _, rfl, ⟨R1, R.one, R.nod, R.fixed⟩⟩
  · refine SRep.of_res (st := stOutOfRange) (a' := a) ?_ (by simp only [sstep, if_neg h]) rfl
    simp only [strOp, strSetChar, R.size]
    by_cases h1 : i = 18446744073709551615
    · subst h1
      have e : add64 18446744073709551615 1 = 0 := by decide
      rw [e, if_neg (by omega)]
      simp only [vecSet, Src.isNull, R.size]
      rw [if_neg (by simp), if_pos (by omega)]
      exact SRes.self R _
    · rw [add64_eq (by omega), if_pos (by omega)]
      exact SRes.self R _

theorem lowerByte_eq : ∀ c : Byte, lowerByte c = lowerChar c := by decide +kernel
theorem upperByte_eq : ∀ c : Byte, upperByte c = upperChar c := by decide +kernel

theorem caseLoop_ok {P : Params} (f : Byte → Byte) : ∀ {mid pre : List (Cell Byte)}
    {s : VS Byte} {post dead : List (Cell Byte)} {cap : Nat} {b : Block Byte} {sl : List (Cell Byte)},
    (∀ x ∈ mid, x ≠ none) → Rep P s ⟨pre ++ mid ++ post, cap, dead⟩ b sl →
    ∃ v, caseLoop f s.v pre.length mid.length = .ret v ∧
      Rep P ⟨v, s.w⟩ ⟨pre ++ mid.map (Option.map f) ++ post, cap, dead⟩
        ⟨b.id, pre ++ mid.map (Option.map f) ++ post ++ sl⟩ sl := by
  intro mid
  induction mid with
  | nil =>
    intro pre s post dead cap b sl _ R
    refine ⟨s.v, rfl, ?_⟩
    have hb : b = ⟨b.id, pre ++ [] ++ post ++ sl⟩ := by
      have := R.cells
      cases b; simp_all
    rw [hb] at R
    simpa using R
  | cons x mid ih =>
    intro pre s post dead cap b sl hdet R
    obtain ⟨c, hc⟩ : ∃ c, x = some c := by
      cases x with
      | none => exact absurd rfl (hdet none (by simp))
      | some c => exact ⟨c, rfl⟩
    subst hc
    have R0 : Rep P s ⟨pre ++ [some c] ++ (mid ++ post), cap, dead⟩ b sl := by simpa using R
    have hrd : rdChar b.cells (pre.length : Int) = .ret c := by
      simp only [rdChar, R0.cells]
      rw [if_neg (by omega)]
      simp
    have hpk := strPoke_ok R0 rfl (some (f c))
    have R1 := R0.write (ys := [some (f c)]) rfl
    obtain ⟨v, e, R2⟩ := ih (pre := pre ++ [some (f c)]) (post := post)
      (fun x hx => hdet x (by simp [hx])) (by simpa using R1)
    refine ⟨v, ?_, by simpa using R2⟩
    simp only [List.length_cons, caseLoop, R0.data, withData, hrd, hpk, Out.ret_bind']
    rw [List.length_append, List.length_singleton] at e
    simpa using e

theorem case_res {P : Params} {t : Str} {a : SState} {b : Block Byte} {sl : List (Cell Byte)}
    (R : SRep P t a b sl) (f : Byte → Byte) (i n : Nat) (hw : i + n < 18446744073709551616)
    (hd : Determinate a.text i n) :
    SRes P (strCaseEx f t i n)
      (if i + n > a.text.length then stOutOfRange else stSuccess)
      (if i + n > a.text.length then a else { a with text := mapRange f a.text i n }) := by
  by_cases h : i + n > a.text.length
  · rw [if_pos h, if_pos h]
    simp only [strCaseEx, R.size, add64_eq hw]
    rw [if_pos (by omega)]
    exact SRes.self R _
  · rw [if_neg h, if_neg h]
    simp only [strCaseEx, R.size, add64_eq hw]
    rw [if_neg (by omega)]
    have hsplit : a.text ++ [some 0#8] =
        a.text.take i ++ (a.text.drop i).take n ++ (a.text.drop (i + n) ++ [some 0#8]) := by
      rw [← List.append_assoc, ← List.drop_drop, List.append_assoc (List.take i a.text),
        List.take_append_drop, List.take_append_drop]
    have R0 := R.rep
    rw [hsplit] at R0
    have hl1 : (a.text.take i).length = i := by simp; omega
    have hl2 : ((a.text.drop i).take n).length = n := by simp; omega
    obtain ⟨v, e, R1⟩ := caseLoop_ok f hd R0
    rw [hl1, hl2] at e
    have : i + n - i = n := by omega
    rw [this, e]
    rw [← List.append_assoc (_ ++ _)] at R1
    exact ⟨_, _, _, rfl, ⟨R1, R.one, R.nod, R.fixed⟩⟩

theorem slower_ok {P : Params} {t : Str} {a : SState} {b : Block Byte} {sl : List (Cell Byte)}
    (R : SRep P t a b sl) (i n : Nat) (hd : SInDomain a (.lower i n)) : SOpOK P t a (.lower i n) := by
  have hf : lowerByte = lowerChar := funext lowerByte_eq
  refine SRep.of_res (case_res R lowerByte i n hd.1 hd.2) ?_ rfl
  simp only [sstep, hf]
  split <;> rfl

theorem supper_ok {P : Params} {t : Str} {a : SState} {b : Block Byte} {sl : List (Cell Byte)}
    (R : SRep P t a b sl) (i n : Nat) (hd : SInDomain a (.upper i n)) : SOpOK P t a (.upper i n) := by
  have hf : upperByte = upperChar := funext upperByte_eq
  refine SRep.of_res (case_res R upperByte i n hd.1 hd.2) ?_ rfl
  simp only [sstep, hf]
  split <;> rfl

theorem exists_snoc {α : Type} {xs : List α} (h : 0 < xs.length) : ∃ ys y, xs = ys ++ [y] := by
  have hne : xs ≠ [] := by intro h0; subst h0; simp at h
  exact ⟨xs.dropLast, xs.getLast hne, (List.dropLast_concat_getLast hne).symm⟩

theorem sresize_ok {P : Params} {t : Str} {a : SState} {b : Block Byte} {sl : List (Cell Byte)}
    (R : SRep P t a b sl) (n : Nat) (hd : SInDomain a (.resize n)) : SOpOK P t a (.resize n) := by
  have hf : SFits (n + 1) := hd
  have hf' := hf
  unfold SFits at hf'
  have hle : (a.text ++ [some 0#8]).length = a.text.length + 1 := by simp
  obtain ⟨junk, st, s1, a1, b1, sl1, hj, hstep, hop, R1⟩ :=
    resize_ok R.rep (n + 1) none ((fits_iff R.one _).2 hf)
  simp only [vecOp, initSrc] at hop
  simp only [junkLen, hle] at hj
  have hrun : strOp t (.resize n) = checkTerminate t (st, s1) := by
    simp only [strOp, strResize, add64_eq (show n + 1 < 18446744073709551616 by omega), vecResize, hop,
      Out.ret_bind']
  have hcap := R.rep.len
  simp only [hle] at hcap
  simp only [step, hle] at hstep
  by_cases heq : n = a.text.length
  · rw [if_pos (by omega)] at hstep
    simp only [Prod.mk.injEq] at hstep
    obtain ⟨h1, h2⟩ := hstep
    subst h1 h2
    refine SRep.of_res (st := stSuccess) (a' := a) ?_ (by simp only [sstep, if_pos heq])
      (by simp [sjunkLen, heq])
    rw [hrun]
    exact checkTerminate_ok R1 R.one R.nod R.fixed
  rw [if_neg (by omega)] at hstep
  by_cases hlt : n < a.text.length
  · have hroom : Spec.room P a.bytes (n + 1) = some a.bytes := by
      unfold Spec.room; rw [if_pos (by omega)]
    rw [hroom] at hstep
    simp only at hstep
    rw [if_pos (by omega)] at hstep
    simp only [killed_nod R.nod, List.append_nil, Prod.mk.injEq] at hstep
    obtain ⟨h1, h2⟩ := hstep
    subst h1 h2
    refine SRep.of_res (st := stSuccess) (a' := ⟨a.text.take n, trim P a.bytes (n + 1)⟩) ?_
      (by simp only [sstep, if_neg heq, if_pos hlt]) (by simp [sjunkLen]; omega)
    rw [hrun]
    have ht : (a.text ++ [some 0#8]).take (n + 1) = a.text.take n ++ [a.text[n]] := by
      rw [List.take_append_of_le_length (by omega), List.take_succ_eq_append_getElem hlt]
    rw [ht] at R1
    exact checkTerminate_ok R1 R.one R.nod R.fixed
  · have hx : (([some 0#8] ++ junk).dropLast).length = n - a.text.length := by simp; omega
    refine ⟨([some 0#8] ++ junk).dropLast, ?_⟩
    cases hr : Spec.room P a.bytes (n + 1) with
    | none =>
      rw [hr] at hstep
      simp only [Prod.mk.injEq] at hstep
      obtain ⟨h1, h2⟩ := hstep
      subst h1 h2
      have hnb : ¬ n + 1 ≤ a.bytes := by
        intro h; unfold Spec.room at hr; rw [if_pos h] at hr; simp at hr
      refine ⟨stInsufficient, { t with s := s1 }, a, b1, sl1, hx, ?_, ?_, ⟨R1, R.one, R.nod, R.fixed⟩⟩
      · simp only [sstep, if_neg heq, if_neg hlt, extend, if_neg hnb, hr]
      · rw [hrun]; simp only [checkTerminate, failed_insufficient, if_true]
    | some c =>
      rw [hr] at hstep
      simp only at hstep
      rw [if_neg (by omega)] at hstep
      simp only [newElems, Prod.mk.injEq] at hstep
      obtain ⟨h1, h2⟩ := hstep
      subst h1 h2
      have hsn : [some 0#8] ++ junk =
          ([some 0#8] ++ junk).dropLast ++ [([some 0#8] ++ junk).getLast (by simp)] := by
        rw [List.dropLast_concat_getLast]
      rw [List.append_assoc, hsn, ← List.append_assoc] at R1
      obtain ⟨t', b', sl', e, R2⟩ := checkTerminate_ok (t := t) R1 R.one R.nod R.fixed
      refine ⟨stSuccess, t', _, b', sl', hx, ?_, hrun.trans e, R2⟩
      simp only [sstep, if_neg heq, if_neg hlt, extend, hr]
      by_cases hb : n + 1 ≤ a.bytes
      · simp only [if_pos hb]
      · simp only [if_neg hb]

theorem sreserve_ok {P : Params} {t : Str} {a : SState} {b : Block Byte} {sl : List (Cell Byte)}
    (R : SRep P t a b sl) (c : Nat) (hd : SInDomain a (.reserve c)) : SOpOK P t a (.reserve c) := by
  have hc : c < 18446744073709551616 := hd
  obtain ⟨junk, st, s1, a1, b1, sl1, hj, hstep, hop, R1⟩ :=
    reserve_ok R.rep c (by show _ < _; rw [R.one]; omega)
  simp only [vecOp] at hop
  simp only [step] at hstep
  refine SRep.of_res (st := st) (a' := ⟨a.text, a1.cap⟩) ?_ ?_ rfl
  · simp only [strOp, strReserve, hop, Out.ret_bind']
    refine ⟨_, b1, sl1, rfl, ⟨?_, R.one, R.nod, R.fixed⟩⟩
    have ha1 : a1 = ⟨a.text ++ [some 0#8], a1.cap, []⟩ := by
      split at hstep
      · simp only [Prod.mk.injEq] at hstep; rw [← hstep.2]
      · split at hstep <;> (simp only [Prod.mk.injEq] at hstep; rw [← hstep.2])
    rw [ha1] at R1
    exact R1
  · simp only [sstep]
    split at hstep
    · simp only [Prod.mk.injEq] at hstep
      rw [if_pos (by assumption), ← hstep.1, ← hstep.2]
    · split at hstep
      · simp only [Prod.mk.injEq] at hstep
        rw [if_neg (by assumption), if_pos (by assumption), ← hstep.1, ← hstep.2]
      · simp only [Prod.mk.injEq] at hstep
        rw [if_neg (by assumption), if_neg (by assumption), ← hstep.1, ← hstep.2]

theorem sshrink_ok {P : Params} {t : Str} {a : SState} {b : Block Byte} {sl : List (Cell Byte)}
    (R : SRep P t a b sl) : SOpOK P t a .shrinkToFit := by
  obtain ⟨junk, st, s1, a1, b1, sl1, hj, hstep, hop, R1⟩ := shrinkToFit_ok R.rep
  simp only [vecOp] at hop
  simp only [step, List.length_append, List.length_singleton] at hstep
  have hm : max 1 (a.text.length + 1) = a.text.length + 1 := by omega
  rw [hm] at hstep
  refine SRep.of_res (st := stSuccess)
    (a' := if P.allocator.isSome then { a with bytes := a.text.length + 1 } else a) ?_ rfl rfl
  simp only [Prod.mk.injEq] at hstep
  obtain ⟨h1, h2⟩ := hstep
  subst h1
  simp only [strOp, strShrinkToFit, hop, Out.ret_bind']
  refine ⟨_, b1, sl1, rfl, ⟨?_, R.one, R.nod, R.fixed⟩⟩
  rw [← h2] at R1
  split at R1
  · rename_i h; rw [if_pos h]; exact R1
  · rename_i h; rw [if_neg h]; exact R1

/-- Every operation in the domain does what the specification says. -/
theorem sop_ok {P : Params} {t : Str} {a : SState} {b : Block Byte} {sl : List (Cell Byte)}
    (R : SRep P t a b sl) (op : SOp) (hd : SInDomain a op) : SOpOK P t a op := by
  cases op with
  | append x => exact sappend_ok R x hd
  | appendEx x j n => exact sappendEx_ok R x j n hd
  | insert i x => exact sinsert_ok R i x hd
  | insertEx i x j n => exact sinsertEx_ok R i x j n hd
  | delete i n => exact sdelete_ok R i n hd
  | truncate i => exact struncate_ok R i
  | clear => exact sclear_ok R
  | setChar i c => exact ssetChar_ok R i c hd
  | lower i n => exact slower_ok R i n hd
  | upper i n => exact supper_ok R i n hd
  | resize n => exact sresize_ok R n hd
  | reserve c => exact sreserve_ok R c hd
  | shrinkToFit => exact sshrink_ok R

end Zy
