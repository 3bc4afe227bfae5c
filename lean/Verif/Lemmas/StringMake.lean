import Verif.Lemmas.String

/-!
# Helper lemmas: observations and constructors of strings
-/

namespace Zy

open Spec

theorem sabsOf_text (t : Str) : (sabsOf t).text = textOf t := by rw [sabsOf]
theorem sabsOf_bytes (t : Str) : (sabsOf t).bytes = t.s.v.cap := by rw [sabsOf]

theorem SRep.getSize {P : Params} {t : Str} {a : SState} {b : Block Byte} {sl : List (Cell Byte)}
    (R : SRep P t a b sl) : strGetSize t = a.text.length := by
  have := R.small
  unfold strGetSize
  rw [R.size, sub64_eq (by omega) (by omega)]; omega

theorem SRep.storage {P : Params} {t : Str} {a : SState} {b : Block Byte} {sl : List (Cell Byte)}
    (R : SRep P t a b sl) : storage t = a.text ++ [some 0#8] ++ sl := by
  unfold Zy.storage
  rw [R.rep.data]
  exact R.rep.cells

theorem SRep.textOf {P : Params} {t : Str} {a : SState} {b : Block Byte} {sl : List (Cell Byte)}
    (R : SRep P t a b sl) : textOf t = a.text := by
  unfold Zy.textOf
  rw [R.getSize, R.storage, List.append_assoc, List.take_left]

theorem SRep.abs_eq {P : Params} {t : Str} {a : SState} {b : Block Byte} {sl : List (Cell Byte)}
    (R : SRep P t a b sl) : sabsOf t = a := by
  unfold sabsOf
  rw [R.textOf, R.rep.cap]

theorem SRep.terminated {P : Params} {t : Str} {a : SState} {b : Block Byte} {sl : List (Cell Byte)}
    (R : SRep P t a b sl) : Terminated t := by
  unfold Terminated
  rw [R.textOf, R.getSize, R.storage]
  simp

/-- Parameters of a dynamic string. -/
def DynP (P : Params) (a : Nat) : Prop :=
  P.allocator = some a ∧ P.growth ≤ 255 ∧ P.thr ≤ 255 ∧ P.esz = 1 ∧ P.dtor = false

/-- Parameters of a string on a caller buffer. -/
def FixP (P : Params) : Prop :=
  P.allocator = none ∧ P.growth = 1 ∧ P.thr = 0 ∧ P.esz = 1 ∧ P.dtor = false

theorem strInitEx_ok {P : Params} {w : World Byte} {cap a : Nat} (hw : Fresh w) (hr : Reliable w)
    (hP : DynP P a) (hg : 1 ≤ P.growth) (hc : max 32 cap + 1 < 18446744073709551616) :
    ∃ t b sl, strInitEx w cap (some a) P.growth P.thr = .ret (stSuccess, some t, t.s.w) ∧
      SRep P t ⟨[], max 32 cap + 1⟩ b sl ∧ b.id = w.nextBlk := by
  obtain ⟨hP1, hP2, hP3, hP4, hP5⟩ := hP
  have hadd : add64 (max 32 cap) 1 = max 32 cap + 1 := add64_eq hc
  cases hi : vecInitEx w P.esz (max 32 cap + 1) P.dtor (some a) P.growth P.thr with
  | mk st r =>
    obtain ⟨ov, w'⟩ := r
    cases ov with
    | none =>
      exfalso
      unfold vecInitEx at hi
      simp only at hi
      rw [if_neg (by omega)] at hi
      simp [allocate, hr w.calls] at hi
    | some v =>
      obtain ⟨hst, b, sl, R⟩ := init_rep hw hr ⟨hP1, hP2, hP3⟩
        (by rw [hP4]; omega) hi
      have hb : b.id = w.nextBlk := by
        have hd := R.data
        unfold vecInitEx at hi
        simp only at hi
        rw [if_neg (by omega)] at hi
        simp only [allocate, hr w.calls, Prod.mk.injEq, Option.some.injEq] at hi
        rw [← hi.2.1] at hd
        simp at hd
        rw [← hd]
      have hm : max 1 (max 32 cap + 1) = max 32 cap + 1 := by omega
      rw [hm] at R
      obtain ⟨v', e, R'⟩ := strStart_ok R hP4
      rw [hP4, hP5] at hi
      refine ⟨⟨⟨v', w'⟩, false⟩, _, _, ?_, ⟨R', hP4, hP5, by simp [hP1]⟩, hb⟩
      have hvf : failed (vecInitEx w 1 (max 32 cap + 1) false (some a) P.growth P.thr).1 = false := by
        rw [hi]; exact hst
      unfold strInitEx
      simp only [hadd, hi, hst, Bool.false_eq_true, if_false]
      simp only at e
      rw [e, Out.ret_bind']

theorem strInitEx_growth0 {w : World Byte} {cap a g thr : Nat} (hg : ¬ 1 ≤ g) :
    strInitEx w cap (some a) g thr = .ret (stInvalidArgument, none, w) := by
  unfold strInitEx vecInitEx
  simp only
  rw [if_pos (Or.inr (by omega))]
  simp

theorem strInitBuffer_ok {P : Params} {w : World Byte} {cap : Nat} {b : Block Byte} (hw : Fresh w)
    (hr : Reliable w) (hP : FixP P) (hb : cap ≤ b.cells.length) (hc : cap ≠ 0) :
    ∃ v, strInitBuffer w (some b) cap = .ret (stSuccess, some ⟨⟨v, w⟩, true⟩) ∧
      SRep P ⟨⟨v, w⟩, true⟩ ⟨[], cap⟩ ⟨b.id, [some 0#8] ++ b.cells.drop 1⟩ (b.cells.drop 1) := by
  obtain ⟨hP1, hP2, hP3, hP4, hP5⟩ := hP
  have hi : vecInitBuffer P.esz (some b) cap P.dtor = (stSuccess, some
      { allocator := none, growth := 1, shrink := 0, size := 0, cap := cap, esz := P.esz,
        hasDtor := P.dtor, data := some b }) := by
    unfold vecInitBuffer
    simp only
    rw [if_neg (by omega)]
  obtain ⟨_, _, R⟩ := initBuffer_rep hw hr ⟨hP1, hP2, hP3⟩ hb (by omega) hi
  obtain ⟨v', e, R'⟩ := strStart_ok R hP4
  refine ⟨v', ?_, ⟨R', hP4, hP5, by simp [hP1]⟩⟩
  rw [hP4, hP5] at hi
  unfold strInitBuffer
  rw [if_neg hc]
  simp only [hi, failed_success, Bool.false_eq_true, if_false]
  rw [hP4, hP5] at e
  simp only at e
  rw [e, Out.ret_bind']

theorem strInitBuffer_zero {w : World Byte} {b : Option (Block Byte)} :
    strInitBuffer w b 0 = .ret (stInvalidArgument, none) := by simp [strInitBuffer]

/-- Setting the size field of a vector that represents an empty text, over bytes already in its block. -/
theorem Rep.setSize {P : Params} {s : VS Byte} {xs : List (Cell Byte)} {cap : Nat} {b : Block Byte}
    {sl : List (Cell Byte)} (R : Rep P s ⟨xs, cap, []⟩ b sl) {ys rest : List (Cell Byte)}
    (hb : b.cells.length = (ys ++ rest).length) (hf : Fits P ys.length) (hl : ys.length ≤ cap)
    {n : Nat} (hn : n = ys.length) :
    Rep P ⟨{ s.v with data := some ⟨b.id, ys ++ rest⟩, size := n }, s.w⟩ ⟨ys, cap, []⟩
      ⟨b.id, ys ++ rest⟩ rest := by
  subst hn
  exact { R with
    size := rfl
    data := rfl
    cells := rfl
    room := by simp only [← hb]; exact R.room
    dyn := by intro h; simp only [← hb]; exact R.dyn h
    fits := hf
    len := hl
    alloc := by have := R.alloc; unfold AllocOK at *; exact this }

/-- A copy from memory into the block of a vector, wherever it fits. -/
theorem vecMemcpy_raw {v : Vec Byte} {b : Block Byte} (hd : v.data = some b)
    {pre mid post ys rest : List (Cell Byte)} (hb : b.cells = pre ++ mid ++ post)
    (h : ys.length = mid.length) {i n : Nat} (hi : i = pre.length) (hn : n = ys.length) :
    vecMemcpy v i (.ext (ys ++ rest)) n = .ret { v with data := some ⟨b.id, pre ++ ys ++ post⟩ } := by
  subst hi hn
  have h1 : readRange (ys ++ rest) 0 ys.length = .ret ys := by simp [readRange]
  unfold vecMemcpy
  rw [hd]
  simp only [withData, memcpyIn, h1, Out.ret_bind', hb, writeRange_at h]

theorem split3 {α : Type} (l : List α) (i n : Nat) :
    l = l.take i ++ (l.drop i).take n ++ l.drop (i + n) := by
  rw [List.append_assoc, ← List.drop_drop, List.take_append_drop, List.take_append_drop]

theorem dupInto_ok {P : Params} {t : Str} {cap : Nat} {b : Block Byte} {sl : List (Cell Byte)}
    (R : SRep P t ⟨[], cap⟩ b sl) {x rest : List (Cell Byte)} (hf : SFits (x.length + 1))
    (hc : x.length + 1 ≤ cap) :
    ∃ s' b' sl', dupInto t ⟨x ++ rest, x.length + 1⟩ = .ret { t with s := s' } ∧ s'.w = t.s.w ∧
      SRep P { t with s := s' } ⟨x, cap⟩ b' sl' ∧ b'.id = b.id := by
  have hf' := hf
  unfold SFits at hf'
  have hsub : sub64 (x.length + 1) 1 = x.length := by
    rw [sub64_eq (by omega) (by omega)]; omega
  have hroom := R.rep.room
  simp only at hroom
  have hcopy := vecMemcpy_raw R.rep.data (pre := []) (mid := b.cells.take x.length)
    (post := b.cells.drop x.length) (ys := x) (rest := rest)
    (by rw [List.nil_append, List.take_append_drop]) (by rw [List.length_take]; omega)
    (i := 0) (n := x.length) rfl rfl
  rw [List.nil_append] at hcopy
  have hdrop : b.cells.drop x.length = [b.cells[x.length]'(by omega)] ++ b.cells.drop (x.length + 1) := by
    rw [List.drop_eq_getElem_cons (by omega)]; rfl
  have R1 := Rep.setSize R.rep (ys := x ++ [b.cells[x.length]'(by omega)])
    (rest := b.cells.drop (x.length + 1)) (by simp; omega)
    (by rw [fits_iff R.one]; simpa using hf) (by simpa using hc) (n := x.length + 1) (by simp)
  have hassoc : x ++ [b.cells[x.length]'(by omega)] ++ b.cells.drop (x.length + 1) =
      x ++ b.cells.drop x.length := by rw [hdrop, List.append_assoc]
  rw [hassoc] at R1
  obtain ⟨s', e, hw, R2⟩ := nullTerminate_ok' (t := ⟨_, t.fixed⟩) R1
  refine ⟨s', _, _, ?_, hw, ⟨R2, R.one, R.nod, R.fixed⟩, rfl⟩
  unfold dupInto
  rw [hsub, hcopy, Out.ret_bind']
  exact e

theorem concatInto_ok {P : Params} {t : Str} {cap : Nat} {b : Block Byte} {sl : List (Cell Byte)}
    (R : SRep P t ⟨[], cap⟩ b sl) {x y rest rest' : List (Cell Byte)}
    (hf : SFits (x.length + y.length + 1)) (hc : x.length + y.length + 1 ≤ cap) :
    ∃ s' b' sl', concatInto t ⟨x ++ rest, x.length + 1⟩ ⟨y ++ rest', y.length + 1⟩ =
        .ret { t with s := s' } ∧ s'.w = t.s.w ∧
      SRep P { t with s := s' } ⟨x ++ y, cap⟩ b' sl' ∧ b'.id = b.id := by
  have hf' := hf
  unfold SFits at hf'
  have hsub : sub64 (x.length + 1) 1 = x.length := by
    rw [sub64_eq (by omega) (by omega)]; omega
  have hsub2 : sub64 (y.length + 1) 1 = y.length := by
    rw [sub64_eq (by omega) (by omega)]; omega
  have hsz : sub64 (add64 (x.length + 1) (y.length + 1)) 1 = x.length + y.length + 1 := by
    rw [add64_eq (by omega), sub64_eq (by omega) (by omega)]; omega
  have hroom := R.rep.room
  simp only at hroom
  have hcopy := vecMemcpy_raw R.rep.data (pre := []) (mid := b.cells.take x.length)
    (post := b.cells.drop x.length) (ys := x) (rest := rest)
    (by rw [List.nil_append, List.take_append_drop]) (by rw [List.length_take]; omega)
    (i := 0) (n := x.length) rfl rfl
  rw [List.nil_append] at hcopy
  have hcopy2 := vecMemcpy_raw (v := { t.s.v with data := some ⟨b.id, x ++ b.cells.drop x.length⟩ })
    (b := ⟨b.id, x ++ b.cells.drop x.length⟩) rfl
    (pre := x) (mid := (b.cells.drop x.length).take y.length)
    (post := b.cells.drop (x.length + y.length)) (ys := y) (rest := rest')
    (by rw [← List.drop_drop, List.append_assoc, List.take_append_drop])
    (by rw [List.length_take, List.length_drop]; omega)
    (i := x.length) (n := y.length) rfl rfl
  simp only at hcopy2
  have hdrop : b.cells.drop (x.length + y.length) =
      [b.cells[x.length + y.length]'(by omega)] ++ b.cells.drop (x.length + y.length + 1) := by
    rw [List.drop_eq_getElem_cons (by omega)]; rfl
  have R1 := Rep.setSize R.rep (ys := x ++ y ++ [b.cells[x.length + y.length]'(by omega)])
    (rest := b.cells.drop (x.length + y.length + 1)) (by simp; omega)
    (by rw [fits_iff R.one]; simpa [Nat.add_assoc] using hf)
    (by simpa [Nat.add_assoc] using hc) (n := x.length + y.length + 1) (by simp [Nat.add_assoc])
  have hassoc : x ++ y ++ [b.cells[x.length + y.length]'(by omega)] ++
      b.cells.drop (x.length + y.length + 1) = x ++ y ++ b.cells.drop (x.length + y.length) := by
    rw [hdrop, List.append_assoc (x ++ y)]
  rw [hassoc] at R1
  obtain ⟨s', e, hw, R2⟩ := nullTerminate_ok' (t := ⟨_, t.fixed⟩) R1
  refine ⟨s', _, _, ?_, hw, ⟨R2, R.one, R.nod, R.fixed⟩, rfl⟩
  unfold concatInto
  rw [hsub, hsub2, hsz, hcopy, Out.ret_bind', hcopy2, Out.ret_bind']
  exact e

theorem strDuplicateEx_ok {P : Params} {w : World Byte} {cap a : Nat} (hw : Fresh w) (hr : Reliable w)
    (hP : DynP P a) (hg : 1 ≤ P.growth) (hc : max 32 cap + 1 < 18446744073709551616)
    {x rest : List (Cell Byte)} (hf : SFits (x.length + 1)) :
    ∃ t b sl, strDuplicateEx w ⟨x ++ rest, x.length + 1⟩ cap (some a) P.growth P.thr =
        .ret (stSuccess, some t, t.s.w) ∧
      SRep P t ⟨x, max 32 (max cap x.length) + 1⟩ b sl ∧ b.id = w.nextBlk := by
  have hf' := hf
  unfold SFits at hf'
  have hsub : sub64 (x.length + 1) 1 = x.length := by
    rw [sub64_eq (by omega) (by omega)]; omega
  obtain ⟨t, b, sl, e, R, hb⟩ := strInitEx_ok hw hr hP hg (cap := max cap x.length) (by omega)
  obtain ⟨s', b', sl', e', hw', R', hb'⟩ := dupInto_ok R hf (rest := rest) (by omega)
  refine ⟨_, b', sl', ?_, R', hb'.trans hb⟩
  unfold strDuplicateEx
  rw [if_neg (by simp)]
  simp only [hsub, e, Out.ret_bind', failed_success, Bool.false_eq_true, if_false]
  rw [e', Out.ret_bind', hw']

theorem strConcatEx_ok {P : Params} {w : World Byte} {cap a : Nat} (hw : Fresh w) (hr : Reliable w)
    (hP : DynP P a) (hg : 1 ≤ P.growth) (hc : max 32 cap + 1 < 18446744073709551616)
    {x y rest rest' : List (Cell Byte)} (hf : SFits (x.length + y.length + 1)) :
    ∃ t b sl, strConcatEx w ⟨x ++ rest, x.length + 1⟩ ⟨y ++ rest', y.length + 1⟩ cap (some a) P.growth
        P.thr = .ret (stSuccess, some t, t.s.w) ∧
      SRep P t ⟨x ++ y, max 32 (max cap (x.length + y.length)) + 1⟩ b sl ∧ b.id = w.nextBlk := by
  have hf' := hf
  unfold SFits at hf'
  have hsz : sub64 (sub64 (add64 (x.length + 1) (y.length + 1)) 1) 1 = x.length + y.length := by
    have h1 : sub64 (add64 (x.length + 1) (y.length + 1)) 1 = x.length + y.length + 1 := by
      rw [add64_eq (by omega), sub64_eq (by omega) (by omega)]; omega
    rw [h1, sub64_eq (by omega) (by omega)]; omega
  obtain ⟨t, b, sl, e, R, hb⟩ :=
    strInitEx_ok hw hr hP hg (cap := max cap (x.length + y.length)) (by omega)
  obtain ⟨s', b', sl', e', hw', R', hb'⟩ :=
    concatInto_ok R hf (rest := rest) (rest' := rest') (by omega)
  refine ⟨_, b', sl', ?_, R', hb'.trans hb⟩
  unfold strConcatEx
  rw [if_neg (by simp)]
  simp only [hsz, e, Out.ret_bind', failed_success, Bool.false_eq_true, if_false]
  rw [e', Out.ret_bind', hw']

theorem strDuplicateBuffer_ok {P : Params} {w : World Byte} {cap : Nat} {b : Block Byte} (hw : Fresh w)
    (hr : Reliable w) (hP : FixP P) (hb : cap ≤ b.cells.length) {x rest : List (Cell Byte)}
    (hf : SFits (x.length + 1)) (hc : x.length + 1 ≤ cap) :
    ∃ t b' sl, strDuplicateBuffer w ⟨x ++ rest, x.length + 1⟩ (some b) cap = .ret (stSuccess, some t) ∧
      SRep P t ⟨x, cap⟩ b' sl ∧ b'.id = b.id ∧ t.s.w = w := by
  obtain ⟨v, e, R⟩ := strInitBuffer_ok hw hr hP hb (by omega)
  obtain ⟨s', b', sl', e', hw', R', hb'⟩ := dupInto_ok R hf (rest := rest) (by omega)
  refine ⟨_, b', sl', ?_, R', hb', hw'⟩
  unfold strDuplicateBuffer
  rw [if_neg (by simp), if_neg (by simp only; omega)]
  simp only [e, Out.ret_bind', failed_success, Bool.false_eq_true, if_false]
  rw [e', Out.ret_bind']

theorem strConcatBuffer_ok {P : Params} {w : World Byte} {cap : Nat} {b : Block Byte} (hw : Fresh w)
    (hr : Reliable w) (hP : FixP P) (hb : cap ≤ b.cells.length) {x y rest rest' : List (Cell Byte)}
    (hf : SFits (x.length + y.length + 1)) (hc : x.length + y.length + 1 ≤ cap) :
    ∃ t b' sl, strConcatBuffer w ⟨x ++ rest, x.length + 1⟩ ⟨y ++ rest', y.length + 1⟩ (some b) cap =
        .ret (stSuccess, some t) ∧
      SRep P t ⟨x ++ y, cap⟩ b' sl ∧ b'.id = b.id ∧ t.s.w = w := by
  have hf' := hf
  unfold SFits at hf'
  have hsz : sub64 (add64 (x.length + 1) (y.length + 1)) 1 = x.length + y.length + 1 := by
    rw [add64_eq (by omega), sub64_eq (by omega) (by omega)]; omega
  obtain ⟨v, e, R⟩ := strInitBuffer_ok hw hr hP hb (by omega)
  obtain ⟨s', b', sl', e', hw', R', hb'⟩ :=
    concatInto_ok R hf (rest := rest) (rest' := rest') (by omega)
  refine ⟨_, b', sl', ?_, R', hb', hw'⟩
  unfold strConcatBuffer
  rw [if_neg (by simp)]
  simp only [hsz]
  rw [if_neg (by omega)]
  simp only [e, Out.ret_bind', failed_success, Bool.false_eq_true, if_false]
  rw [e', Out.ret_bind']

end Zy
