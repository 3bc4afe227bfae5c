import Verif.Lemmas.Format

/-!
# Helper lemmas for `Props/FormatNeg`
-/

namespace Zy

open Spec

/-! ## Appending in pieces to a fixed buffer -/

/-- Outcome of appending pieces to a string of fixed capacity. -/
def StepRes (P : Params) (res : Out (Status × Str)) (a : SState) (xs : List (List (Cell Byte))) : Prop :=
  SRes P res (if a.text.length + xs.flatten.length + 1 ≤ a.bytes then stSuccess else stInsufficient)
    ⟨a.text ++ fittingPieces (a.bytes - (a.text.length + 1)) xs, a.bytes⟩

theorem NumRes.steps {P : Params} {res : Out (Status × Str)} {a : SState} {x : List (Cell Byte)}
    (h : NumRes P res a x) (hd : P.allocator = none) (hl : a.text.length + 1 ≤ a.bytes) :
    StepRes P res a [x] := by
  obtain ⟨h1, h2, _⟩ := h
  unfold StepRes
  simp only [List.flatten_cons, List.flatten_nil, List.append_nil, fittingPieces]
  by_cases hle : a.text.length + x.length + 1 ≤ a.bytes
  · rw [if_pos hle, if_pos (by omega)]; exact h1 hle
  · rw [if_neg hle, if_neg (by omega), List.append_nil]; exact h2 (by omega) hd

theorem append_steps {P : Params} {t : Str} {a : SState} {b : Block Byte} {sl : List (Cell Byte)}
    (R : SRep P t a b sl) (x rest : List (Cell Byte)) (hf : SFits (a.text.length + x.length + 1))
    (hd : P.allocator = none) :
    StepRes P (strAppend t ⟨x ++ rest, x.length + 1⟩) a [x] := by
  have h := append_res R x rest hf
  have hl := R.rep.len
  simp only [List.length_append, List.length_singleton] at hl
  unfold StepRes
  simp only [List.flatten_cons, List.flatten_nil, List.append_nil, fittingPieces]
  unfold appendText at h
  by_cases hx : x = []
  · subst hx
    rw [if_pos rfl] at h
    rw [if_pos (by simpa using hl), if_pos (by simp), List.append_nil]
    exact h
  · rw [if_neg hx, extend] at h
    by_cases hle : a.text.length + x.length + 1 ≤ a.bytes
    · rw [if_pos hle, trim, if_neg (by simp [hd])] at h
      rw [if_pos hle, if_pos (by omega)]
      exact h
    · rw [if_neg hle, room, if_neg hle, if_neg (by simp [hd])] at h
      rw [if_neg hle, if_neg (by omega), List.append_nil]
      exact h

theorem StepRes.bind {P : Params} {res : Out (Status × Str)} {a : SState} {x : List (Cell Byte)}
    {ys : List (List (Cell Byte))} {k : Str → Out (Status × Str)} (h : StepRes P res a [x])
    (hk : ∀ t' b' sl', SRep P t' ⟨a.text ++ x, a.bytes⟩ b' sl' → StepRes P (k t') ⟨a.text ++ x, a.bytes⟩ ys)
    (hl : a.text.length + 1 ≤ a.bytes) :
    StepRes P (res.bind fun r => if failed r.1 then .ret r else k r.2) a (x :: ys) := by
  unfold StepRes at h ⊢
  simp only [List.flatten_cons, List.flatten_nil, List.append_nil, fittingPieces] at h ⊢
  by_cases hle : a.text.length + x.length + 1 ≤ a.bytes
  · rw [if_pos hle, if_pos (by omega)] at h
    obtain ⟨t', b', sl', e, R⟩ := h
    rw [e, Out.ret_bind']
    simp only [failed_success, Bool.false_eq_true, if_false]
    have := hk t' b' sl' R
    unfold StepRes at this
    simp only [List.length_append, List.append_assoc] at this
    rw [if_pos (show x.length ≤ a.bytes - (a.text.length + 1) by omega)]
    have e1 : a.bytes - (a.text.length + 1) - x.length = a.bytes - (a.text.length + x.length + 1) := by omega
    simp only [e1, List.length_append, ← Nat.add_assoc]
    exact this
  · rw [if_neg hle, if_neg (by omega), List.append_nil] at h
    obtain ⟨t', b', sl', e, R⟩ := h
    rw [e, Out.ret_bind']
    simp only [failed_insufficient, if_true]
    rw [if_neg (by rw [List.length_append]; omega), if_neg (by omega), List.append_nil]
    exact ⟨t', b', sl', rfl, R⟩

theorem checkAppend_steps {P : Params} {t : Str} {a : SState} {b : Block Byte} {sl : List (Cell Byte)}
    (R : SRep P t a b sl) {v : View} {x : List Byte} {ys : List (List (Cell Byte))} (hv : Shows v x)
    (hf : SFits (a.text.length + x.length + 1)) (hd : P.allocator = none)
    {k : Str → Out (Status × Str)}
    (hk : ∀ t' b' sl', SRep P t' ⟨a.text ++ x.map some, a.bytes⟩ b' sl' →
      StepRes P (k t') ⟨a.text ++ x.map some, a.bytes⟩ ys) :
    StepRes P (checkAppend t v k) a (x.map some :: ys) := by
  obtain ⟨h1, rest, h2⟩ := hv
  obtain ⟨mem, size⟩ := v
  subst h1 h2
  have := append_steps R (x.map some) rest (by simpa using hf) hd
  rw [List.length_map] at this
  exact this.bind hk (by have := R.rep.len; simpa using this)

/-- An empty piece does not matter. -/
theorem StepRes.nil {P : Params} {res : Out (Status × Str)} {a : SState} {ys : List (List (Cell Byte))}
    (h : StepRes P res a ys) : StepRes P res a ([] :: ys) := by
  unfold StepRes at h ⊢
  simpa [fittingPieces] using h

theorem checkPrefix_steps {P : Params} {t : Str} {a : SState} {b : Block Byte} {sl : List (Cell Byte)}
    (R : SRep P t a b sl) {pre : Option View} {x : List Byte} {ys : List (List (Cell Byte))}
    (hv : PrefixShows pre x) (hf : SFits (a.text.length + x.length + 1)) (hd : P.allocator = none)
    {k : Str → Out (Status × Str)}
    (hk : ∀ t' b' sl', SRep P t' ⟨a.text ++ x.map some, a.bytes⟩ b' sl' →
      StepRes P (k t') ⟨a.text ++ x.map some, a.bytes⟩ ys) :
    StepRes P (checkPrefix t pre k) a (x.map some :: ys) := by
  cases pre with
  | none =>
    have hx : x = [] := hv
    subst hx
    have := hk t b sl (by simpa using R)
    rw [List.map_nil, List.append_nil] at this
    exact this.nil
  | some v => exact checkAppend_steps R hv hf hd hk

theorem signed_steps {P : Params} {t : Str} {a : SState} {b : Block Byte} {sl : List (Cell Byte)}
    (R : SRep P t a b sl) {number : Str → Nat → Out (Status × Str)} {num : Nat → List (Cell Byte)}
    (value : BitVec 64) (forceSign : Bool) {pre : Option View} {px : List Byte} (hpre : PrefixShows pre px)
    (hf : SFits (a.text.length + px.length + 301)) (hd : P.allocator = none)
    (hnum : ∀ t' a' b' sl' m, SRep P t' a' b' sl' → a'.bytes = a.bytes →
      a'.text.length ≤ a.text.length + px.length + 1 → m < 18446744073709551616 →
      StepRes P (number t' m) a' [num m]) :
    StepRes P (strAppendSigned number t value forceSign pre) a
      [(signOf value.toInt forceSign).map some, px.map some, num value.toInt.natAbs] := by
  unfold strAppendSigned signOf
  have hsub : Shows viewSub [45#8] := ⟨rfl, by decide⟩
  have hadd : Shows viewAdd [43#8] := ⟨rfl, by decide⟩
  have hlt : value.toInt.natAbs < 18446744073709551616 := by
    have h1 := BitVec.toInt_lt (x := value)
    have h2 := BitVec.le_toInt (x := value)
    simp only [Nat.add_one_sub_one, Int.reducePow] at h1 h2
    omega
  by_cases hn : value.toInt < 0
  · rw [if_pos hn, if_pos hn]
    refine checkAppend_steps R hsub (hf.mono (by simp; omega)) hd ?_
    intro t1 b1 sl1 R1
    refine checkPrefix_steps R1 hpre (hf.mono (by simp; omega)) hd ?_
    intro t2 b2 sl2 R2
    obtain ⟨m, hm, hmn⟩ := absI64_eq value
    rw [hm, Out.ret_bind', hmn]
    exact hnum _ _ _ _ _ R2 rfl (by simp; omega) hlt
  · rw [if_neg hn, if_neg hn]
    by_cases hs : forceSign = true
    · rw [if_pos hs, if_pos hs]
      refine checkAppend_steps R hadd (hf.mono (by simp; omega)) hd ?_
      intro t1 b1 sl1 R1
      refine checkPrefix_steps R1 hpre (hf.mono (by simp; omega)) hd ?_
      intro t2 b2 sl2 R2
      rw [toNat_of_nonneg hn]
      exact hnum _ _ _ _ _ R2 rfl (by simp; omega) hlt
    · rw [if_neg hs, if_neg hs]
      refine StepRes.nil (checkPrefix_steps R hpre (hf.mono (by omega)) hd ?_)
      intro t2 b2 sl2 R2
      rw [toNat_of_nonneg hn]
      exact hnum _ _ _ _ _ R2 rfl (by simp) hlt

theorem fittingPieces_map {n : Nat} : ∀ {xs : List (List Byte)},
    fittingPieces n (xs.map (List.map (some : Byte → Cell Byte))) = (fittingPieces n xs).map some := by
  intro xs
  induction xs generalizing n with
  | nil => rfl
  | cons p ps ih =>
    simp only [List.map_cons, fittingPieces, List.length_map]
    split
    · rw [ih, List.map_append]
    · rfl

/-! ## printf-style append -/

theorem toI32_asInt32 (n : Nat) : toI32 n = asInt32 n := by
  unfold toI32 asInt32
  rw [BitVec.toInt_ofNat']
  simp only [Int.bmod, Nat.reducePow]
  split <;> split <;> omega

theorem asInt32_le (n : Nat) : asInt32 n ≤ n := by
  unfold asInt32
  split <;> omega

/-- The first call of the formatter, with the byte it puts at the place of the terminator. -/
theorem format_first_exact {P : Params} {t : Str} {a : SState} {b : Block Byte} {sl : List (Cell Byte)}
    (R : SRep P t a b sl) (hb : a.bytes < 18446744073709551616) {res : FmtRes} {x : List Byte}
    (hres : res = .text x ∨ res = .error x) :
    ∃ v b' sl', vsnprintf t.s.v (sub64 t.s.v.size 1) (add64 (sub64 t.s.v.cap t.s.v.size) 1) res =
        .ret ((match res with
          | .error _ => -1
          | .text x => if x.length ≤ 0x7fffffff then x.length else -1), v) ∧
      Rep P ⟨v, t.s.w⟩ ⟨a.text ++ (written (a.bytes - (a.text.length + 1)) x).take 1, a.bytes, []⟩ b' sl' := by
  have hlen := R.rep.len
  simp only [List.length_append, List.length_singleton] at hlen
  have hcap : t.s.v.cap = a.bytes := R.rep.cap
  obtain ⟨M, hM, hMl⟩ := SRep.tail (pre := a.text) (junk := []) (c := a.bytes) (by simpa using R)
  rw [R.size, hcap, sub64_one (by omega), sub64_eq (by omega) hb, add64_eq (by omega)]
  obtain ⟨x', hx', e⟩ := vsnprintf_ok R.rep.data hM rfl (n := a.bytes - (a.text.length + 1) + 1)
    (by omega) (by omega) res
  have hxx : x' = x := by
    rcases hres with h | h <;> (rw [h] at hx'; rcases hx' with h | h <;> simp at h; exact h.symm)
  subst hxx
  unfold written
  rw [Nat.add_sub_cancel] at e
  have hl : ((x'.take (a.bytes - (a.text.length + 1))).map (some : Byte → Cell Byte) ++
      [some 0#8]).length = min x'.length (a.bytes - (a.text.length + 1)) + 1 := by
    simp [Nat.min_comm]
  cases hy : (x'.take (a.bytes - (a.text.length + 1))).map (some : Byte → Cell Byte) ++ [some 0#8] with
  | nil => simp at hy
  | cons c0 y =>
    rw [hy] at e hl
    have R1 := R.rep.setSize (ys := a.text ++ [c0])
      (rest := y ++ M.drop (min x'.length (a.bytes - (a.text.length + 1)) + 1)) (n := t.s.v.size)
      (by rw [hM]; simp at hl ⊢; omega) (by have := R.rep.fits; simpa using this)
      (by simpa using hlen) (by rw [R.size]; simp)
    simp only [List.append_assoc, List.cons_append, List.nil_append] at R1 e
    exact ⟨_, _, _, e, R1⟩

/-- Resizing a string whose terminator was overwritten, inside of its capacity. -/
theorem resize_inside {P : Params} {t : Str} {pre : List (Cell Byte)} {c0 : Cell Byte} {c : Nat}
    {b : Block Byte} {sl : List (Cell Byte)} (R : Rep P t.s ⟨pre ++ [c0], c, []⟩ b sl) (one : P.esz = 1)
    (nod : P.dtor = false) (hfix : t.fixed = P.allocator.isNone) {n : Nat}
    (hn : pre.length ≤ n) (hc : n + 1 ≤ c) (hf : SFits (n + 1)) :
    ∃ junk, junk.length = n - pre.length ∧
      SRes P (strResize t n) stSuccess ⟨pre ++ junk, if n = pre.length then c else trim P c (n + 1)⟩ := by
  have hf' := hf
  unfold SFits at hf'
  obtain ⟨junk, st, s1, a1, b1, sl1, hj, hstep, hop, R1⟩ := resize_ok R (n + 1) none ((fits_iff one _).2 hf)
  simp only [vecOp, initSrc] at hop
  have hle : (pre ++ [c0]).length = pre.length + 1 := by simp
  simp only [junkLen, hle] at hj
  have hrun : strResize t n = checkTerminate t (st, s1) := by
    simp only [strResize, add64_eq (show n + 1 < 18446744073709551616 by omega), vecResize, hop, Out.ret_bind']
  simp only [step, hle] at hstep
  by_cases h0 : n = pre.length
  · rw [if_pos (by omega)] at hstep
    simp only [Prod.mk.injEq] at hstep
    obtain ⟨h1, h2⟩ := hstep
    subst h1 h2
    refine ⟨[], by simp; omega, ?_⟩
    rw [hrun, if_pos h0, List.append_nil]
    exact checkTerminate_ok (t := t) R1 one nod hfix
  · rw [if_neg (by omega), room, if_pos hc] at hstep
    simp only at hstep
    rw [if_neg (by omega), if_pos hc] at hstep
    simp only [newElems, Prod.mk.injEq] at hstep
    obtain ⟨h1, h2⟩ := hstep
    subst h1 h2
    have hsn : [c0] ++ junk = ([c0] ++ junk).dropLast ++ [([c0] ++ junk).getLast (by simp)] := by
      rw [List.dropLast_concat_getLast]
    rw [List.append_assoc, hsn, ← List.append_assoc] at R1
    refine ⟨([c0] ++ junk).dropLast, by simp; omega, ?_⟩
    rw [hrun, if_neg h0]
    exact checkTerminate_ok (t := t) R1 one nod hfix

/-- The second call of the formatter. -/
theorem format_second {P : Params} {t : Str} {pre junk : List (Cell Byte)} {C : Nat} {b : Block Byte}
    {sl : List (Cell Byte)} (R : SRep P t ⟨pre ++ junk, C⟩ b sl) (hC : C < 18446744073709551616)
    {y : List Byte} :
    ∃ v D b' sl', vsnprintf t.s.v pre.length (add64 (sub64 t.s.v.cap t.s.v.size) 1) (.text y) =
        .ret ((if y.length ≤ 0x7fffffff then y.length else -1), v) ∧
      junk.length + 1 ≤ (written (C - (pre.length + junk.length + 1)) y ++ D).length ∧
      Rep P ⟨v, t.s.w⟩ ⟨pre ++ (written (C - (pre.length + junk.length + 1)) y ++ D).take (junk.length + 1),
        C, []⟩ b' sl' := by
  have hlen := R.rep.len
  simp only [List.length_append, List.length_singleton] at hlen
  have hcap : t.s.v.cap = C := R.rep.cap
  have hsize : t.s.v.size = pre.length + junk.length + 1 := by rw [R.size]; simp
  have hfits := R.rep.fits
  obtain ⟨M, hM, hMl⟩ := R.tail
  rw [hcap, hsize, sub64_eq (by omega) (by omega), add64_eq (by omega)]
  obtain ⟨x', hx', e⟩ := vsnprintf_ok R.rep.data hM rfl (n := C - (pre.length + junk.length + 1) + 1)
    (by omega) (by omega) (.text y)
  have hxx : x' = y := by rcases hx' with h | h <;> simp at h; exact h.symm
  subst hxx
  rw [Nat.add_sub_cancel] at e
  have hwl : (written (C - (pre.length + junk.length + 1)) x' ++
      M.drop (min x'.length (C - (pre.length + junk.length + 1)) + 1)).length = M.length := by
    unfold written; simp; omega
  have hl2 : junk.length + 1 ≤ M.length := by omega
  have R3 := R.rep.setSize
    (ys := pre ++ (written (C - (pre.length + junk.length + 1)) x' ++
      M.drop (min x'.length (C - (pre.length + junk.length + 1)) + 1)).take (junk.length + 1))
    (rest := (written (C - (pre.length + junk.length + 1)) x' ++
      M.drop (min x'.length (C - (pre.length + junk.length + 1)) + 1)).drop (junk.length + 1))
    (n := t.s.v.size)
    (by rw [hM, List.append_assoc, List.take_append_drop, List.length_append, List.length_append, hwl])
    (by
      have : (pre ++ (written (C - (pre.length + junk.length + 1)) x' ++
        M.drop (min x'.length (C - (pre.length + junk.length + 1)) + 1)).take (junk.length + 1)).length =
          (pre ++ junk ++ [some 0#8]).length := by
        rw [List.length_append, List.length_take, hwl]; simp; omega
      rw [this]; exact hfits)
    (by rw [List.length_append, List.length_take, hwl]; show _ ≤ C; omega)
    (by rw [List.length_append, List.length_take, hwl, hsize]; omega)
  rw [List.append_assoc, List.take_append_drop] at R3
  have e' : written (C - (pre.length + junk.length + 1)) x' =
    (x'.take (C - (pre.length + junk.length + 1))).map some ++ [some 0#8] := rfl
  rw [← e', List.append_assoc] at e
  exact ⟨_, M.drop (min x'.length (C - (pre.length + junk.length + 1)) + 1), _, _, e, by omega, R3⟩

/-- The storage after an append that may have cost the terminator. -/
theorem storage_of_rep {P : Params} {t : Str} {zs : List (Cell Byte)} {c : Nat} {b : Block Byte}
    {sl : List (Cell Byte)} (R : Rep P t.s ⟨zs, c, []⟩ b sl) (h1 : 1 ≤ zs.length)
    (h2 : zs.length < 18446744073709551616) :
    (storage t).take zs.length = zs ∧ strGetSize t = zs.length - 1 ∧ t.s.v.cap = c ∧
      textOf t = zs.take (zs.length - 1) := by
  have hs : storage t = zs ++ sl := by
    unfold storage
    rw [R.data]
    exact R.cells
  have hg : strGetSize t = zs.length - 1 := by
    unfold strGetSize
    rw [R.size, sub64_eq h1 h2]
  refine ⟨by rw [hs, List.take_left], hg, R.cap, ?_⟩
  unfold textOf
  rw [hs, hg, List.take_append_of_le_length (by omega)]

/-- The capacity after the resizing between the two calls of the formatter. -/
def formatCap (P : Params) (cap len k : Nat) : Nat :=
  if len + k + 1 ≤ cap then (if k = 0 then cap else trim P cap (len + k + 1)) else (len + k + 1) * P.growth

theorem format_exact {P : Params} {t : Str} {a : SState} {b : Block Byte} {sl : List (Cell Byte)}
    (R : SRep P t a b sl) (hb : a.bytes < 18446744073709551616) {fmt : Fmt} {x : List Byte}
    (hx : fmt 0 = .text x) (hx31 : x.length < 2147483648) (hf : SFits (a.text.length + x.length + 1)) :
    ((x.length : Int) ≤ asInt32 (a.bytes - (a.text.length + 1)) →
      SRes P (strAppendFormat t fmt) stSuccess ⟨a.text ++ x.map some, a.bytes⟩) ∧
    (asInt32 (a.bytes - (a.text.length + 1)) < x.length →
      (a.text.length + x.length + 1 ≤ a.bytes ∨ P.allocator ≠ none) → ∀ {y}, fmt 1 = .text y →
      y.length < 2147483648 → ∃ t' D b' sl', strAppendFormat t fmt = .ret (stSuccess, t') ∧
        x.length + 1 ≤ (written (formatCap P a.bytes a.text.length x.length -
          (a.text.length + x.length + 1)) y ++ D).length ∧
        Rep P t'.s ⟨a.text ++ (written (formatCap P a.bytes a.text.length x.length -
          (a.text.length + x.length + 1)) y ++ D).take (x.length + 1),
          formatCap P a.bytes a.text.length x.length, []⟩ b' sl') := by
  have hf' := hf
  unfold SFits at hf'
  have hlen := R.rep.len
  simp only [List.length_append, List.length_singleton] at hlen
  have hg255 := R.rep.growth255
  have hmul1 : (a.text.length + x.length + 1) * P.growth ≤ (a.text.length + x.length + 1) * 255 :=
    Nat.mul_le_mul_left _ hg255
  refine ⟨fun hle => ?_, fun hlt hroom y hy hy31 => ?_⟩
  · have hfit : a.text.length + x.length + 1 ≤ a.bytes := by
      have := asInt32_le (a.bytes - (a.text.length + 1)); omega
    have hcap : t.s.v.cap = a.bytes := R.rep.cap
    obtain ⟨M, hM, hMl⟩ := SRep.tail (pre := a.text) (junk := []) (c := a.bytes) (by simpa using R)
    unfold strAppendFormat
    simp only
    rw [R.size, hcap, sub64_one (by omega), sub64_eq (by omega) hb, add64_eq (by omega)]
    obtain ⟨x', hx', e⟩ := vsnprintf_ok R.rep.data hM rfl (n := a.bytes - (a.text.length + 1) + 1)
      (by omega) (by omega) (fmt 0)
    have : x' = x := by rw [hx] at hx'; rcases hx' with h | h <;> simp at h; exact h.symm
    subst this
    rw [e, Out.ret_bind', hx]
    simp only [hcap]
    rw [if_pos (show x'.length ≤ 0x7fffffff by omega), if_neg (by omega), sub64_eq (by omega) hb,
      toI32_asInt32, if_pos hle, Int.toNat_natCast, add64_eq (by omega)]
    have htake : x'.take (a.bytes - (a.text.length + 1) + 1 - 1) = x' := List.take_of_length_le (by omega)
    rw [htake]
    have R1 := R.rep.setSize (ys := a.text ++ x'.map some ++ [some 0#8])
      (rest := M.drop (min x'.length (a.bytes - (a.text.length + 1) + 1 - 1) + 1))
      (n := a.text.length + 1 + x'.length)
      (by rw [hM]; simp; omega) ((fits_iff R.one _).2 (hf.mono (by simp; omega))) (by simp; omega) (by simp; omega)
    simp only [hcap] at R1
    rw [← List.append_assoc]
    exact ⟨_, _, _, rfl, ⟨R1, R.one, R.nod, R.fixed⟩⟩
  · obtain ⟨v, c0, b1, sl1, e, R1⟩ := format_first R hb (fmt 0)
    have hcap : v.cap = a.bytes := R1.cap
    have hsize : v.size = a.text.length + 1 := by rw [R1.size]; simp
    unfold strAppendFormat
    simp only
    rw [e, Out.ret_bind', hx]
    simp only [hcap, hsize, R.size]
    rw [if_pos (show x.length ≤ 0x7fffffff by omega), if_neg (by omega), sub64_eq (by omega) (by omega),
      toI32_asInt32, if_neg (by omega), Int.toNat_natCast, add64_eq (by omega),
      show sub64 (a.text.length + 1 + x.length) 1 = a.text.length + x.length by
        rw [sub64_eq (by omega) (by omega)]; omega]
    have hres : ∃ junk, junk.length = x.length ∧ SRes P (strResize ⟨⟨v, t.s.w⟩, t.fixed⟩
        (a.text.length + x.length)) stSuccess
        ⟨a.text ++ junk, formatCap P a.bytes a.text.length x.length⟩ := by
      unfold formatCap
      by_cases hin : a.text.length + x.length + 1 ≤ a.bytes
      · obtain ⟨junk, hj, hs⟩ := resize_inside (t := ⟨⟨v, t.s.w⟩, t.fixed⟩) R1 R.one R.nod R.fixed
          (n := a.text.length + x.length) (by omega) hin hf
        refine ⟨junk, by omega, ?_⟩
        rw [if_pos hin]
        by_cases h0 : x.length = 0
        · rw [if_pos h0]; rw [if_pos (by omega)] at hs; exact hs
        · rw [if_neg h0]; rw [if_neg (by omega)] at hs; exact hs
      · obtain ⟨junk, hj, hs⟩ := (grow_any (t := ⟨⟨v, t.s.w⟩, t.fixed⟩) R1 R.one R.nod R.fixed
          (n := a.text.length + x.length) (by omega) (by omega) (by simpa using hf)).1
          (hroom.resolve_left hin)
        rw [if_neg hin]
        exact ⟨junk, by omega, hs⟩
    obtain ⟨junk, hj, t2, b2, sl2, e2, R2⟩ := hres
    have hC : formatCap P a.bytes a.text.length x.length < 18446744073709551616 := by
      unfold formatCap trim
      split
      · split
        · exact hb
        · split
          · omega
          · exact hb
      · omega
    rw [e2, Out.ret_bind']
    simp only [failed_success, Bool.false_eq_true, if_false]
    obtain ⟨v', D, b', sl', e3, hD, R3⟩ := format_second R2 hC (y := y)
    rw [sub64_one (by omega), hy, e3, Out.ret_bind', hj] at *
    simp only
    rw [if_pos (show y.length ≤ 0x7fffffff by omega), if_neg (by omega)]
    exact ⟨_, D, b', sl', rfl, hD, R3⟩

/-- Failing calls, with the byte at the place of the terminator. -/
theorem format_fails_exact {P : Params} {t : Str} {a : SState} {b : Block Byte} {sl : List (Cell Byte)}
    (R : SRep P t a b sl) {fmt : Fmt} (hb : a.bytes < 18446744073709551616) {st : Status} {x : List Byte}
    (hcase : (fmt 0 = .error x ∧ st = stFailed) ∨
      (fmt 0 = .text x ∧ x.length < 2147483648 ∧ P.allocator = none ∧ st = stInsufficient ∧
        a.bytes < a.text.length + x.length + 1 ∧ SFits (a.text.length + x.length + 1))) :
    ∃ t' b' sl', strAppendFormat t fmt = .ret (st, t') ∧
      Rep P t'.s ⟨a.text ++ (written (a.bytes - (a.text.length + 1)) x).take 1, a.bytes, []⟩ b' sl' := by
  have hlen := R.rep.len
  simp only [List.length_append, List.length_singleton] at hlen
  have hres : fmt 0 = .text x ∨ fmt 0 = .error x := by
    rcases hcase with h | h
    · exact Or.inr h.1
    · exact Or.inl h.1
  obtain ⟨v, b1, sl1, e, R1⟩ := format_first_exact R hb hres
  have hw : ∃ c0, (written (a.bytes - (a.text.length + 1)) x).take 1 = [c0] := by
    unfold written
    cases (x.take (a.bytes - (a.text.length + 1))) with
    | nil => exact ⟨_, rfl⟩
    | cons c y => exact ⟨some c, by simp⟩
  obtain ⟨c0, hw⟩ := hw
  rw [hw] at R1 ⊢
  have hcap : v.cap = a.bytes := R1.cap
  have hsize : v.size = a.text.length + 1 := by rw [R1.size]; simp
  unfold strAppendFormat
  simp only
  rw [e, Out.ret_bind']
  rcases hcase with ⟨hx, hst⟩ | ⟨hx, hx31, hd, hst, h, hf⟩
  · rw [hx, hst]
    simp only
    rw [if_pos (by omega)]
    exact ⟨_, b1, sl1, rfl, R1⟩
  · have hf' := hf
    unfold SFits at hf'
    have hle := asInt32_le (a.bytes - (a.text.length + 1))
    rw [hx, hst]
    simp only [hcap, hsize, R.size]
    rw [if_pos (show x.length ≤ 0x7fffffff by omega), if_neg (by omega), sub64_eq (by omega) (by omega),
      toI32_asInt32, if_neg (by omega), Int.toNat_natCast, add64_eq (by omega),
      show sub64 (a.text.length + 1 + x.length) 1 = a.text.length + x.length by
        rw [sub64_eq (by omega) (by omega)]; omega]
    obtain ⟨s', b', sl', e2, R2⟩ := (grow_any (t := ⟨⟨v, t.s.w⟩, t.fixed⟩) R1 R.one R.nod R.fixed
      (n := a.text.length + x.length) (by omega) (by omega) (by simpa using hf)).2 hd
    rw [e2, Out.ret_bind']
    simp only [failed_insufficient, if_true]
    exact ⟨_, b', sl', rfl, R2⟩

theorem len_cap {P : Params} {t : Str} {a : SState} {b : Block Byte} {sl : List (Cell Byte)}
    (R : SRep P t a b sl) : (textOf t).length + 1 ≤ t.s.v.cap := by
  have h1 := R.rep.len
  have h2 : t.s.v.cap = a.bytes := R.rep.cap
  simp only [List.length_append, List.length_singleton] at h1
  rw [R.textOf, h2]
  exact h1

end Zy
