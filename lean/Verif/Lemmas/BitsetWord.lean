import Verif.Spec.BitsetWord
import Verif.Lemmas.VectorWordReach
import Verif.Lemmas.BitsetReach

/-!
# Lemmas: the bitset functions with another width of `size_t`
-/

namespace Zy

open Spec

/-- A represented bitset whose bytes fit into the smaller word. -/
structure BRepW (m : Nat) (P : Params) (t : Bits) (a : BState) (bytes : List Byte) (b : Block Byte)
    (sl : List (Cell Byte)) : Prop where
  brep : BRep P t a bytes b sl
  word : m ≤ 18446744073709551616
  fits : FitsW m P (max 1 bytes.length)

section
variable {m : Nat} {P : Params} {t : Bits} {a : BState} {bytes : List Byte} {b : Block Byte}
  {sl : List (Cell Byte)}

theorem BRepW.lt (R : BRepW m P t a bytes b sl) : max 1 bytes.length * 255 < m := by
  have h := R.fits
  unfold FitsW at h
  rw [R.brep.par.1, Nat.mul_one] at h
  exact h

theorem BRepW.repW (R : BRepW m P t a bytes b sl) : RepW m P t.s ⟨bytes.map some, a.cap, []⟩ b sl := by
  have h := R.lt
  refine ⟨R.brep.rep, R.word, ?_, ?_⟩
  · rw [R.brep.par.1]; omega
  · exact fits_le R.fits (by rw [List.length_map]; omega)

theorem BRepW.bits (R : BRepW m P t a bytes b sl) : a.bits.length + 8 < m := by
  have h1 := R.lt
  have h2 := R.brep.len
  omega

theorem opBW_eq (R : BRepW m P t a bytes b sl) (op : BOp) (hd : BInDomainW m P a op) :
    bsOpW m t op = bsOp t op := by
  have hw := R.word
  have hb := R.bits
  have hsz := R.brep.size
  have hlt := R.lt
  cases op with
  | push v =>
    show bsPushW m t v = bsPush t v
    have e1 : addW m t.size 1 = t.size + 1 := by rw [addW_eq hw (by omega), add64_eq (by omega)]
    have e1' : add64 t.size 1 = t.size + 1 := add64_eq (by omega)
    have e2 : subW m (t.size + 1) 1 = t.size := subW_nat (by omega) (by omega)
    have e2' : sub64 (t.size + 1) 1 = t.size := sub64_eq (by omega) (by omega)
    unfold bsPushW bsPush
    simp only [e1, e1', e2, e2']
    clear e1 e1' e2 e2'
    by_cases h8 : t.size % 8 = 0
    · have hs : a.stray = [] := by
        have h1 := R.brep.len
        have h2 := R.brep.short
        exact List.length_eq_zero_iff.1 (by omega)
      have hpush : vecPushBackW m t.s (.ext [some 0#8]) = vecPushBack t.s (.ext [some 0#8]) := by
        have hf := (hd hs).1
        rw [← R.brep.bytes_len] at hf
        exact opW_eq R.repW (.push (some 0#8)) (show FitsW m P _ by rw [List.length_map]; exact hf)
      rw [hpush]
    · simp only [h8, if_false]
  | pop =>
    have hne : a.bits ≠ [] := hd
    have hpos : 0 < a.bits.length := List.length_pos_iff.2 hne
    show bsPopW m t = bsPop t
    have hpop : vecPopBackW m t.s = vecPopBack t.s := opW_eq R.repW .pop trivial
    unfold bsPopW bsPop
    simp only [subW_eq hw (show 1 ≤ t.size by omega) (show t.size < m by omega), hpop]
  | clear =>
    show bsClearW m t = bsClear t
    have e : vecClearW m t.s = vecClear t.s := opW_eq R.repW .clear trivial
    unfold bsClearW bsClear
    rw [e]
  | reserve n =>
    show bsReserveW m t n = bsReserve t n
    have hn : bitsToBytes n = n / 8 := bitsToBytes_eq hd.1
    have hnm : n < m := hd.2
    have e : vecReserveW m t.s (n / 8) = vecReserve t.s (n / 8) :=
      opW_eq R.repW (.reserve (n / 8)) (show n / 8 * P.esz < m by rw [R.brep.par.1]; omega)
    unfold bsReserveW bsReserve
    rw [hn, e]
  | shrinkToFit =>
    show bsShrinkToFitW m t = bsShrinkToFit t
    have e : vecShrinkToFitW m t.s = vecShrinkToFit t.s := opW_eq R.repW .shrinkToFit trivial
    unfold bsShrinkToFitW bsShrinkToFit
    rw [e]
  | set i => rfl
  | reset i => rfl
  | assign i v => rfl
  | toggle i => rfl
  | setAll => rfl
  | resetAll => rfl
  | flip => rfl

theorem FitsW.wide64 (hm : m ≤ 18446744073709551616) {n : Nat} (h : FitsW m P n) : Fits P n :=
  Nat.lt_of_lt_of_le h hm

theorem BInDomainW.wide (hm : m ≤ 18446744073709551616) {op : BOp} (h : BInDomainW m P a op) :
    BInDomain P a op := by
  cases op with
  | push v => exact fun hs => ⟨(h hs).1.wide64 hm, (h hs).2⟩
  | pop => exact h
  | reserve n => exact h.1
  | _ => exact trivial

theorem BInDomainW.mono {m' : Nat} (hm : m ≤ m') {op : BOp} (h : BInDomainW m P a op) :
    BInDomainW m' P a op := by
  cases op with
  | push v => exact fun hs => ⟨Nat.lt_of_lt_of_le (h hs).1 hm, (h hs).2⟩
  | pop => exact h
  | reserve n => exact ⟨h.1, Nat.lt_of_lt_of_le h.2 hm⟩
  | _ => exact trivial

theorem BAllInDomainW.wide (hm : m ≤ 18446744073709551616) : ∀ {ops : List BOp} {a : BState},
    BAllInDomainW m P a ops → BAllInDomain P a ops
  | [], _, _ => trivial
  | _ :: _, _, h => ⟨h.1.wide hm, BAllInDomainW.wide hm h.2⟩

theorem BAllInDomainW.mono {m' : Nat} (hm : m ≤ m') : ∀ {ops : List BOp} {a : BState},
    BAllInDomainW m P a ops → BAllInDomainW m' P a ops
  | [], _, _ => trivial
  | _ :: _, _, h => ⟨h.1.mono hm, BAllInDomainW.mono hm h.2⟩

theorem bytesFor_mono {k n : Nat} (h : k ≤ n) : bytesFor k ≤ bytesFor n := by
  unfold bytesFor; omega

theorem change_len (i : Nat) (f : Bool → Bool) : (change a i f).2.bits.length = a.bits.length := by
  unfold change
  split
  · rfl
  · simp

theorem bstep_fitsW (R : BRepW m P t a bytes b sl) (op : BOp) (hd : BInDomainW m P a op) :
    FitsW m P (max 1 (bytesFor (bstep P a op).2.bits.length)) := by
  have hf := R.fits
  have hbl := R.brep.bytes_len
  have mono : ∀ {k : Nat}, k ≤ a.bits.length → FitsW m P (max 1 (bytesFor k)) := by
    intro k hk
    have := bytesFor_mono hk
    exact fits_le hf (by omega)
  cases op with
  | push v =>
    simp only [bstep]
    split
    · rename_i x rest hs
      have h1 := R.brep.len
      refine fits_le hf ?_
      rw [hs] at h1
      simp only [List.length_cons] at h1
      simp only [List.length_append, List.length_singleton]
      have : bytesFor (a.bits.length + 1) ≤ bytes.length := by unfold bytesFor; omega
      omega
    · rename_i hs
      split
      · exact mono (Nat.le_refl _)
      · refine fits_le (hd hs).1 ?_
        simp only [List.length_append, List.length_singleton]
        unfold bytesFor
        omega
  | pop =>
    simp only [bstep]
    split
    · exact mono (Nat.le_refl _)
    · split
      · exact mono (by simp)
      · exact mono (by simp)
  | set i => exact mono (Nat.le_of_eq (change_len i _))
  | reset i => exact mono (Nat.le_of_eq (change_len i _))
  | assign i v => exact mono (Nat.le_of_eq (change_len i _))
  | toggle i => exact mono (Nat.le_of_eq (change_len i _))
  | setAll => exact mono (by simp [bstep, changeAll])
  | resetAll => exact mono (by simp [bstep, changeAll])
  | flip => exact mono (by simp [bstep, changeAll])
  | clear => exact mono (by simp [bstep])
  | reserve n =>
    simp only [bstep]
    split
    · exact mono (Nat.le_refl _)
    · split <;> exact mono (Nat.le_refl _)
  | shrinkToFit =>
    simp only [bstep]
    split <;> exact mono (Nat.le_refl _)

theorem BRepW.step (R : BRepW m P t a bytes b sl) (op : BOp) (hd : BInDomainW m P a op) :
    ∃ t' bytes' b' sl', bsOpW m t op = .ret ((bstep P a op).1, t') ∧
      BRepW m P t' (bstep P a op).2 bytes' b' sl' := by
  obtain ⟨t', bytes', b', sl', e, R'⟩ := bop_ok R.brep op (hd.wide R.word)
  refine ⟨t', bytes', b', sl', by rw [opBW_eq R op hd, e], R', R.word, ?_⟩
  rw [R'.bytes_len]
  exact bstep_fitsW R op hd

theorem runBitsW_ok (ops : List BOp) : ∀ {t : Bits} {a : BState} {bytes : List Byte} {b : Block Byte}
    {sl : List (Cell Byte)}, BRepW m P t a bytes b sl → BAllInDomainW m P a ops →
    ∃ t' bytes' b' sl', runBitsW m t ops = .ret ((brun P a ops).1, t') ∧
      BRepW m P t' (brun P a ops).2 bytes' b' sl' := by
  induction ops with
  | nil => intro t a bytes b sl R _; exact ⟨t, bytes, b, sl, rfl, R⟩
  | cons op ops ih =>
    intro t a bytes b sl R hd
    obtain ⟨t1, bytes1, b1, sl1, e1, R1⟩ := R.step op hd.1
    obtain ⟨t2, bytes2, b2, sl2, e2, R2⟩ := ih R1 hd.2
    refine ⟨t2, bytes2, b2, sl2, ?_, R2⟩
    simp only [runBitsW, e1, e2, Out.ret_bind', brun]

theorem runBitsW_eq (ops : List BOp) : ∀ {t : Bits} {a : BState} {bytes : List Byte} {b : Block Byte}
    {sl : List (Cell Byte)}, BRepW m P t a bytes b sl → BAllInDomainW m P a ops →
    runBitsW m t ops = runBits t ops := by
  induction ops with
  | nil => intros; rfl
  | cons op ops ih =>
    intro t a bytes b sl R hd
    obtain ⟨t1, bytes1, b1, sl1, e1, R1⟩ := R.step op hd.1
    have he := opBW_eq R op hd.1
    simp only [runBitsW, runBits]
    rw [← he, e1]
    simp only [Out.ret_bind']
    rw [ih R1 hd.2]

/-! ## Questions -/

theorem withPointer_congr {β : Type} {s : VS Byte} {i : Nat} {err : Status → β} {k k' : Nat → Out β}
    (h : ∀ p, k p = k' p) : withPointer s i err k = withPointer s i err k' := by
  have : k = k' := funext h
  rw [this]

theorem popcnt_le (x : Byte) : (popcnt x).toNat ≤ 8 := by
  rw [popcnt_eq]
  have := List.count_le_length (a := true) (l := byteBits x)
  simpa using this

theorem countLoopW_eq (hm : m ≤ 18446744073709551616) (s : VS Byte) (n : Nat) : ∀ (i acc : Nat),
    acc + 8 * n < m → bsCountLoopW m s n i acc = bsCountLoop s n i acc := by
  induction n with
  | zero => intros; rfl
  | succ n ih =>
    intro i acc h
    simp only [bsCountLoopW, bsCountLoop]
    refine withPointer_congr fun p => ?_
    refine bind_congr_ret fun x _ => ?_
    have hp := popcnt_le x
    have e : add64 acc (popcnt x).toNat = acc + (popcnt x).toNat := add64_eq (by omega)
    rw [addW_eq hm (by omega), e]
    clear e
    exact ih _ _ (by omega)

theorem scanW_eq (hm : m ≤ 18446744073709551616) (t : Bits) (whole : Byte → Bool)
    (last : Byte → Byte → Bool) (hit miss : Status) (h : vecGetSize t.s < m) (n : Nat) : ∀ (i : Nat),
    n ≤ vecGetSize t.s → bsScanW m t whole last hit miss n i = bsScan t whole last hit miss n i := by
  induction n with
  | zero => intros; rfl
  | succ n ih =>
    intro i hn
    simp only [bsScanW, bsScan]
    rw [subW_eq hm (show 1 ≤ vecGetSize t.s by omega) h, ih (i + 1) (by omega)]

theorem testMSBW_eq (hm : m ≤ 18446744073709551616) (t : Bits) (h : t.size < m) :
    bsTestMSBW m t = bsTestMSB t := by
  unfold bsTestMSBW bsTestMSB
  by_cases h0 : t.size = 0
  · unfold bsTest
    rw [h0, if_pos (Nat.zero_le _), if_pos (Nat.zero_le _)]
  · rw [subW_eq hm (by omega) h]

/-! ## Obtainable bitsets -/

theorem initElementsW_eq (n : Nat) : ∀ {s : VS Byte} {x : LState Byte} {b : Block Byte}
    {sl : List (Cell Byte)}, RepW m P s x b sl → FitsW m P (x.elems.length + n) →
    bsInitElementsW m s n = bsInitElements s n := by
  induction n with
  | zero => intros; rfl
  | succ n ih =>
    intro s x b sl R hf
    have hd : InDomainW m P x (.push (some 0#8)) := show FitsW m P _ from fits_le hf (by omega)
    obtain ⟨junk, st, s1, x1, b1, sl1, hj, hstep, hop, R1⟩ := R.step (.push (some 0#8)) hd
    have he := opW_eq R (.push (some 0#8)) hd
    have hop' : vecPushBackW m s (.ext [some 0#8]) = .ret (st, s1) := hop
    have he' : vecPushBack s (.ext [some 0#8]) = .ret (st, s1) := by
      rw [hop] at he; exact he.symm
    simp only [bsInitElementsW, bsInitElements, hop', he', Out.ret_bind']
    split
    · rfl
    · refine ih R1 (fits_le hf ?_)
      have h2 : x1 = (Spec.step P junk x (VOp.push (some 0#8))).2 := by rw [hstep]
      rw [h2]
      simp only [Spec.step]
      split
      · show x.elems.length + n ≤ _
        omega
      · simp; omega

theorem bsInitExW_eq (hm : m ≤ 18446744073709551616) {w : World Byte} {n al : Nat} (hw : Fresh w)
    (hr : Reliable w) (hP : P.allocator = some al ∧ P.growth ≤ 255 ∧ P.thr ≤ 255) (hB : BParams P)
    (hf : FitsW m P (max 1 (bitsToBytes n))) :
    bsInitExW m w n (some al) P.growth P.thr = bsInitEx w n (some al) P.growth P.thr := by
  have hf1 : max 1 (bitsToBytes n) * 255 < m := by
    unfold FitsW at hf
    rw [hB.1, Nat.mul_one] at hf
    exact hf
  unfold bsInitExW bsInitEx
  simp only
  rw [initExW_eq hm _ _ _ _ _ _ _ (by omega)]
  rcases hx : vecInitEx w 1 (bitsToBytes n) false (some al) P.growth P.thr with ⟨st, ov, w'⟩
  cases ov with
  | none => rfl
  | some v =>
    obtain ⟨hs, b, sl, R⟩ := init_rep (P := P) (cap := bitsToBytes n) hw hr hP (by rw [hB.1]; omega)
      (by rw [hB.1, hB.2]; exact hx)
    have RW : RepW m P ⟨v, w'⟩ _ b sl := ⟨R, hm, by rw [hB.1]; omega, fits_le hf (by simp)⟩
    simp only
    rw [initElementsW_eq (bitsToBytes n) RW (fits_le hf (by simp; omega))]

theorem bsInitBufferW_eq (hm : m ≤ 18446744073709551616) {w : World Byte} {n cap : Nat} {b : Block Byte}
    (hw : Fresh w) (hr : Reliable w) (hP : P.allocator = none ∧ P.growth = 1 ∧ P.thr = 0) (hB : BParams P)
    (hb : cap ≤ b.cells.length) (hf : FitsW m P (max 1 (bitsToBytes n))) :
    bsInitBufferW m w n (some b) cap = bsInitBuffer w n (some b) cap := by
  have hf1 : max 1 (bitsToBytes n) * 255 < m := by
    unfold FitsW at hf
    rw [hB.1, Nat.mul_one] at hf
    exact hf
  unfold bsInitBufferW bsInitBuffer
  simp only
  split
  · rfl
  · rcases hx : vecInitBuffer 1 (some b) cap false with ⟨st, ov⟩
    cases ov with
    | none => rfl
    | some v =>
      obtain ⟨hs, _, R⟩ := initBuffer_rep (P := P) (cap := cap) hw hr hP hb (by rw [hB.1]; omega)
        (by rw [hB.1, hB.2]; exact hx)
      have RW : RepW m P ⟨v, w⟩ _ _ _ := ⟨R, hm, by rw [hB.1]; omega, fits_le hf (by simp)⟩
      simp only
      rw [initElementsW_eq (bitsToBytes n) RW (fits_le hf (by simp; omega))]

theorem BReachW.wide (hm : m ≤ 18446744073709551616) {P : Params} {t : Bits} (h : BReachW m P t) :
    BReach P t ∧ ∃ bytes b sl, BRepW m P t (babsOf t) bytes b sl := by
  induction h with
  | init hw hr hP hB hn hf h =>
    have hf' := hf
    rw [← bitsToBytes_eq hn.2] at hf'
    rw [bsInitExW_eq hm hw hr hP hB hf'] at h
    refine ⟨.init hw hr hP hB hn h, ?_⟩
    obtain ⟨t', w', b, sl, e, hs, R⟩ := binit_ok hw hr hP hB (binit_growth h)
    rw [e] at h
    simp only [Out.ret.injEq, Prod.mk.injEq, Option.some.injEq] at h
    obtain ⟨-, rfl, -⟩ := h
    have R' := zero_rep hB hn hs R
    exact ⟨_, b, sl, by rw [R'.abs_eq]; exact R', hm, by rw [List.length_replicate]; exact hf'⟩
  | initBuffer hw hr hP hB hn hf hb h =>
    have hf' := hf
    rw [← bitsToBytes_eq hn.2] at hf'
    rw [bsInitBufferW_eq hm hw hr hP hB hb hf'] at h
    refine ⟨.initBuffer hw hr hP hB hn hb h, ?_⟩
    obtain ⟨h0, hc⟩ := binitBuffer_cond h
    obtain ⟨t', b, sl, e, hs, R⟩ := binitBuffer_ok hw hr hP hB hb h0 hc
    rw [e] at h
    simp only [Out.ret.injEq, Prod.mk.injEq, Option.some.injEq] at h
    obtain ⟨-, rfl⟩ := h
    have R' := zero_rep hB hn hs R
    exact ⟨_, b, sl, by rw [R'.abs_eq]; exact R', hm, by rw [List.length_replicate]; exact hf'⟩
  | step _ hd hs ih =>
    obtain ⟨hre, bytes, b, sl, R⟩ := ih
    have hs' := hs
    rw [opBW_eq R _ hd] at hs'
    refine ⟨.step hre (hd.wide hm) hs', ?_⟩
    obtain ⟨t', bytes', b', sl', e, R'⟩ := R.step _ hd
    rw [e] at hs
    simp only [Out.ret.injEq, Prod.mk.injEq] at hs
    obtain ⟨-, rfl⟩ := hs
    exact ⟨bytes', b', sl', by rw [R'.brep.abs_eq]; exact R'⟩
  | logic f _ _ hs ih ihu =>
    obtain ⟨hre, bytes, b, sl, R⟩ := ih
    obtain ⟨hru, ys, bu, slu, U⟩ := ihu
    refine ⟨.logic f hre hru hs, ?_⟩
    obtain ⟨t', b', e, _, R'⟩ := perform_ok R.brep U.brep f
    rw [e] at hs
    simp only [Out.ret.injEq, Prod.mk.injEq] at hs
    obtain ⟨-, rfl⟩ := hs
    refine ⟨_, b', sl, by rw [R'.abs_eq]; exact R', hm, ?_⟩
    have hl : (List.zipWith f bytes ys ++ bytes.drop ys.length).length = bytes.length := by simp; omega
    rw [hl]
    exact R.fits

end

end Zy
