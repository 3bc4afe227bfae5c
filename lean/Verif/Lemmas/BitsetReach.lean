import Verif.Lemmas.Bitset

/-!
# Reachable bitsets are represented
-/

namespace Zy

open Spec

/-- The concrete bitset `t` represents the abstract bitset `a`. -/
structure BRep (P : Params) (t : Bits) (a : BState) (bytes : List Byte) (b : Block Byte)
    (sl : List (Cell Byte)) : Prop where
  rep : Rep P t.s ⟨bytes.map some, a.cap, []⟩ b sl
  par : BParams P
  size : t.size = a.bits.length
  flat : a.bits ++ a.stray = flatBits bytes
  short : a.stray.length < 8

section
variable {P : Params} {t : Bits} {a : BState} {bytes : List Byte} {b : Block Byte} {sl : List (Cell Byte)}

theorem BRep.len (R : BRep P t a bytes b sl) : a.bits.length + a.stray.length = 8 * bytes.length := by
  have := congrArg List.length R.flat
  simpa using this

theorem BRep.small (R : BRep P t a bytes b sl) : a.bits.length + 8 < 18446744073709551616 := by
  have h := R.rep.fits
  have h1 := R.len
  have h2 := R.par.1
  unfold Fits at h
  rw [h2] at h
  simp only [List.length_map] at h
  omega

theorem BRep.bytes_len (R : BRep P t a bytes b sl) : bytes.length = bytesFor a.bits.length := by
  have h1 := R.len
  have h2 := R.short
  unfold bytesFor
  omega

theorem flatOf_eq (R : Rep P t.s ⟨bytes.map some, a.cap, []⟩ b sl) : flatOf t = flatBits bytes := by
  unfold flatOf
  rw [R.data]
  simp only
  rw [R.size, R.cells, List.take_left, List.flatMap_map]
  rfl

theorem BRep.abs_eq (R : BRep P t a bytes b sl) : babsOf t = a := by
  unfold babsOf
  rw [flatOf_eq R.rep, ← R.flat, R.size, R.rep.cap, List.take_left, List.drop_left]

/-- The operation does what the specification says. -/
def BOpOK (P : Params) (t : Bits) (a : BState) (op : BOp) : Prop :=
  ∃ t' bytes' b' sl', bsOp t op = .ret ((bstep P a op).1, t') ∧ BRep P t' (bstep P a op).2 bytes' b' sl'

theorem modify_ok (R : BRep P t a bytes b sl) {f : Byte → Byte → Byte} {h : Bool → Bool}
    (hf : ∀ x j v, j < 8 → (byteBits x)[j]? = some v →
      byteBits (f x (1#8 <<< (7 - j))) = (byteBits x).set j (h v)) (i : Nat) :
    ∃ t' bytes' b', bsModify f t i = .ret ((change a i h).1, t') ∧
      BRep P t' (change a i h).2 bytes' b' sl := by
  have hlen := R.len
  unfold bsModify change
  rw [R.size]
  by_cases hi : i < a.bits.length
  · have hb : i / 8 < bytes.length := by omega
    have hx : bytes[i / 8]? = some bytes[i / 8] := List.getElem?_eq_getElem hb
    have hbit : a.bits[i]? = some a.bits[i] := List.getElem?_eq_getElem hi
    have hv : (byteBits bytes[i / 8])[i % 8]? = some a.bits[i] := by
      rw [← flatBits_get hx, ← R.flat, List.getElem?_append_left hi, hbit]
    have hset := hf bytes[i / 8] (i % 8) _ (by omega) hv
    obtain ⟨s', b', e, R'⟩ := store_ok R.rep hb (f bytes[i / 8] (bitMask i))
    rw [if_neg (by omega), withPointer_in R.rep hb, load_ok R.rep hx, Out.ret_bind', e, hbit]
    refine ⟨⟨a.bits.length, s'⟩, _, b', rfl, R', R.par, by simp, ?_, R.short⟩
    unfold bitMask
    rw [flatBits_set hx hset, ← R.flat, List.set_append_left _ _ hi]
  · rw [if_pos (by omega), List.getElem?_eq_none (by omega)]
    exact ⟨t, bytes, b, rfl, R⟩

theorem set_bit_ok (R : BRep P t a bytes b sl) (i : Nat) :
    ∃ t' bytes' b', bsSet t i = .ret ((change a i fun _ => true).1, t') ∧
      BRep P t' (change a i fun _ => true).2 bytes' b' sl :=
  modify_ok (f := fun x m => x ||| m) (h := fun _ => true) R (fun x j _ hj _ => byteBits_set x j hj) i

theorem reset_bit_ok (R : BRep P t a bytes b sl) (i : Nat) :
    ∃ t' bytes' b', bsReset t i = .ret ((change a i fun _ => false).1, t') ∧
      BRep P t' (change a i fun _ => false).2 bytes' b' sl :=
  modify_ok (f := fun x m => x &&& ~~~m) (h := fun _ => false) R
    (fun x j _ hj _ => byteBits_reset x j hj) i

theorem toggle_bit_ok (R : BRep P t a bytes b sl) (i : Nat) :
    ∃ t' bytes' b', bsToggle t i = .ret ((change a i fun x => !x).1, t') ∧
      BRep P t' (change a i fun x => !x).2 bytes' b' sl :=
  modify_ok (f := fun x m => x ^^^ m) (h := fun x => !x) R
    (fun x j v hj hv => byteBits_toggle x j hj v hv) i

theorem assign_bit_ok (R : BRep P t a bytes b sl) (i : Nat) (v : Bool) :
    ∃ t' bytes' b', bsAssign t i v = .ret ((change a i fun _ => v).1, t') ∧
      BRep P t' (change a i fun _ => v).2 bytes' b' sl := by
  cases v
  · exact reset_bit_ok R i
  · exact set_bit_ok R i

theorem mapAll_ok (R : BRep P t a bytes b sl) {f : VS Byte → Nat → Out Byte} {g : Byte → Byte}
    {h : Bool → Bool}
    (hf : ∀ {s : VS Byte} {bytes : List Byte} {b : Block Byte}, Rep P s ⟨bytes.map some, a.cap, []⟩ b sl →
      ∀ (i : Nat) (h : i < bytes.length), f s i = .ret (g bytes[i]))
    (hg : ∀ x, byteBits (g x) = (byteBits x).map h) :
    ∃ t' bytes' b', bsMapAll f t = .ret ((changeAll a h).1, t') ∧
      BRep P t' (changeAll a h).2 bytes' b' sl := by
  obtain ⟨s', b', e, R'⟩ := mapLoop_ok f g hf bytes.length (i := 0) R.rep (by simp)
  unfold bsMapAll
  rw [R.rep.vsize, e]
  refine ⟨⟨t.size, s'⟩, _, b', rfl, R', R.par, ?_, ?_, ?_⟩
  · simpa [changeAll] using R.size
  · simp only [List.take_zero, List.drop_zero, List.nil_append, changeAll]
    rw [flatBits_map hg, ← R.flat, List.map_append]
  · simpa [changeAll] using R.short

theorem push_bit_ok (R : BRep P t a bytes b sl) (v : Bool) (hd : BInDomain P a (.push v)) :
    BOpOK P t a (.push v) := by
  have hlen := R.len
  have hshort := R.short
  have hsm := R.small
  unfold BOpOK
  simp only [bsOp, bsPush]
  rw [R.size, add64_eq (by omega)]
  have hsub : sub64 (a.bits.length + 1) 1 = a.bits.length := by
    rw [sub64_eq (by omega) (by omega)]; rfl
  rw [hsub]
  cases hs : a.stray with
  | nil =>
    rw [hs] at hlen
    simp only [List.length_nil, Nat.add_zero] at hlen
    obtain ⟨hf, hroom⟩ := hd hs
    rw [← R.bytes_len] at hf hroom
    obtain ⟨c, hc⟩ := Option.isSome_iff_exists.1 hroom
    obtain ⟨junk, st, s', a', b', sl', _, hst, e, R'⟩ := push_ok R.rep (some 0#8)
      (show Fits P _ by simpa using hf)
    simp only [step, List.length_map, hc, Prod.mk.injEq] at hst
    obtain ⟨rfl, rfl⟩ := hst
    have hR : BRep P ⟨a.bits.length + 1, s'⟩ ⟨a.bits ++ [false], List.replicate 7 false, c⟩
        (bytes ++ [0#8]) b' sl' := by
      refine ⟨by simpa using R', R.par, by simp, ?_, by simp⟩
      rw [flatBits_append, ← R.flat, hs]
      simp only [List.append_nil, List.append_assoc]
      rfl
    simp only [vecOp] at e
    rw [if_pos (by omega), e]
    simp only [Out.ret_bind', failed_success, Bool.false_eq_true, if_false]
    obtain ⟨t', bytes'', b'', e2, R2⟩ := assign_bit_ok hR a.bits.length v
    simp only [bstep, hs]
    rw [← R.bytes_len, hc]
    simp only [change, List.getElem?_append_right (Nat.le_refl _), Nat.sub_self, List.getElem?_cons_zero] at e2 R2
    rw [e2]
    refine ⟨t', bytes'', b'', sl', rfl, ?_⟩
    simpa using R2
  | cons x rest =>
    rw [hs] at hlen hshort
    simp only [List.length_cons] at hlen hshort
    rw [if_neg (by omega)]
    simp only [Out.ret_bind', failed_success, Bool.false_eq_true, if_false]
    have hR : BRep P ⟨a.bits.length + 1, t.s⟩ ⟨a.bits ++ [x], rest, a.cap⟩ bytes b sl := by
      refine ⟨R.rep, R.par, by simp, ?_, by simp; omega⟩
      rw [← R.flat, hs]
      simp
    obtain ⟨t', bytes'', b'', e2, R2⟩ := assign_bit_ok hR a.bits.length v
    simp only [bstep, hs]
    simp only [change, List.getElem?_append_right (Nat.le_refl _), Nat.sub_self, List.getElem?_cons_zero] at e2 R2
    rw [e2]
    refine ⟨t', bytes'', b'', sl, rfl, ?_⟩
    simpa using R2

theorem pop_bit_ok (R : BRep P t a bytes b sl) (hd : a.bits ≠ []) : BOpOK P t a .pop := by
  have hlen := R.len
  have hshort := R.short
  have hsm := R.small
  have hpos : 0 < a.bits.length := List.length_pos_iff.2 hd
  unfold BOpOK
  simp only [bsOp, bsPop]
  rw [R.size]
  have hsub : sub64 a.bits.length 1 = a.bits.length - 1 := sub64_eq (by omega) (by omega)
  rw [hsub]
  have hlast : a.bits.getLast? = some (a.bits.getLast hd) := List.getLast?_eq_some_getLast hd
  have hsplit : a.bits = a.bits.dropLast ++ [a.bits.getLast hd] := (List.dropLast_concat_getLast hd).symm
  simp only [bstep, hlast]
  by_cases h8 : a.bits.length % 8 = 1
  · rw [if_pos (by omega), if_pos h8]
    have hs7 : a.stray.length = 7 := by omega
    have hbne : bytes.map some ≠ [] := by
      intro h0
      have h1 : bytes.length = 0 := by simpa using h0
      omega
    obtain ⟨junk, st, s', a', b', sl', _, hst, e, R'⟩ := pop_ok R.rep
    simp only [step, if_neg hbne, Prod.mk.injEq] at hst
    obtain ⟨rfl, rfl⟩ := hst
    simp only [vecOp] at e
    rw [e]
    have hk : bytes.length - 1 = bytesFor (a.bits.length - 1) := by unfold bytesFor; omega
    refine ⟨⟨a.bits.length - 1, s'⟩, bytes.dropLast, b', sl', rfl, ?_, R.par, by simp, ?_, by simp⟩
    · rw [← hk]
      simpa [killed, R.par.2, List.map_dropLast] using R'
    · rw [List.append_nil, List.dropLast_eq_take (l := bytes)]
      have hflat : flatBits (bytes.take (bytes.length - 1)) = (flatBits bytes).take (a.bits.length - 1) := by
        have h1 : flatBits bytes = flatBits (bytes.take (bytes.length - 1)) ++
            flatBits (bytes.drop (bytes.length - 1)) := by
          rw [← flatBits_append, List.take_append_drop]
        have hl : (flatBits (bytes.take (bytes.length - 1))).length = a.bits.length - 1 := by
          rw [flatBits_length, List.length_take]; omega
        conv => rhs; rw [h1, ← hl, List.take_left]
      rw [hflat, ← R.flat, List.dropLast_eq_take, List.take_append_of_le_length (by omega)]
  · rw [if_neg (by omega), if_neg h8]
    refine ⟨⟨a.bits.length - 1, t.s⟩, bytes, b, sl, rfl, R.rep, R.par, by simp, ?_, by simp; omega⟩
    rw [← R.flat]
    conv => rhs; rw [hsplit]
    simp

theorem bop_ok (R : BRep P t a bytes b sl) (op : BOp) (hd : BInDomain P a op) : BOpOK P t a op := by
  cases op with
  | push v => exact push_bit_ok R v hd
  | pop => exact pop_bit_ok R hd
  | set i => obtain ⟨t', x, y, e, R'⟩ := set_bit_ok R i; exact ⟨t', x, y, sl, e, R'⟩
  | reset i => obtain ⟨t', x, y, e, R'⟩ := reset_bit_ok R i; exact ⟨t', x, y, sl, e, R'⟩
  | assign i v => obtain ⟨t', x, y, e, R'⟩ := assign_bit_ok R i v; exact ⟨t', x, y, sl, e, R'⟩
  | toggle i => obtain ⟨t', x, y, e, R'⟩ := toggle_bit_ok R i; exact ⟨t', x, y, sl, e, R'⟩
  | setAll =>
    obtain ⟨t', x, y, e, R'⟩ := mapAll_ok R (f := fun _ _ => .ret 0xFF#8) (g := fun _ => 0xFF#8)
      (fun _ _ _ => rfl) byteBits_ones
    exact ⟨t', x, y, sl, e, R'⟩
  | resetAll =>
    obtain ⟨t', x, y, e, R'⟩ := mapAll_ok R (f := fun _ _ => .ret 0x00#8) (g := fun _ => 0x00#8)
      (fun _ _ _ => rfl) byteBits_zeros
    exact ⟨t', x, y, sl, e, R'⟩
  | flip =>
    obtain ⟨t', x, y, e, R'⟩ := mapAll_ok R (g := fun x => ~~~x)
      (f := fun s p => (loadByte s p).bind fun x => .ret (~~~x))
      (fun R i h => by rw [load_ok R (List.getElem?_eq_getElem h)]; rfl) byteBits_not
    exact ⟨t', x, y, sl, e, R'⟩
  | clear =>
    obtain ⟨junk, st, s', a', b', sl', _, hst, e, R'⟩ := clear_ok R.rep
    simp only [vecOp] at e
    unfold BOpOK
    simp only [bsOp, bsClear, bstep]
    rw [e]
    by_cases hb : bytes = []
    · subst hb
      simp only [step, List.map_nil, if_true, Prod.mk.injEq] at hst
      obtain ⟨rfl, rfl⟩ := hst
      have h0 := R.len
      have h1 : a.bits = [] := List.length_eq_zero_iff.1 (by simp only [List.length_nil, Nat.mul_zero] at h0; omega)
      refine ⟨⟨0, s'⟩, [], b', sl', rfl, ?_, R.par, by simp, by simp, by simp⟩
      simpa [h1] using R'
    · have hbne : bytes.map some ≠ [] := by simpa using hb
      simp only [step, if_neg hbne, Prod.mk.injEq] at hst
      obtain ⟨rfl, rfl⟩ := hst
      have h0 := R.len
      have h2 := R.short
      have h1 : a.bits ≠ [] := by
        intro h
        rw [h] at h0
        simp only [List.length_nil, Nat.zero_add] at h0
        have := List.length_pos_iff.2 hb
        omega
      refine ⟨⟨0, s'⟩, [], b', sl', rfl, ?_, R.par, by simp, by simp, by simp⟩
      simpa [h1, killed, R.par.2] using R'
  | reserve n =>
    have hn : n < 34359738368 := hd
    have hb : bitsToBytes n = n / 8 := by
      unfold bitsToBytes bsCeil
      rw [Nat.mod_eq_of_lt (by omega), if_pos rfl]
    obtain ⟨junk, st, s', a', b', sl', _, hst, e, R'⟩ := reserve_ok R.rep (n / 8)
      (show n / 8 * P.esz < _ by rw [R.par.1]; omega)
    simp only [vecOp] at e
    unfold BOpOK
    simp only [bsOp, bsReserve, hb, e, bstep]
    simp only [step] at hst
    split at hst
    · obtain ⟨rfl, rfl⟩ := Prod.mk.injEq .. ▸ hst
      rename_i h
      simp only [h, if_true]
      exact ⟨⟨t.size, s'⟩, bytes, b', sl', rfl, R', R.par, R.size, R.flat, R.short⟩
    · rename_i h
      simp only [h, if_false]
      split at hst
      · obtain ⟨rfl, rfl⟩ := Prod.mk.injEq .. ▸ hst
        rename_i h'
        simp only [h', if_true]
        exact ⟨⟨t.size, s'⟩, bytes, b', sl', rfl, R', R.par, R.size, R.flat, R.short⟩
      · obtain ⟨rfl, rfl⟩ := Prod.mk.injEq .. ▸ hst
        rename_i h'
        simp only [h']
        exact ⟨⟨t.size, s'⟩, bytes, b', sl', rfl, R', R.par, R.size, R.flat, R.short⟩
  | shrinkToFit =>
    obtain ⟨junk, st, s', a', b', sl', _, hst, e, R'⟩ := shrinkToFit_ok R.rep
    simp only [vecOp] at e
    unfold BOpOK
    simp only [bsOp, bsShrinkToFit, e, bstep]
    simp only [step, Prod.mk.injEq] at hst
    obtain ⟨rfl, rfl⟩ := hst
    have hbl := R.bytes_len
    by_cases h : P.allocator.isSome
    · simp only [h, if_true, List.length_map] at R' ⊢
      rw [hbl] at R'
      exact ⟨⟨t.size, s'⟩, bytes, b', sl', rfl, R', R.par, R.size, R.flat, R.short⟩
    · simp only [h] at R' ⊢
      exact ⟨⟨t.size, s'⟩, bytes, b', sl', rfl, R', R.par, R.size, R.flat, R.short⟩

/-- A logical operation, described on the bytes. -/
theorem perform_ok {P' : Params} {u : Bits} {au : BState} {ys : List Byte} {bu : Block Byte}
    {slu : List (Cell Byte)} (R : BRep P t a bytes b sl) (U : BRep P' u au ys bu slu) (f : Byte → Byte → Byte) :
    ∃ t' b', bsPerform (fun x y => (stSuccess, f x y)) t u = .ret (stSuccess, t') ∧ t'.size = t.size ∧
      BRep P t' ⟨(flatBits (List.zipWith f bytes ys ++ bytes.drop ys.length)).take a.bits.length,
        (flatBits (List.zipWith f bytes ys ++ bytes.drop ys.length)).drop a.bits.length, a.cap⟩
        (List.zipWith f bytes ys ++ bytes.drop ys.length) b' sl := by
  obtain ⟨s', b', e, R'⟩ := opLoop_ok U.rep f (min bytes.length ys.length) (i := 0) R.rep (by omega) (by omega)
  have hlen := R.len
  have hshort := R.short
  unfold bsPerform
  simp only [R.rep.vsize, U.rep.vsize, e]
  have hz : List.take 0 bytes ++ List.zipWith f ((bytes.drop 0).take (min bytes.length ys.length))
      ((ys.drop 0).take (min bytes.length ys.length)) ++ bytes.drop (0 + min bytes.length ys.length) =
      List.zipWith f bytes ys ++ bytes.drop ys.length := by
    simp only [List.take_zero, List.drop_zero, List.nil_append, Nat.zero_add]
    congr 1
    · exact List.zipWith_eq_zipWith_take_min.symm
    · rcases Nat.le_total bytes.length ys.length with h | h
      · rw [Nat.min_eq_left h, List.drop_of_length_le (by omega), List.drop_of_length_le (by omega)]
      · rw [Nat.min_eq_right h]
  rw [hz] at R'
  have hzl : (List.zipWith f bytes ys ++ bytes.drop ys.length).length = bytes.length := by simp; omega
  refine ⟨⟨t.size, s'⟩, b', rfl, rfl, R', R.par, ?_, ?_, ?_⟩
  · simp only [List.length_take, flatBits_length, hzl]; rw [R.size]; omega
  · simp
  · simp only [List.length_drop, flatBits_length, hzl]; omega

theorem initElements_ok (n : Nat) : ∀ {s : VS Byte} {bytes : List Byte} {c : Nat} {b : Block Byte}
    {sl : List (Cell Byte)}, Rep P s ⟨bytes.map some, c, []⟩ b sl → bytes.length + n ≤ c →
    Fits P (bytes.length + n) →
    ∃ s' b' sl', bsInitElements s n = .ret (stSuccess, s') ∧
      Rep P s' ⟨(bytes ++ List.replicate n 0#8).map some, c, []⟩ b' sl' := by
  induction n with
  | zero => intro s bytes c b sl R _ _; exact ⟨s, b, sl, rfl, by simpa using R⟩
  | succ n ih =>
    intro s bytes c b sl R hc hf
    unfold bsInitElements
    obtain ⟨junk, st, s', a', b', sl', _, hst, e, R'⟩ := push_ok R (some 0#8)
      (show Fits P _ by simpa using hf.mono (m := bytes.length + 1) (by omega))
    have hroom : room P c (bytes.length + 1) = some c := by unfold room; rw [if_pos (by omega)]
    simp only [step, List.length_map, hroom, Prod.mk.injEq] at hst
    obtain ⟨rfl, rfl⟩ := hst
    simp only [vecOp] at e
    rw [e]
    simp only [Out.ret_bind', failed_success, Bool.false_eq_true, if_false]
    obtain ⟨s2, b2, sl2, e2, R2⟩ := ih (bytes := bytes ++ [0#8]) (c := c) (by simpa using R')
      (by simp; omega) (by simp only [List.length_append, List.length_singleton]; exact hf.mono (by omega))
    refine ⟨s2, b2, sl2, e2, ?_⟩
    rw [List.replicate_succ]
    simpa using R2

theorem bitsToBytes_lt (n : Nat) : bitsToBytes n < 4294967296 := by
  unfold bitsToBytes bsCeil
  split <;> omega

theorem bitsToBytes_eq {n : Nat} (h : n < 34359738368) : bitsToBytes n = n / 8 := by
  unfold bitsToBytes bsCeil
  rw [Nat.mod_eq_of_lt (by omega), if_pos rfl]

theorem fits_bytes (hB : BParams P) (n : Nat) : Fits P (bitsToBytes n) := by
  have := bitsToBytes_lt n
  unfold Fits
  rw [hB.1]
  omega

theorem binit_ok {w : World Byte} {n al : Nat} (hw : Fresh w) (hr : Reliable w)
    (hP : P.allocator = some al ∧ P.growth ≤ 255 ∧ P.thr ≤ 255) (hB : BParams P) (hg : 1 ≤ P.growth) :
    ∃ t w' b sl, bsInitEx w n (some al) P.growth P.thr = .ret (stSuccess, some t, w') ∧ t.size = n ∧
      Rep P t.s ⟨(List.replicate (bitsToBytes n) 0#8).map some, max 1 (bitsToBytes n), []⟩ b sl := by
  have hlt := bitsToBytes_lt n
  rcases hx : vecInitEx w 1 (bitsToBytes n) false (some al) P.growth P.thr with ⟨st, ov, w'⟩
  cases ov with
  | none =>
    exfalso
    unfold vecInitEx at hx
    simp only at hx
    rw [if_neg (by omega)] at hx
    simp at hx
  | some v =>
    obtain ⟨hs, b, sl, R⟩ := init_rep (P := P) (cap := bitsToBytes n) hw hr hP (by rw [hB.1]; omega)
      (by rw [hB.1, hB.2]; exact hx)
    obtain ⟨s', b', sl', e, R'⟩ := initElements_ok (bitsToBytes n) (bytes := []) (by simpa using R)
      (by simp; omega) (by simpa using fits_bytes hB n)
    refine ⟨⟨n, s'⟩, s'.w, b', sl', ?_, rfl, by simpa using R'⟩
    unfold bsInitEx
    simp only [hx, hs, e, Out.ret_bind', failed_success, Bool.false_eq_true, if_false]

theorem binitBuffer_ok {w : World Byte} {n cap : Nat} {b : Block Byte} (hw : Fresh w) (hr : Reliable w)
    (hP : P.allocator = none ∧ P.growth = 1 ∧ P.thr = 0) (hB : BParams P) (hb : cap ≤ b.cells.length)
    (h0 : cap ≠ 0) (hc : bitsToBytes n ≤ cap) :
    ∃ t b' sl, bsInitBuffer w n (some b) cap = .ret (stSuccess, some t) ∧ t.size = n ∧
      Rep P t.s ⟨(List.replicate (bitsToBytes n) 0#8).map some, cap, []⟩ b' sl := by
  have hlt := bitsToBytes_lt n
  rcases hx : vecInitBuffer 1 (some b) cap false with ⟨st, ov⟩
  cases ov with
  | none =>
    exfalso
    unfold vecInitBuffer at hx
    simp only at hx
    rw [if_neg (by omega)] at hx
    simp at hx
  | some v =>
    obtain ⟨hs, _, R⟩ := initBuffer_rep (P := P) (cap := cap) hw hr hP hb (by rw [hB.1]; omega)
      (by rw [hB.1, hB.2]; exact hx)
    obtain ⟨s', b', sl', e, R'⟩ := initElements_ok (bitsToBytes n) (bytes := []) (by simpa using R)
      (by simp; omega) (by simpa using fits_bytes hB n)
    refine ⟨⟨n, s'⟩, b', sl', ?_, rfl, by simpa using R'⟩
    unfold bsInitBuffer
    rw [if_neg (by omega)]
    simp only [hx, hs, e, Out.ret_bind', failed_success, Bool.false_eq_true, if_false]

/-- A successful initialisation has a growth factor. -/
theorem binit_growth {w w' : World Byte} {n al g thr : Nat} {st : Status} {t : Bits}
    (h : bsInitEx w n (some al) g thr = .ret (st, some t, w')) : 1 ≤ g := by
  rcases Nat.lt_or_ge g 1 with hg | hg
  · exfalso
    unfold bsInitEx vecInitEx at h
    simp only at h
    rw [if_pos (Or.inr hg)] at h
    simp at h
  · exact hg

theorem binitBuffer_cond {w : World Byte} {n cap : Nat} {b : Block Byte} {st : Status} {t : Bits}
    (h : bsInitBuffer w n (some b) cap = .ret (st, some t)) : cap ≠ 0 ∧ bitsToBytes n ≤ cap := by
  unfold bsInitBuffer at h
  by_cases hc : cap < bitsToBytes n
  · simp [hc] at h
  · refine ⟨?_, by omega⟩
    intro h0
    subst h0
    rw [if_neg hc] at h
    simp [vecInitBuffer] at h

/-- Zero bytes represent zero bits. -/
theorem flatBits_zero (m : Nat) : flatBits (List.replicate m 0#8) = List.replicate (8 * m) false := by
  induction m with
  | zero => rfl
  | succ m ih =>
    rw [List.replicate_succ, flatBits_cons, ih, show 8 * (m + 1) = 8 + 8 * m by omega, ← List.replicate_append_replicate]
    rfl

theorem zero_rep (hB : BParams P) {n c : Nat} (hn : n % 8 = 0 ∧ n < 34359738368) (hs : t.size = n)
    (R : Rep P t.s ⟨(List.replicate (bitsToBytes n) 0#8).map some, c, []⟩ b sl) :
    BRep P t ⟨List.replicate n false, [], c⟩ (List.replicate (bitsToBytes n) 0#8) b sl := by
  refine ⟨R, hB, by simpa using hs, ?_, by simp⟩
  rw [flatBits_zero, bitsToBytes_eq hn.2, List.append_nil, show 8 * (n / 8) = n by omega]

theorem BReach.rep {P : Params} {t : Bits} (h : BReach P t) :
    ∃ bytes b sl, BRep P t (babsOf t) bytes b sl := by
  induction h with
  | init hw hr hP hB hn h =>
    obtain ⟨t', w', b, sl, e, hs, R⟩ := binit_ok hw hr hP hB (binit_growth h)
    rw [e] at h
    simp only [Out.ret.injEq, Prod.mk.injEq, Option.some.injEq] at h
    obtain ⟨-, rfl, -⟩ := h
    have R' := zero_rep hB hn hs R
    exact ⟨_, b, sl, by rw [R'.abs_eq]; exact R'⟩
  | initBuffer hw hr hP hB hn hb h =>
    obtain ⟨h0, hc⟩ := binitBuffer_cond h
    obtain ⟨t', b, sl, e, hs, R⟩ := binitBuffer_ok hw hr hP hB hb h0 hc
    rw [e] at h
    simp only [Out.ret.injEq, Prod.mk.injEq, Option.some.injEq] at h
    obtain ⟨-, rfl⟩ := h
    have R' := zero_rep hB hn hs R
    exact ⟨_, b, sl, by rw [R'.abs_eq]; exact R'⟩
  | step _ hd hs ih =>
    obtain ⟨bytes, b, sl, R⟩ := ih
    obtain ⟨t', bytes', b', sl', e, R'⟩ := bop_ok R _ hd
    rw [e] at hs
    simp only [Out.ret.injEq, Prod.mk.injEq] at hs
    obtain ⟨-, rfl⟩ := hs
    exact ⟨bytes', b', sl', by rw [R'.abs_eq]; exact R'⟩
  | logic f _ _ hs ih ihu =>
    obtain ⟨bytes, b, sl, R⟩ := ih
    obtain ⟨ys, bu, slu, U⟩ := ihu
    obtain ⟨t', b', e, _, R'⟩ := perform_ok R U f
    rw [e] at hs
    simp only [Out.ret.injEq, Prod.mk.injEq] at hs
    obtain ⟨-, rfl⟩ := hs
    exact ⟨_, b', sl, by rw [R'.abs_eq]; exact R'⟩

theorem runBits_ok (ops : List BOp) : ∀ {t : Bits} {a : BState} {bytes : List Byte} {b : Block Byte}
    {sl : List (Cell Byte)}, BRep P t a bytes b sl → BAllInDomain P a ops →
    ∃ t' bytes' b' sl', runBits t ops = .ret ((brun P a ops).1, t') ∧
      BRep P t' (brun P a ops).2 bytes' b' sl' := by
  induction ops with
  | nil => intro t a bytes b sl R _; exact ⟨t, bytes, b, sl, rfl, R⟩
  | cons op ops ih =>
    intro t a bytes b sl R hd
    obtain ⟨t1, bytes1, b1, sl1, e1, R1⟩ := bop_ok R op hd.1
    obtain ⟨t2, bytes2, b2, sl2, e2, R2⟩ := ih R1 hd.2
    refine ⟨t2, bytes2, b2, sl2, ?_, R2⟩
    simp only [runBits, e1, e2, Out.ret_bind', brun]

end

end Zy
