import Verif.Lemmas.BitsetRefuse
import Verif.Props.Bitset

/-!
# Property theorems: bitsets whose memory request is refused (C79, C123)

`bsRefuse t st` is the bitset `t` in an environment where the next allocator call returns the status `st`.
-/

namespace Zy

open Spec

/-! ## C79: what follows a refused push -/

/-- C79 is false in the long run, too: after a refused push into a full bitset on a caller buffer, every later
push fails. -/
theorem C79_forever_negation {P : Params} {t : Bits} (h : BReach P t) (v : Bool) (hfix : P.allocator = none)
    (hfull : t.size = 8 * t.s.v.cap) (vs : List Bool) (hl : t.size + 1 + vs.length < 18446744073709551616) :
    ∃ t' sts u, bsPush t v = .ret (stInsufficient, t') ∧ runBits t' (vs.map .push) = .ret (sts, u) ∧
      (∀ st ∈ sts, failed st = true) ∧ bsGetSize u = t.size + 1 + vs.length := by
  obtain ⟨bytes, b, sl, R⟩ := h.rep
  have hlen := R.len
  have hsh := R.short
  have hsz := R.size
  have hsm := R.small
  have hcap : (babsOf t).cap = t.s.v.cap := rfl
  have hbl : bytes.length = (babsOf t).cap := by omega
  have hs : t.s.v.size = bytes.length := R.rep.vsize
  have hg := fixed_grow_refused R.rep hfix (need := bytes.length + 1) (by rw [← hbl]; exact Nat.lt_succ_self _) (by omega)
  have e : vecPushBack t.s (.ext [some 0#8]) = .ret (stInsufficient, t.s) := by
    unfold vecPushBack
    rw [if_neg (by simp [Src.isNull]), hs, add64_eq (by omega), hg, Out.ret_bind']
    simp only
    rw [if_pos (show failed stInsufficient = true by decide)]
  obtain ⟨sts, e2, hf⟩ := pushes_fixed R.rep hfix hbl vs (size := t.size + 1) (by omega) hl
  refine ⟨⟨t.size + 1, t.s⟩, sts, _, ?_, e2, hf, rfl⟩
  unfold bsPush
  simp only
  rw [if_pos (by omega), e, add64_eq (by omega), Out.ret_bind']
  simp only
  rw [if_pos (show failed stInsufficient = true by decide)]

/-- C79 is false for undoing the refused push: popping the bit that was never stored succeeds, restores the
size, and takes away the byte with the last eight bits. -/
theorem C79_pop_negation {P : Params} {t : Bits} (h : BReach P t) (v : Bool) (hfix : P.allocator = none)
    (hfull : t.size = 8 * t.s.v.cap) :
    ∃ t' u, bsPush t v = .ret (stInsufficient, t') ∧ bsPop t' = .ret (stSuccess, u) ∧
      bsGetSize u = t.size ∧ ∀ i, t.size - 8 ≤ i → bsTest u i = .ret stOutOfRange := by
  obtain ⟨bytes, b, sl, R⟩ := h.rep
  have hlen := R.len
  have hsh := R.short
  have hsz := R.size
  have hsm := R.small
  have hcap : (babsOf t).cap = t.s.v.cap := rfl
  have hc1 : 1 ≤ (babsOf t).cap := R.rep.cap1
  have hbl : bytes.length = (babsOf t).cap := by omega
  obtain ⟨t', sts, u, e, _, _, _⟩ := C79_forever_negation h v hfix hfull [] (by simp; omega)
  have hs : t.s.v.size = bytes.length := R.rep.vsize
  have hg := fixed_grow_refused R.rep hfix (need := bytes.length + 1) (by rw [← hbl]; exact Nat.lt_succ_self _) (by omega)
  have e0 : vecPushBack t.s (.ext [some 0#8]) = .ret (stInsufficient, t.s) := by
    unfold vecPushBack
    rw [if_neg (by simp [Src.isNull]), hs, add64_eq (by omega), hg, Out.ret_bind']
    simp only
    rw [if_pos (show failed stInsufficient = true by decide)]
  have e1 : bsPush t v = .ret (stInsufficient, ⟨t.size + 1, t.s⟩) := by
    unfold bsPush
    simp only
    rw [if_pos (by omega), e0, add64_eq (by omega), Out.ret_bind']
    simp only
    rw [if_pos (show failed stInsufficient = true by decide)]
  obtain ⟨junk, st, s', a', b', sl', _, hst, e2, R'⟩ := pop_ok R.rep
  have hbne : bytes.map some ≠ [] := by
    intro h0
    have h1 : bytes.length = 0 := by simpa using h0
    omega
  simp only [step, if_neg hbne, Prod.mk.injEq] at hst
  obtain ⟨rfl, rfl⟩ := hst
  simp only [vecOp] at e2
  have hs' : s'.v.size = bytes.length - 1 := by have := R'.size; simpa using this
  have hsub : sub64 (t.size + 1) 1 = t.size := by rw [sub64_eq (by omega) (by omega)]; rfl
  refine ⟨_, ⟨t.size, s'⟩, e1, ?_, rfl, fun i hi => ?_⟩
  · unfold bsPop
    simp only
    rw [hsub, if_pos (by omega), e2]
    rfl
  · unfold bsTest withPointer vecGetPointer
    simp only
    by_cases hi2 : i ≥ t.size
    · rw [if_pos hi2]
    · rw [if_neg hi2, if_pos (show i / 8 ≥ s'.v.size by omega)]
      rfl

example : ∃ t' sts u, bsPush exFBits true = .ret (stInsufficient, t') ∧
    runBits t' ([true, false, true, true, true, true, true, true, true, true].map .push) = .ret (sts, u) ∧
    (∀ st ∈ sts, failed st = true) ∧ bsGetSize u = 19 :=
  C79_forever_negation exFBits_reach true rfl rfl _ (by decide)
example : ∃ t' u, bsPush exFBits true = .ret (stInsufficient, t') ∧ bsPop t' = .ret (stSuccess, u) ∧
    bsGetSize u = 8 ∧ ∀ i, 0 ≤ i → bsTest u i = .ret stOutOfRange := C79_pop_negation exFBits_reach true rfl rfl

/-! ## C123 -/

/-- C123 for `Reserve` and `ShrinkToFit`: when the request is refused, the call returns the allocator's status,
and the size and all bits are those of before. Calling `ShrinkToFit` then (if granted) gives a bitset with the
same bits for which all later histories behave as specified.
Missing: `Push`, `Pop` and `Clear`, see the negations; `ShrinkToFit` of an empty bitset. -/
theorem C123_unchanged_partial {P : Params} {t : Bits} (h : BReach P t) {al : Nat} (hal : P.allocator = some al)
    {st : Status} (hst : failed st = true) (op : BOp)
    (hop : (∃ n, op = .reserve n ∧ n < 34359738368 ∧ t.s.v.cap < n / 8) ∨ (op = .shrinkToFit ∧ t.size ≠ 0)) :
    ∃ t', bsOp (bsRefuse t st) op = .ret (st, t') ∧ bsGetSize t' = bsGetSize t ∧
      (babsOf t').bits = (babsOf t).bits ∧ (∀ i, bsTest t' i = bsTest t i) ∧
      ∃ t'', bsShrinkToFit t' = .ret (stSuccess, t'') ∧ (babsOf t'').bits = (babsOf t).bits ∧
        ∀ ops, BAllInDomain P (babsOf t'') ops → ∃ u, runBits t'' ops = .ret ((brun P (babsOf t'') ops).1, u) ∧
          babsOf u = (brun P (babsOf t'') ops).2 := by
  obtain ⟨bytes, b, sl, R⟩ := h.rep
  have hlen := R.len
  have hsh := R.short
  have hsz := R.size
  have hcap : t.s.v.cap = (babsOf t).cap := R.rep.cap
  have hc1 : 1 ≤ (babsOf t).cap := R.rep.cap1
  have hs : t.s.v.size = bytes.length := R.rep.vsize
  have key : ∃ c, (1 < c ∨ 1 ≤ bytes.length) ∧
      bsOp (bsRefuse t st) op = .ret (st, ⟨t.size, afterRefusal t.s st al c⟩) := by
    have hv : (refuseNext t.s st).v = t.s.v := rfl
    rcases hop with ⟨n, rfl, hn, hc⟩ | ⟨rfl, h0⟩
    · refine ⟨n / 8, Or.inl (by omega), ?_⟩
      simp only [bsOp, bsReserve, bitsToBytes_eq hn, bsRefuse, vecReserve, hv]
      rw [if_pos hc, refused_reallocate R.rep hst hal (by omega)]
      simp only [Out.ret_bind', hst, if_true]
    · refine ⟨bytes.length, Or.inr (by omega), ?_⟩
      simp only [bsOp, bsShrinkToFit, bsRefuse, vecShrinkToFit, hv, hs]
      rw [refused_reallocate R.rep hst hal (by omega), Out.ret_bind']
  obtain ⟨c, hc, e⟩ := key
  obtain ⟨t'', b'', sl'', e2, R2⟩ := R.repair (st := st) hal hc
  refine ⟨_, e, rfl, rfl, fun _ => rfl, t'', e2, by rw [R2.abs_eq], fun ops hops => ?_⟩
  rw [R2.abs_eq] at hops ⊢
  obtain ⟨u, bytes', b', sl', hrun, R'⟩ := runBits_ok ops R2 hops
  exact ⟨u, hrun, R'.abs_eq⟩

/-- C123 is false for `Push`: whenever a push into a full bitset is refused, the size has already grown, and
the bit at the last index can not be tested. The next seven pushes fail as well, whatever the allocator says,
and the eighth writes outside of the block. -/
theorem C123_push_negation {P : Params} {t : Bits} (h : BReach P t) (v : Bool) {al : Nat}
    (hal : P.allocator = some al) {st : Status} (hst : failed st = true) (hf : Fits P (t.s.v.cap + 1))
    (hfull : t.size = 8 * t.s.v.cap) :
    ∃ t', bsPush (bsRefuse t st) v = .ret (st, t') ∧ bsGetSize t' = t.size + 1 ∧
      bsTest t' t.size = .ret stOutOfRange ∧
      ∀ vs : List Bool, vs.length = 7 → ∃ u, runBits t' (vs.map .push) = .ret (List.replicate 7 stOutOfRange, u) ∧
        ∀ v', bsPush u v' = .ub .oob := by
  obtain ⟨bytes, b, sl, R⟩ := h.rep
  have hlen := R.len
  have hsh := R.short
  have hsz := R.size
  have hcap : (babsOf t).cap = t.s.v.cap := rfl
  have hbl : bytes.length = (babsOf t).cap := by omega
  have hf' : Fits P (bytes.length + 1) := by rw [hbl]; exact hf
  have hsm : t.size + 16 < 18446744073709551616 := by
    have h1 := R.par.1
    unfold Fits at hf'
    rw [h1] at hf'
    omega
  have e := refused_pushBack R hst hal hbl hf'
  have e8 := pushBack_after (st := st) R hal hbl hf'
  have hs : ∀ c, (afterRefusal t.s st al c).v.size = bytes.length := fun _ => R.rep.vsize
  generalize (bytes.length + 1) * P.growth = c at e e8
  refine ⟨⟨t.size + 1, afterRefusal t.s st al c⟩, ?_, rfl, ?_, fun vs hvs => ?_⟩
  · have hr : (bsRefuse t st).s = refuseNext t.s st := rfl
    have hr2 : (bsRefuse t st).size = t.size := rfl
    unfold bsPush
    simp only [hr, hr2]
    rw [if_pos (by omega), e, add64_eq (by omega), Out.ret_bind']
    simp only
    rw [if_pos hst]
  · unfold bsTest withPointer vecGetPointer
    simp only
    rw [if_neg (show ¬ t.size ≥ t.size + 1 by omega),
      if_pos (show t.size / 8 ≥ (afterRefusal t.s st al c).v.size by rw [hs]; omega)]
    rfl
  · have e7 := pushes_lost (s := afterRefusal t.s st al c) vs (size := t.size + 1) (by omega) (by omega) (by omega)
      (by rw [hs]; omega)
    rw [hvs] at e7
    refine ⟨_, e7, fun v' => ?_⟩
    unfold bsPush
    simp only
    rw [if_pos (by omega), e8]
    rfl

/-- C123 is false for `Pop`: whenever popping the last bit of a byte leads to shrinking and this is refused, the
call returns the allocator's status although the bit is gone. `ShrinkToFit` (if granted) gives a bitset with
the remaining bits for which all later histories behave as specified. -/
theorem C123_pop_negation {P : Params} {t : Bits} (h : BReach P t) {al : Nat} (hal : P.allocator = some al)
    {st : Status} (hst : failed st = true) (h8 : t.size % 8 = 1) (h1 : 1 < t.size) (ht : P.thr ≠ 0)
    (hc : t.size / 8 * P.thr < t.s.v.cap) :
    ∃ t', bsPop (bsRefuse t st) = .ret (st, t') ∧ bsGetSize t' = t.size - 1 ∧
      (babsOf t').bits = (babsOf t).bits.dropLast ∧
      ∃ t'', bsShrinkToFit t' = .ret (stSuccess, t'') ∧ (babsOf t'').bits = (babsOf t).bits.dropLast ∧
        ∀ ops, BAllInDomain P (babsOf t'') ops → ∃ u, runBits t'' ops = .ret ((brun P (babsOf t'') ops).1, u) ∧
          babsOf u = (brun P (babsOf t'') ops).2 := by
  obtain ⟨bytes, b, sl, R⟩ := h.rep
  have hlen := R.len
  have hsh := R.short
  have hsz := R.size
  have hsm := R.small
  have hcap : (babsOf t).cap = t.s.v.cap := rfl
  have hbne : bytes.map some ≠ [] := by
    intro h0
    have h1 : bytes.length = 0 := by simpa using h0
    omega
  obtain ⟨s1, sl1, epop, R1⟩ := popPre_ok R.rep hbne
  have hbits : (babsOf t).bits.dropLast = flatBits bytes.dropLast := by
    rw [List.dropLast_eq_take, List.dropLast_eq_take (l := bytes)]
    have h2 : flatBits bytes = flatBits (bytes.take (bytes.length - 1)) ++
        flatBits (bytes.drop (bytes.length - 1)) := by
      rw [← flatBits_append, List.take_append_drop]
    have hl : (flatBits (bytes.take (bytes.length - 1))).length = (babsOf t).bits.length - 1 := by
      rw [flatBits_length, List.length_take]; omega
    have h3 := R.flat
    rw [h2] at h3
    have h4 := congrArg (List.take ((babsOf t).bits.length - 1)) h3
    rw [List.take_append_of_le_length (by omega)] at h4
    rw [h4]
    conv => lhs; rw [← hl, List.take_left]
  have R2 : BRep P ⟨t.size - 1, s1⟩ ⟨(babsOf t).bits.dropLast, [], (babsOf t).cap⟩ bytes.dropLast b sl1 := by
    refine ⟨?_, R.par, by simp; omega, by simp [hbits], by simp⟩
    simpa [killed, R.par.2, List.map_dropLast] using R1
  have hk : bytes.dropLast.length = t.size / 8 := by simp; omega
  have e3 := refused_shrinkAfter R2.rep hst hal ht (by simp only [List.length_map, hk]; exact hc)
  simp only [List.length_map] at e3
  obtain ⟨t'', b'', sl'', e4, R4⟩ := R2.repair (st := st) hal (c := max 1 (bytes.dropLast.length * P.growth))
    (Or.inr (by omega))
  refine ⟨⟨t.size - 1, afterRefusal s1 st al (max 1 (bytes.dropLast.length * P.growth))⟩, ?_, rfl, ?_, t'', e4, by rw [R4.abs_eq], ?_⟩
  · have hr : (bsRefuse t st).s = refuseNext t.s st := rfl
    have hr2 : (bsRefuse t st).size = t.size := rfl
    have hsub : sub64 t.size 1 = t.size - 1 := sub64_eq (by omega) (by omega)
    unfold bsPop
    simp only [hr, hr2]
    rw [hsub, if_pos (by omega), epop st, e3]
    rfl
  · have := congrArg BState.bits R2.abs_eq
    exact this
  · intro ops hops
    rw [R4.abs_eq] at hops ⊢
    obtain ⟨u, bytes', b', sl', hrun, R'⟩ := runBits_ok ops R4 hops
    exact ⟨u, hrun, R'.abs_eq⟩

/-- C123 is false for `Clear`: whenever it leads to shrinking and this is refused, the call returns the
allocator's status, the size is zero, and all bytes are still there. They are counted later on: after
`ShrinkToFit` and the push of one zero bit, `Any` claims that a bit is set if any bit but the first was set
before. -/
theorem C123_clear_negation {P : Params} {t : Bits} (h : BReach P t) {al : Nat} (hal : P.allocator = some al)
    {st : Status} (hst : failed st = true) (h0 : t.size ≠ 0) (h1 : 1 < t.s.v.cap) (ht : P.thr ≠ 0) :
    ∃ t', bsClear (bsRefuse t st) = .ret (st, t') ∧ bsGetSize t' = 0 ∧ bsGetSizeBytes t' = bsGetSizeBytes t ∧
      ∀ i, 1 ≤ i → (babsOf t).bits[i]? = some true → Fits P (bsGetSizeBytes t + 1) →
        ∃ t'' u, bsShrinkToFit t' = .ret (stSuccess, t'') ∧ bsPush t'' false = .ret (stSuccess, u) ∧
          bsGetSize u = 1 ∧ bsTest u 0 = .ret stFalse ∧ bsAny u = .ret stTrue := by
  obtain ⟨bytes, b, sl, R⟩ := h.rep
  have hlen := R.len
  have hsh := R.short
  have hsz := R.size
  have hcap : t.s.v.cap = (babsOf t).cap := R.rep.cap
  have hbpos : 1 ≤ bytes.length := by omega
  have e := refused_resize R.rep hst hal R.par.2 (m := 0) (by simp; omega)
    (show Fits P 0 by unfold Fits; simp) (fun _ => by rw [← hcap]; exact h1)
    (Or.inr ⟨ht, by show 0 * P.thr < (babsOf t).cap; rw [Nat.zero_mul]; omega⟩) .null
  rw [Nat.zero_mul] at e
  refine ⟨⟨0, afterRefusal t.s st al (max 1 0)⟩, ?_, rfl, rfl, fun i hi1 hit hf => ?_⟩
  · unfold bsClear vecClear
    have hr : (bsRefuse t st).s = refuseNext t.s st := rfl
    rw [hr, e]
    rfl
  · have hvs : bsGetSizeBytes t = bytes.length := R.rep.vsize
    rw [hvs] at hf
    obtain ⟨s2, b2, sl2, e2, R2⟩ := refused_repair' R.rep (st := st) hal (c := max 1 0) (Or.inr (by simpa using hbpos))
    have e2' : bsShrinkToFit ⟨0, afterRefusal t.s st al (max 1 0)⟩ = .ret (stSuccess, ⟨0, s2⟩) := by
      unfold bsShrinkToFit
      simp only [e2, Out.ret_bind']
    simp only [List.length_map] at R2
    obtain ⟨junk, st3, s3, a3, b3, sl3, _, hst3, e3, R3⟩ := push_ok R2 (some 0#8) (show Fits P _ by simpa using hf)
    obtain ⟨c3, hc3⟩ : ∃ c3, room P (max 1 bytes.length) (bytes.length + 1) = some c3 := by
      unfold room
      rw [if_neg (by omega), if_pos (by simp [hal])]
      exact ⟨_, rfl⟩
    simp only [step, List.length_map, hc3, Prod.mk.injEq] at hst3
    obtain ⟨rfl, rfl⟩ := hst3
    simp only [vecOp] at e3
    have R3' : Rep P s3 ⟨(bytes ++ [0#8]).map some, c3, []⟩ b3 sl3 := by simpa using R3
    obtain ⟨x, rest, rfl⟩ : ∃ x rest, bytes = x :: rest := by
      cases bytes with
      | nil => simp at hbpos
      | cons x rest => exact ⟨x, rest, rfl⟩
    obtain ⟨s4, b4, e4, R4⟩ := store_ok R3' (i := 0) (by simp) (x &&& ~~~bitMask 0)
    have hload : loadByte s3 0 = .ret x := load_ok R3' rfl
    have epush : bsPush ⟨0, s2⟩ false = .ret (stSuccess, ⟨1, s4⟩) := by
      have hsub : sub64 (0 + 1) 1 = 0 := by rw [sub64_eq (by omega) (by omega)]
      unfold bsPush
      simp only
      rw [if_pos trivial, e3, add64_eq (by omega), hsub, Out.ret_bind']
      simp only [failed_success, Bool.false_eq_true, if_false, bsAssign, bsReset, bsModify]
      rw [if_neg (by omega), withPointer_in R3' (by simp), hload, Out.ret_bind', e4, Out.ret_bind']
    refine ⟨_, _, e2', epush, rfl, ?_, ?_⟩
    · unfold bsTest
      simp only
      rw [if_neg (by omega), withPointer_in R4 (by simp), load_ok R4 (x := x &&& ~~~bitMask 0) (by simp), Out.ret_bind',
        if_pos]
      have : ∀ x : Byte, x &&& ~~~bitMask 0 &&& bitMask 0 = 0#8 := by decide +kernel
      exact this x
    · unfold bsAny
      rw [R4.vsize, scan_ok (t := ⟨1, s4⟩) R4 _ _ _ _ _ (i := 0) (by simp)]
      rw [if_pos]
      left
      have hflat : (flatBits (x :: rest))[i]? = some true := by
        rw [← R.flat, List.getElem?_append_left]
        · exact hit
        · rcases Nat.lt_or_ge i (babsOf t).bits.length with h | h
          · exact h
          · rw [List.getElem?_eq_none h] at hit; cases hit
      have hd : (List.drop 0 ((x :: rest ++ [0#8]).set 0 (x &&& ~~~bitMask 0))).dropLast = (x &&& ~~~bitMask 0) :: rest := by
        show ((x &&& ~~~bitMask 0) :: (rest ++ [0#8])).dropLast = _
        rw [← List.cons_append, List.dropLast_concat]
      rw [hd, List.any_eq_true]
      by_cases hi8 : i < 8
      · refine ⟨_, List.mem_cons_self, ?_⟩
        have hx : (byteBits x)[i]? = some true := by
          rw [← hflat]
          show _ = (byteBits x ++ flatBits rest)[i]?
          rw [List.getElem?_append_left (by simp [byteBits, hi8])]
        have : ∀ x : Byte, ∀ i : Fin 8, 1 ≤ i.val → (byteBits x)[i.val]? = some true → (x &&& ~~~bitMask 0) != 0x00#8 := by
          decide +kernel
        exact this x ⟨i, hi8⟩ hi1 hx
      · have hr : (flatBits rest)[i - 8]? = some true := by
          rw [← hflat]
          show _ = (byteBits x ++ flatBits rest)[i]?
          rw [List.getElem?_append_right (by simp [byteBits]; omega)]
          simp [byteBits]
        obtain ⟨y, hy⟩ : ∃ y, rest[(i - 8) / 8]? = some y := by
          refine ⟨_, List.getElem?_eq_getElem ?_⟩
          rcases Nat.lt_or_ge (i - 8) (flatBits rest).length with h | h
          · rw [flatBits_length] at h; omega
          · rw [List.getElem?_eq_none h] at hr; cases hr
        refine ⟨y, List.mem_cons_of_mem _ (List.mem_of_getElem? hy), ?_⟩
        rw [flatBits_get hy] at hr
        have : ∀ y : Byte, ∀ i : Fin 8, (byteBits y)[i.val]? = some true → y != 0x00#8 := by decide +kernel
        exact this y ⟨(i - 8) % 8, by omega⟩ hr

/-- Nine bits: 00000000 1, in a storage of four bytes. -/
def exNine : Bits :=
  ⟨9, ⟨{ allocator := some 0, growth := 2, shrink := 2, size := 2, cap := 4, esz := 1, hasDtor := false,
         data := some ⟨1, [some 0#8, some 0x80#8, none, none]⟩ },
       ⟨fun _ => stSuccess, 2, 2, [.alloc 0 0 1 1, .realloc 0 0 1 1 4]⟩⟩⟩

theorem exNine_reach : BReach exBP exNine :=
  BReach.run [.push true] exBits0_reach (bDomains_sound _ (by decide +kernel))
    (show _ = Out.ret ([stSuccess], exNine) by cbv)

example : ∃ t', bsOp (bsRefuse exBits stNoMemory) (.reserve 80) = .ret (stNoMemory, t') ∧ bsGetSize t' = 11 ∧
    (babsOf t').bits = (babsOf exBits).bits :=
  let ⟨t', h1, h2, h3, _⟩ := C123_unchanged_partial exBits_reach (al := 0) rfl (st := stNoMemory) rfl (.reserve 80)
    (Or.inl ⟨80, rfl, by decide, by decide⟩)
  ⟨t', h1, h2, h3⟩
example : ∃ t', bsPush (bsRefuse exBits0 stNoMemory) true = .ret (stNoMemory, t') ∧ bsGetSize t' = 9 ∧
    ∃ u, runBits t' ([true, true, true, true, true, true, true].map .push) =
      .ret (List.replicate 7 stOutOfRange, u) ∧ ∀ v', bsPush u v' = .ub .oob :=
  let ⟨t', h1, h2, _, h3⟩ := C123_push_negation exBits0_reach true (al := 0) rfl (st := stNoMemory) rfl
    (by show _ < _; decide) rfl
  ⟨t', h1, h2, h3 _ rfl⟩
example : ∃ t', bsPop (bsRefuse exNine stNoMemory) = .ret (stNoMemory, t') ∧ bsGetSize t' = 8 ∧
    (babsOf t').bits = List.replicate 8 false :=
  let ⟨t', h1, h2, h3, _⟩ := C123_pop_negation exNine_reach (al := 0) rfl (st := stNoMemory) rfl (by decide)
    (by decide) (by decide) (by decide)
  ⟨t', h1, h2, h3.trans (by decide +kernel)⟩
example : ∃ t' t'' u, bsClear (bsRefuse exBits stNoMemory) = .ret (stNoMemory, t') ∧ bsGetSize t' = 0 ∧
    bsShrinkToFit t' = .ret (stSuccess, t'') ∧ bsPush t'' false = .ret (stSuccess, u) ∧
    bsTest u 0 = .ret stFalse ∧ bsAny u = .ret stTrue :=
  let ⟨t', h1, h2, _, h3⟩ := C123_clear_negation exBits_reach (al := 0) rfl (st := stNoMemory) rfl (by decide)
    (by decide) (by decide)
  let ⟨t'', u, h4, h5, _, h6, h7⟩ := h3 10 (by decide) (by decide +kernel) (by show _ < _; decide +kernel)
  ⟨t', t'', u, h1, h2, h4, h5, h6, h7⟩

end Zy
