import Verif.Lemmas.BitPrograms
import Verif.Props.Bitset

/-!
# Properties: programs that combine bitsets
-/

namespace Zy

open Spec

/-! ## C152: position by position -/

/-- **C152**. A program of any length that combines any number of bitsets of the same size (also a bitset with itself)
and complements, sets or resets whole bitsets succeeds, and at every position it does what the same commands do with
single booleans: `f` are the bits at position `i` before. -/
theorem C152_bit_by_bit {n : Nat} {env : Nat → Bits} (hr : ∀ a, ∃ P, BReach P (env a)) (hs : ∀ a, (env a).size = n)
    (cs : List BitCmd) :
    ∃ env', runBitCmds env cs = .ret (stSuccess, env') ∧ (∀ a, (env' a).size = n) ∧
      ∀ i, i < n → ∀ f : Nat → Bool, (∀ a, bsTest (env a) i = .ret (answer (some (f a)))) →
        ∀ a, bsTest (env' a) i = .ret (answer (some (cs.foldl onOneBit f a))) := by
  have h : Level n env := fun a => ⟨hr a, hs a⟩
  obtain ⟨env', e, h', x⟩ := runBitCmds_ok cs h
  refine ⟨env', e, fun a => (h' a).2, fun i hi f hf a => ?_⟩
  have hff : f = bitAt env i := by
    funext c
    have h1 := hf c
    rw [h.test c hi] at h1
    cases hc : f c <;> cases hc' : bitAt env i c <;> rw [hc, hc'] at h1 <;> first | rfl | exact absurd h1 (by decide)
  rw [h'.test a hi, x i hi, hff]

/-- **C152**, what follows: two programs that leave the same boolean in `a` whatever the booleans before, leave bitsets
with the same bits in `a`. -/
theorem C152_equivalent {n : Nat} {env : Nat → Bits} (hr : ∀ a, ∃ P, BReach P (env a)) (hs : ∀ a, (env a).size = n)
    {cs ds : List BitCmd} {a : Nat} (heq : ∀ f : Nat → Bool, cs.foldl onOneBit f a = ds.foldl onOneBit f a) :
    ∃ env1 env2, runBitCmds env cs = .ret (stSuccess, env1) ∧ runBitCmds env ds = .ret (stSuccess, env2) ∧
      ∀ i, i < n → bsTest (env1 a) i = bsTest (env2 a) i := by
  have h : Level n env := fun a => ⟨hr a, hs a⟩
  obtain ⟨env1, e1, h1, x1⟩ := runBitCmds_ok cs h
  obtain ⟨env2, e2, h2, x2⟩ := runBitCmds_ok ds h
  refine ⟨env1, env2, e1, e2, fun i hi => ?_⟩
  rw [h1.test a hi, h2.test a hi, x1 i hi, x2 i hi, heq]

/-- Some bitsets of eight bits. -/
def exEnv : Nat → Bits := fun a => if a = 0 then exBits0 else
  ⟨8, ⟨{ allocator := some 0, growth := 2, shrink := 2, size := 1, cap := 1, esz := 1, hasDtor := false,
         data := some ⟨0, [some 0x81#8]⟩ }, ⟨fun _ => stSuccess, 1, 1, [.alloc 0 0 1 1]⟩⟩⟩

theorem exEnv_reach : ∀ a, ∃ P, BReach P (exEnv a) := by
  intro a
  refine ⟨exBP, ?_⟩
  unfold exEnv
  split
  · exact exBits0_reach
  · exact BReach.run [.set 0, .set 7] exBits0_reach (bDomains_sound _ (by decide +kernel))
      (show _ = Out.ret ([stSuccess, stSuccess], _) by cbv)

/-- Exchanging two bitsets with three XORs. -/
example : ∃ env', runBitCmds exEnv [.xor 0 1, .xor 1 0, .xor 0 1] = .ret (stSuccess, env') ∧
    bsTest (env' 0) 7 = .ret stTrue ∧ bsTest (env' 1) 7 = .ret stFalse := by
  obtain ⟨env', e, _, x⟩ := C152_bit_by_bit (n := 8) exEnv_reach (by intro a; unfold exEnv; split <;> rfl)
    [.xor 0 1, .xor 1 0, .xor 0 1]
  have := x 7 (by decide) (fun a => decide (a ≠ 0)) (by
    intro a
    unfold exEnv
    by_cases ha : a = 0
    · subst ha; decide +kernel
    · rw [if_neg ha, show decide (a ≠ 0) = true by simp [ha]]; decide +kernel)
  refine ⟨env', e, ?_, ?_⟩
  · rw [this 0]; decide
  · rw [this 1]; decide

/-- De Morgan: complementing the conjunction is the disjunction of the complements. -/
example : ∃ env1 env2, runBitCmds exEnv [.and 0 1, .flip 0] = .ret (stSuccess, env1) ∧
    runBitCmds exEnv [.flip 0, .flip 1, .or 0 1] = .ret (stSuccess, env2) ∧
    ∀ i, i < 8 → bsTest (env1 0) i = bsTest (env2 0) i :=
  C152_equivalent exEnv_reach (by intro a; unfold exEnv; split <;> rfl) (by
    intro f
    show (!(f 0 && f 1)) = (!f 0 || !f 1)
    cases f 0 <;> cases f 1 <;> rfl)

/-! ## C153: counts of combined bitsets -/

/-- **C153**. For two bitsets of the same size without set stray bits: the set bits of the conjunction and of the
disjunction are together as many as those of the two bitsets; those of the exclusive or are what is left when the
common ones are taken away twice.
Missing for the full claim: bitsets with set stray bits, see `C153_negation`. -/
theorem C153_counts_partial {P P' : Params} {t u : Bits} (h : BReach P t) (hu : BReach P' u) (hs : t.size = u.size)
    (hc : true ∉ (babsOf t).stray) (hc' : true ∉ (babsOf u).stray) :
    ∃ tAnd tOr tXor c d cAnd cOr cXor, bsAnd t u = .ret (stSuccess, tAnd) ∧ bsOr t u = .ret (stSuccess, tOr) ∧
      bsXor t u = .ret (stSuccess, tXor) ∧ bsCount t = .ret (stSuccess, c) ∧ bsCount u = .ret (stSuccess, d) ∧
      bsCount tAnd = .ret (stSuccess, cAnd) ∧ bsCount tOr = .ret (stSuccess, cOr) ∧
      bsCount tXor = .ret (stSuccess, cXor) ∧ cAnd + cOr = c + d ∧ cXor + 2 * cAnd = c + d := by
  obtain ⟨t1, e1, _, r1, b1, s1⟩ := logic_same h hu hs byteBits_and
  obtain ⟨t2, e2, _, r2, b2, s2⟩ := logic_same h hu hs byteBits_or
  obtain ⟨t3, e3, _, r3, b3, s3⟩ := logic_same h hu hs byteBits_xor
  have hl : (babsOf t).bits.length = (babsOf u).bits.length := by
    obtain ⟨_, _, _, R⟩ := h.rep
    obtain ⟨_, _, _, U⟩ := hu.rep
    have := R.size
    have := U.size
    omega
  obtain ⟨k1, k2⟩ := count_zip hl
  refine ⟨t1, t2, t3, _, _, _, _, _, e1, e2, e3, count_no_stray h hc, count_no_stray hu hc',
    count_no_stray r1 (by rw [s1]; exact zip_clean rfl hc hc'),
    count_no_stray r2 (by rw [s2]; exact zip_clean rfl hc hc'),
    count_no_stray r3 (by rw [s3]; exact zip_clean rfl hc hc'), ?_, ?_⟩
  · rw [b1, b2]; exact k1
  · rw [b1, b3]; exact k2

/-- A bitset with the single bit 0, from which the bits 1 and 0 were popped. -/
def exStray1 : Bits :=
  ⟨1, ⟨{ allocator := some 0, growth := 2, shrink := 2, size := 1, cap := 1, esz := 1, hasDtor := false,
         data := some ⟨0, [some 0x40#8]⟩ }, ⟨fun _ => stSuccess, 1, 1, [.alloc 0 0 1 1]⟩⟩⟩
/-- A bitset with the single bit 0, from which the bits 0 and 1 were popped. -/
def exStray2 : Bits :=
  ⟨1, ⟨{ allocator := some 0, growth := 2, shrink := 2, size := 1, cap := 1, esz := 1, hasDtor := false,
         data := some ⟨0, [some 0x20#8]⟩ }, ⟨fun _ => stSuccess, 1, 1, [.alloc 0 0 1 1]⟩⟩⟩

theorem exStray1_reach : BReach exBP exStray1 :=
  BReach.run [.set 1, .pop, .pop, .pop, .pop, .pop, .pop, .pop] exBits0_reach
    (bDomains_sound _ (by decide +kernel)) (show _ = Out.ret (List.replicate 8 stSuccess, exStray1) by cbv)
theorem exStray2_reach : BReach exBP exStray2 :=
  BReach.run [.set 2, .pop, .pop, .pop, .pop, .pop, .pop, .pop] exBits0_reach
    (bDomains_sound _ (by decide +kernel)) (show _ = Out.ret (List.replicate 8 stSuccess, exStray2) by cbv)

/-- **C153** is false in general: two bitsets of one bit, which is not set, both with the count 1; the counts of the
conjunction and the disjunction are 0 and 1. -/
theorem C153_negation : ∃ P t u tAnd tOr, BReach P t ∧ BReach P u ∧ t.size = u.size ∧
    bsAnd t u = .ret (stSuccess, tAnd) ∧ bsOr t u = .ret (stSuccess, tOr) ∧
    bsCount t = .ret (stSuccess, 1) ∧ bsCount u = .ret (stSuccess, 1) ∧ bsCount tAnd = .ret (stSuccess, 0) ∧
    bsCount tOr = .ret (stSuccess, 1) := by
  obtain ⟨t1, e1, _, r1, b1, s1⟩ := logic_same exStray1_reach exStray2_reach rfl byteBits_and
  obtain ⟨t2, e2, _, r2, b2, s2⟩ := logic_same exStray1_reach exStray2_reach rfl byteBits_or
  refine ⟨exBP, exStray1, exStray2, t1, t2, exStray1_reach, exStray2_reach, rfl, e1, e2, by decide +kernel,
    by decide +kernel, ?_, ?_⟩
  · obtain ⟨_, _, _, R⟩ := r1.rep
    rw [count_ok R, b1, s1]
    decide +kernel
  · obtain ⟨_, _, _, R⟩ := r2.rep
    rw [count_ok R, b2, s2]
    decide +kernel

/-- **C153** for the complement: when the size is a multiple of eight, a bitset and its complement have together as
many set bits as there are bits.
Missing for the full claim: other sizes, where the complement has set stray bits or the bitset had some. -/
theorem C153_complement_partial {P : Params} {t : Bits} (h : BReach P t) (h8 : t.size % 8 = 0) :
    ∃ t' c d, bsFlip t = .ret (stSuccess, t') ∧ bsCount t = .ret (stSuccess, c) ∧
      bsCount t' = .ret (stSuccess, d) ∧ c + d = t.size := by
  obtain ⟨t1, e1, hs, r1, b1, _⟩ := all_same h (op := .flip) (g := fun b => !b) trivial rfl
  have k1 := (C42_count_partial h).2.2 h8
  have k2 := (C42_count_partial r1).2.2 (by rw [hs]; exact h8)
  refine ⟨t1, _, _, e1, k1, k2, ?_⟩
  obtain ⟨_, _, _, R⟩ := h.rep
  rw [b1, R.size]
  generalize (babsOf t).bits = x
  induction x with
  | nil => rfl
  | cons a x ih => cases a <;> simp <;> omega

example : ∃ tAnd tOr cAnd cOr, bsAnd exBits exBits = .ret (stSuccess, tAnd) ∧ bsOr exBits exBits = .ret (stSuccess, tOr) ∧
    bsCount tAnd = .ret (stSuccess, cAnd) ∧ bsCount tOr = .ret (stSuccess, cOr) :=
  let ⟨t1, t2, _, _, _, c1, c2, _, h1, h2, _, _, _, h3, h4, _⟩ :=
    C153_counts_partial exBits_reach exBits_reach rfl (by decide +kernel) (by decide +kernel)
  ⟨t1, t2, c1, c2, h1, h2, h3, h4⟩
example : ∃ t' c d, bsFlip exBits0 = .ret (stSuccess, t') ∧ bsCount exBits0 = .ret (stSuccess, c) ∧
    bsCount t' = .ret (stSuccess, d) ∧ c + d = 8 := C153_complement_partial exBits0_reach rfl

end Zy
