import Verif.Props.Bitset

/-!
# How many bits a bitset of any requested size has room for

C44 and C81, exactly, for every requested number of bits.
-/

namespace Zy

open Spec

/-- How many bytes the library sets aside for `n` bits: `n / 8`, computed with 32 bits; when that does not fit,
one more than its lower 32 bits. -/
def bytesSetAside (n : Nat) : Nat :=
  if n < 34359738368 then n / 8 else (n / 8 + 1) % 4294967296

theorem bitsToBytes_setAside (n : Nat) : bitsToBytes n = bytesSetAside n := by
  unfold bitsToBytes bsCeil bytesSetAside
  split <;> split <;> omega

/-- C44, exactly: after initialising with any number of bits, the bits in the bytes that were set aside are
usable and zero, the others cannot be tested. -/
theorem C44_usable_exact {w : World Byte} {P : Params} {n al : Nat} (hw : Fresh w) (hr : Reliable w)
    (hP : P.allocator = some al ∧ P.growth ≤ 255 ∧ P.thr ≤ 255) (hB : BParams P) (hg : 1 ≤ P.growth) :
    ∃ t w', bsInitEx w n (some al) P.growth P.thr = .ret (stSuccess, some t, w') ∧ bsGetSize t = n ∧
      ∀ i, i < n →
        (i < 8 * bytesSetAside n → bsTest t i = .ret stFalse ∧ ∃ t', bsSet t i = .ret (stSuccess, t') ∧
          bsTest t' i = .ret stTrue) ∧
        (8 * bytesSetAside n ≤ i → bsTest t i = .ret stOutOfRange ∧ bsSet t i = .ret (stOutOfRange, t)) := by
  obtain ⟨t, w', b, sl, e, hs, R⟩ := binit_ok (n := n) hw hr hP hB hg
  rw [bitsToBytes_setAside] at R
  refine ⟨t, w', e, hs, fun i hi => ⟨fun h => ?_, fun h => ?_⟩⟩
  · have hlt : i / 8 < (List.replicate (bytesSetAside n) (0#8 : Byte)).length := by simp; omega
    have hx : (List.replicate (bytesSetAside n) (0#8 : Byte))[i / 8]? = some 0#8 := by
      rw [List.getElem?_eq_getElem hlt]; simp
    constructor
    · unfold bsTest
      rw [if_neg (by rw [hs]; omega), withPointer_in R hlt, load_ok R hx, Out.ret_bind']
      simp
    · obtain ⟨s', b', e', R'⟩ := store_ok R hlt (0#8 ||| bitMask i)
      refine ⟨⟨t.size, s'⟩, ?_, ?_⟩
      · unfold bsSet bsModify
        rw [if_neg (by rw [hs]; omega), withPointer_in R hlt, load_ok R hx, Out.ret_bind', e', Out.ret_bind']
      · have hx' : ((List.replicate (bytesSetAside n) (0#8 : Byte)).set (i / 8) (0#8 ||| bitMask i))[i / 8]? =
            some (0#8 ||| bitMask i) := by rw [List.getElem?_set_self hlt]
        unfold bsTest
        rw [if_neg (show ¬ i ≥ t.size by rw [hs]; omega), withPointer_in R' (by simpa using hlt), load_ok R' hx',
          Out.ret_bind']
        have hm : ∀ j, j < 8 → ¬ ((0#8 ||| 1#8 <<< (7 - j)) &&& 1#8 <<< (7 - j) = 0#8) := by decide
        exact if_neg (hm (i % 8) (Nat.mod_lt _ (by decide)))
  · have hout : (List.replicate (bytesSetAside n) (0#8 : Byte)).length ≤ i / 8 := by simp; omega
    constructor
    · unfold bsTest
      rw [if_neg (by rw [hs]; omega), withPointer_out R hout]
      rfl
    · unfold bsSet bsModify
      rw [if_neg (by rw [hs]; omega), withPointer_out R hout]

/-- C81, exactly: reserving any number of bits on a dynamic bitset succeeds, makes room for the bytes set aside
for that number and keeps all bits. -/
theorem C81_reserve_exact {P : Params} {t : Bits} (h : BReach P t) (hdyn : P.allocator.isSome) (n : Nat) :
    ∃ t', bsReserve t n = .ret (stSuccess, t') ∧
      bsGetCapacityBytes t' = max (bsGetCapacityBytes t) (bytesSetAside n) ∧
      (babsOf t').bits = (babsOf t).bits ∧ bsGetSize t' = t.size := by
  have h8 : 8 * bytesSetAside n < 34359738368 := by unfold bytesSetAside; split <;> omega
  have heq : bsReserve t n = bsReserve t (8 * bytesSetAside n) := by
    unfold bsReserve
    rw [bitsToBytes_eq h8, bitsToBytes_setAside, Nat.mul_div_cancel_left _ (by decide)]
  obtain ⟨bytes, b, sl, R⟩ := h.rep
  obtain ⟨t', bytes', b', sl', e, R'⟩ := bop_ok R (.reserve (8 * bytesSetAside n)) h8
  have hbits := bstep_plain (P := P) (s := babsOf t) (op := .reserve (8 * bytesSetAside n)) h8
  have hst : (bstep P (babsOf t) (.reserve (8 * bytesSetAside n))).1 = stSuccess ∧
      (bstep P (babsOf t) (.reserve (8 * bytesSetAside n))).2.cap = max (babsOf t).cap (bytesSetAside n) := by
    simp only [bstep, hdyn, if_true]
    rw [Nat.mul_div_cancel_left _ (by decide : 0 < 8)]
    split
    · exact ⟨rfl, by show (babsOf t).cap = _; omega⟩
    · exact ⟨rfl, by show bytesSetAside n = _; omega⟩
  refine ⟨t', by rw [heq, ← hst.1]; exact e, ?_, by rw [R'.abs_eq, hbits]; rfl, ?_⟩
  · have hcap : (babsOf t').cap = bsGetCapacityBytes t' := rfl
    rw [← hcap, R'.abs_eq]; exact hst.2
  · unfold bsGetSize
    rw [R'.size, hbits, R.size]
    rfl

/-- C81 is false for every number of bits from `2^35` on: unless the capacity was already above it, the capacity
gets at most `2^32` bytes, and success is reported. -/
theorem C81_huge_negation {P : Params} {t : Bits} (h : BReach P t) (hdyn : P.allocator.isSome) {n : Nat}
    (hn : 34359738368 ≤ n) (hc : bsGetCapacityBytes t < n / 8) :
    ∃ t', bsReserve t n = .ret (stSuccess, t') ∧ 8 * bsGetCapacityBytes t' < n := by
  obtain ⟨t', e, hcap, _⟩ := C81_reserve_exact h hdyn n
  refine ⟨t', e, ?_⟩
  have : bytesSetAside n < 4294967296 := by unfold bytesSetAside; split <;> omega
  omega

example : bytesSetAside 19 = 2 ∧ bytesSetAside 34359738368 = 1 ∧ bytesSetAside 34359738384 = 3 := by decide
example : ∃ t w', bsInit exBW 34359738368 = .ret (stSuccess, some t, w') ∧ bsTest t 7 = .ret stFalse ∧
    bsTest t 8 = .ret stOutOfRange :=
  let ⟨t, w', h1, _, h3⟩ := C44_usable_exact (P := exBP) (w := exBW) (al := 0) (n := 34359738368) ⟨rfl, rfl⟩
    (fun _ => failed_success) ⟨rfl, by decide, by decide⟩ ⟨rfl, rfl⟩ (by decide)
  ⟨t, w', h1, ((h3 7 (by decide)).1 (by decide)).1, ((h3 8 (by decide)).2 (by decide)).1⟩
example : ∃ t', bsReserve exBits 34359738400 = .ret (stSuccess, t') ∧ bsGetCapacityBytes t' = 5 :=
  let ⟨t', h1, h2, _⟩ := C81_reserve_exact exBits_reach rfl 34359738400
  ⟨t', h1, h2.trans (by decide)⟩
example : ∃ t', bsReserve exBits 34359738400 = .ret (stSuccess, t') ∧ 8 * bsGetCapacityBytes t' < 34359738400 :=
  C81_huge_negation exBits_reach rfl (by decide) (by decide)

end Zy
