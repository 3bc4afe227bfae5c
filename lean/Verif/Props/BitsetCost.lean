import Verif.Lemmas.BitsetCost
import Verif.Props.Bitset

/-!
# Property theorems about the cost of bitsets (C163)

The cost of a history is the number of bytes for which it asks the allocator to find a new place
(`spent`, in `Verif.Spec.VectorCost`); `btouchedRun` is in `Verif.Spec.BitsetCost`.
-/

namespace Zy

open Spec

/-! ## C163: bitsets cost constant time per byte -/

/-- **C163** (for growth factors of at least 2 and shrink thresholds that are 0 or larger than the growth
factor): every history of requests on every bitset costs at most the square of the growth factor for every
byte that is added, removed or asked room for, plus twice the growth factor for every byte of the initial
capacity. Missing for the full property: the other growth factors and shrink thresholds, among them the
defaults 2 and 2 of `ZyanBitsetInit`, for which it is false (`C163_negation_default`,
`C163_negation_threshold`, `C163_negation_growth`). -/
theorem C163_amortised_partial {P : Params} {t : Bits} (h : BReach P t) (hg : 2 ≤ P.growth)
    (ht : P.thr = 0 ∨ P.growth < P.thr) (ops : List BOp) (hd : BAllInDomain P (babsOf t) ops) :
    ∃ sts t', runBits t ops = .ret (sts, t') ∧
      spent t'.s.w.trace ≤ spent t.s.w.trace + P.growth * P.growth * btouchedRun P (babsOf t) ops +
        2 * P.growth * bsGetCapacityBytes t := by
  obtain ⟨bytes, b, sl, R⟩ := h.rep
  obtain ⟨t', a', bytes', b', sl', hrun, R', hle⟩ := pay_brun hg ht ops R hd
  refine ⟨_, t', hrun, ?_⟩
  have hlen := R.rep.len
  simp only [List.length_map, R.bytes_len] at hlen
  have h1 := credit_le (g := P.growth) hlen
  rw [show bsGetCapacityBytes t = (babsOf t).cap from rfl]
  omega

/-- **C163** fails for every shrink threshold from 1 to the growth factor: a full bitset of `m` bytes to
which one bit is added is emptied, bit by bit, at a cost of at least `growth * (m + 1) * (m + 2) / 2` for
`m + 2` bytes that are added and removed. -/
theorem C163_negation_threshold {P : Params} {t : Bits} (h : BReach P t)
    (hdyn : P.allocator.isSome = true) (ht : P.thr ≠ 0) (htg : P.thr ≤ P.growth) {m : Nat}
    (hm : bsGetSize t = 8 * m) (hc : bsGetCapacityBytes t ≤ m) (hf : Fits P (m + 1)) (v : Bool) :
    ∃ sts t', runBits t (.push v :: List.replicate (8 * m + 1) .pop) = .ret (sts, t') ∧
      (babsOf t').bits = [] ∧
      btouchedRun P (babsOf t) (.push v :: List.replicate (8 * m + 1) .pop) = m + 2 ∧
      2 * spent t.s.w.trace + P.growth * ((m + 1) * (m + 2)) ≤ 2 * spent t'.s.w.trace := by
  obtain ⟨bytes, b, sl, R⟩ := h.rep
  have hlen : (babsOf t).bits.length = 8 * m := by rw [← R.size]; exact hm
  obtain ⟨t1, a1, bytes1, b1, sl1, hop, R1, hstep, h1, h2, h3⟩ := bpush_grow R hdyn hlen hc hf v
  have hlen1 : a1.bits.length = 8 * m + 1 := by rw [h1]; simp [hlen]
  have hlt : m * P.thr < a1.cap := by
    rw [h2, Nat.succ_mul]
    have := Nat.mul_le_mul_left m htg
    omega
  obtain ⟨sts, t', a', bytes', b', sl', hrun, R', hnil, hle⟩ := bpops_cost hdyn ht htg m R1 hlen1 hlt
  refine ⟨stSuccess :: sts, t', ?_, by rw [R'.abs_eq]; exact hnil, ?_, ?_⟩
  · rw [runBits, hop, Out.ret_bind']
    simp only [hrun, Out.ret_bind']
  · rw [btouchedRun, hstep, btouchedRun_pops _ hlen1, btouched, hlen, if_pos (by omega)]
    unfold bytesFor
    omega
  · have e : P.growth * ((m + 1) * (m + 2)) = P.growth * (m * (m + 1)) + 2 * ((m + 1) * P.growth) := by
      rw [Nat.mul_comm (m + 1) (m + 2), Nat.add_mul m 2, Nat.mul_add, Nat.mul_comm P.growth (2 * (m + 1)),
        Nat.mul_assoc]
    rw [e]
    omega

/-- **C163** fails for the default parameters: a bitset created by `ZyanBitsetInit` with `m` bytes, to which
one bit is added and which is then emptied bit by bit, costs at least `(m + 1) * (m + 2)`. -/
theorem C163_negation_default {w : World Byte} (hw : Fresh w) (hr : Reliable w) {m : Nat} (hm : 1 ≤ m)
    (hm' : m < 4294967296) (v : Bool) :
    ∃ t w' sts t', bsInit w (8 * m) = .ret (stSuccess, some t, w') ∧ bsGetCapacityBytes t = m ∧
      runBits t (.push v :: List.replicate (8 * m + 1) .pop) = .ret (sts, t') ∧
      btouchedRun ⟨some 0, 2, 2, 1, false⟩ (babsOf t) (.push v :: List.replicate (8 * m + 1) .pop) = m + 2 ∧
      spent t.s.w.trace + (m + 1) * (m + 2) ≤ spent t'.s.w.trace := by
  have hP : exBP.allocator = some 0 ∧ exBP.growth ≤ 255 ∧ exBP.thr ≤ 255 := ⟨rfl, by decide, by decide⟩
  have hB : BParams exBP := ⟨rfl, rfl⟩
  have hn : 8 * m % 8 = 0 ∧ 8 * m < 34359738368 := ⟨by omega, by omega⟩
  obtain ⟨t, w', b, sl, e, hs, R⟩ := binit_ok (P := exBP) (n := 8 * m) hw hr hP hB (by decide)
  have hreach : BReach exBP t := BReach.init hw hr hP hB hn e
  have R' := zero_rep hB hn hs R
  have hcap : bsGetCapacityBytes t = m := by
    have : bsGetCapacityBytes t = max 1 (bitsToBytes (8 * m)) := R'.rep.cap
    rw [this, bitsToBytes_eq hn.2]
    omega
  have hf : Fits exBP (m + 1) := by
    show (m + 1) * 255 * 1 < 18446744073709551616
    omega
  obtain ⟨sts, t', h1, -, h2, h3⟩ := C163_negation_threshold hreach rfl (by decide) (by decide) hs
    (Nat.le_of_eq hcap) hf v
  refine ⟨t, w', sts, t', e, hcap, h1, h2, ?_⟩
  have h3 : 2 * spent t.s.w.trace + 2 * ((m + 1) * (m + 2)) ≤ 2 * spent t'.s.w.trace := h3
  omega

/-- No constant bounds the cost of bitsets with the default parameters: for every `c` that could matter there is
a bitset created by `ZyanBitsetInit` and a history that costs more than `c` for every byte it adds or
removes and for every byte of the initial capacity. -/
theorem C163_negation_constant {w : World Byte} (hw : Fresh w) (hr : Reliable w) {c : Nat}
    (hc : c < 2147483647) :
    ∃ n t w' ops sts t', bsInit w n = .ret (stSuccess, some t, w') ∧ runBits t ops = .ret (sts, t') ∧
      spent t.s.w.trace + c * (btouchedRun ⟨some 0, 2, 2, 1, false⟩ (babsOf t) ops + bsGetCapacityBytes t) <
        spent t'.s.w.trace := by
  obtain ⟨t, w', sts, t', h1, h2, h3, h4, h5⟩ :=
    C163_negation_default hw hr (m := 2 * c + 1) (by omega) (by omega) true
  refine ⟨_, t, w', _, sts, t', h1, h3, ?_⟩
  rw [h4, h2]
  have e : (2 * c + 1 + 1) * (2 * c + 1 + 2) = c * (2 * c + 1 + 2 + (2 * c + 1)) + (6 * c + 6) := by
    simp only [Nat.mul_add, Nat.add_mul]
    have : 2 * c * (2 * c) = c * (2 * c) + c * (2 * c) := by
      rw [Nat.mul_assoc, Nat.two_mul]
    omega
  omega

/-- **C163** fails for the growth factor 1: adding `k` bytes bit by bit to a full bitset costs at least
`k * (k + 1) / 2`. -/
theorem C163_negation_growth {P : Params} {t : Bits} (h : BReach P t)
    (hdyn : P.allocator.isSome = true) (hg : P.growth = 1) {m k : Nat} (hm : bsGetSize t = 8 * m)
    (hc : bsGetCapacityBytes t ≤ m) (vs : List Bool) (hv : vs.length = 8 * k) (hf : Fits P (m + k)) :
    ∃ sts t', runBits t (vs.map .push) = .ret (sts, t') ∧ (babsOf t').bits = (babsOf t).bits ++ vs ∧
      2 * spent t.s.w.trace + 2 * (m * k) + k * (k + 1) ≤ 2 * spent t'.s.w.trace := by
  obtain ⟨bytes, b, sl, R⟩ := h.rep
  obtain ⟨sts, t', a', bytes', b', sl', hrun, R', h1, h2⟩ := bpushes_cost hdyn hg k vs R hv
    (by rw [← R.size]; exact hm) hc hf
  exact ⟨sts, t', hrun, by rw [R'.abs_eq]; exact h1, h2⟩

/-! ## Examples -/

/-- Growth factor 2 and shrink threshold 4. -/
def exBGoodP : Params := ⟨some 0, 2, 4, 1, false⟩

/-- Eight bits with these parameters. -/
def exBGood : Bits :=
  ⟨8, ⟨{ allocator := some 0, growth := 2, shrink := 4, size := 1, cap := 1, esz := 1, hasDtor := false,
         data := some ⟨0, [some 0#8]⟩ }, ⟨fun _ => stSuccess, 1, 1, [.alloc 0 0 1 1]⟩⟩⟩

theorem exBGood_reach : BReach exBGoodP exBGood :=
  BReach.init (P := exBGoodP) (w := exBW) (n := 8) (a := 0) (st := stSuccess) (w' := exBGood.s.w) ⟨rfl, rfl⟩
    (fun _ => failed_success) ⟨rfl, by decide, by decide⟩ ⟨rfl, rfl⟩ (by decide) (by cbv)

/-- A history that grows, shrinks and clears. -/
def exBCost : List BOp :=
  [.push true, .set 3, .push false, .pop, .pop, .reserve 40, .push true, .toggle 8, .shrinkToFit, .clear]

theorem exBCost_inDomain : BAllInDomain exBGoodP (babsOf exBGood) exBCost :=
  bDomains_sound _ (by decide +kernel)

example : (runBits exBGood exBCost).bind (fun r => .ret (spent r.2.s.w.trace)) = .ret 12 := by
  decide +kernel
example : spent exBGood.s.w.trace = 0 ∧ btouchedRun exBGoodP (babsOf exBGood) exBCost = 13 := by decide +kernel

example : ∃ sts t', runBits exBGood exBCost = .ret (sts, t') ∧
    spent t'.s.w.trace ≤ spent exBGood.s.w.trace + 2 * 2 * btouchedRun exBGoodP (babsOf exBGood) exBCost +
      2 * 2 * bsGetCapacityBytes exBGood :=
  C163_amortised_partial exBGood_reach (by decide) (Or.inr (by decide)) exBCost exBCost_inDomain

example : ∃ sts t', runBits exBits0 (.push true :: List.replicate 9 .pop) = .ret (sts, t') ∧
    2 * spent t'.s.w.trace ≥ 2 * (2 * 3) := by
  obtain ⟨sts, t', h1, _, _, h2⟩ := C163_negation_threshold exBits0_reach rfl (by decide) (by decide) (m := 1)
    rfl (by decide) (by show _ < _; decide) true
  exact ⟨sts, t', h1, h2⟩

/-- A bitset of one mebibyte that is emptied costs more than one tebibyte. -/
example : ∃ t w' sts t', bsInit exBW (8 * 1048576) = .ret (stSuccess, some t, w') ∧
    runBits t (.push true :: List.replicate (8 * 1048576 + 1) .pop) = .ret (sts, t') ∧
    spent t.s.w.trace + 1099514773506 ≤ spent t'.s.w.trace := by
  obtain ⟨t, w', sts, t', h1, _, h2, _, h3⟩ := C163_negation_default (w := exBW) ⟨rfl, rfl⟩
    (fun _ => failed_success) (m := 1048576) (by decide) (by decide) true
  exact ⟨t, w', sts, t', h1, h2, h3⟩

example : ∃ n t w' ops sts t', bsInit exBW n = .ret (stSuccess, some t, w') ∧ runBits t ops = .ret (sts, t') ∧
    spent t.s.w.trace + 1000 * (btouchedRun ⟨some 0, 2, 2, 1, false⟩ (babsOf t) ops + bsGetCapacityBytes t) <
      spent t'.s.w.trace :=
  C163_negation_constant ⟨rfl, rfl⟩ (fun _ => failed_success) (by decide)

/-- Growth factor 1. -/
def exBSlowP : Params := ⟨some 0, 1, 0, 1, false⟩

/-- Eight bits with growth factor 1. -/
def exBSlow : Bits :=
  ⟨8, ⟨{ allocator := some 0, growth := 1, shrink := 0, size := 1, cap := 1, esz := 1, hasDtor := false,
         data := some ⟨0, [some 0#8]⟩ }, ⟨fun _ => stSuccess, 1, 1, [.alloc 0 0 1 1]⟩⟩⟩

theorem exBSlow_reach : BReach exBSlowP exBSlow :=
  BReach.init (P := exBSlowP) (w := exBW) (n := 8) (a := 0) (st := stSuccess) (w' := exBSlow.s.w) ⟨rfl, rfl⟩
    (fun _ => failed_success) ⟨rfl, by decide, by decide⟩ ⟨rfl, rfl⟩ (by decide) (by cbv)

example : ∃ sts t', runBits exBSlow ((List.replicate 24 true).map .push) = .ret (sts, t') ∧
    2 * spent t'.s.w.trace ≥ 2 * (1 * 3) + 3 * 4 := by
  obtain ⟨sts, t', h1, _, h2⟩ := C163_negation_growth exBSlow_reach rfl rfl (m := 1) (k := 3) rfl (by decide)
    (List.replicate 24 true) (by decide) (by show _ < _; decide)
  refine ⟨sts, t', h1, ?_⟩
  have h3 : 2 * 0 + 2 * (1 * 3) + 3 * (3 + 1) ≤ 2 * spent t'.s.w.trace := h2
  omega

end Zy
