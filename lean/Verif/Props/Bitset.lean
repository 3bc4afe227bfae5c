import Verif.Lemmas.BitsetProps
import Verif.Lemmas.BitsetAlias

/-!
# Property theorems about bitsets (C38 - C45, C79 - C83)

The specification (`Spec/Bitset`): a bitset is a list of booleans (`bits`), behind which the last byte has up
to seven more (`stray`). `plain` says what an operation does to the list, `bstep` adds statuses, stray bits
and capacity, `answer` is the status that reports the value of one bit. `BReach` (`Spec/BitsetRun`) are the
bitsets of regular programs, `BAny` those of all programs.
-/

namespace Zy

open Spec

/-! ## Example bitsets -/

/-- The parameters of `ZyanBitsetInit`. -/
def exBP : Params := ⟨some 0, 2, 2, 1, false⟩

/-- A fresh world whose allocator always succeeds. -/
def exBW : World Byte := ⟨fun _ => stSuccess, 0, 0, []⟩

/-- Eight bits, all zero. -/
def exBits0 : Bits :=
  ⟨8, ⟨{ allocator := some 0, growth := 2, shrink := 2, size := 1, cap := 1, esz := 1, hasDtor := false,
         data := some ⟨0, [some 0#8]⟩ }, ⟨fun _ => stSuccess, 1, 1, [.alloc 0 0 1 1]⟩⟩⟩

theorem exBits0_reach : BReach exBP exBits0 :=
  BReach.init (P := exBP) (w := exBW) (n := 8) (a := 0) (st := stSuccess) (w' := exBits0.s.w) ⟨rfl, rfl⟩
    (fun _ => failed_success) ⟨rfl, by decide, by decide⟩ ⟨rfl, rfl⟩ (by decide) (by cbv)

/-- Eleven bits: 10000000 101, with five stray zero bits. -/
def exBits : Bits :=
  ⟨11, ⟨{ allocator := some 0, growth := 2, shrink := 2, size := 2, cap := 4, esz := 1, hasDtor := false,
          data := some ⟨1, [some 0x80#8, some 0xA0#8, none, none]⟩ },
        ⟨fun _ => stSuccess, 2, 2, [.alloc 0 0 1 1, .realloc 0 0 1 1 4]⟩⟩⟩

/-- Decidable form of the domain, for the examples. -/
def bDomain (P : Params) (s : BState) : BOp → Bool
  | .push _ => !decide (s.stray = []) || (decide ((bytesFor s.bits.length + 1) * 255 * P.esz < 18446744073709551616)
      && (room P s.cap (bytesFor s.bits.length + 1)).isSome)
  | .pop => !decide (s.bits = [])
  | .reserve n => decide (n < 34359738368)
  | _ => true

theorem bDomain_sound {P : Params} {s : BState} {op : BOp} (h : bDomain P s op = true) : BInDomain P s op := by
  cases op with
  | push v =>
    intro h0
    simp only [bDomain, h0, decide_true, Bool.not_true, Bool.false_or, Bool.and_eq_true, decide_eq_true_eq] at h
    exact h
  | pop =>
    have : ¬ s.bits = [] := by simpa [bDomain] using h
    exact this
  | reserve n =>
    have : n < 34359738368 := by simpa [bDomain] using h
    exact this
  | _ => trivial

/-- Decidable form of the domain of a history. -/
def bDomains (P : Params) (s : BState) : List BOp → Bool
  | [] => true
  | op :: ops => bDomain P s op && bDomains P (bstep P s op).2 ops

theorem bDomains_sound {P : Params} (ops : List BOp) : ∀ {s : BState}, bDomains P s ops = true →
    BAllInDomain P s ops := by
  induction ops with
  | nil => intro s _; trivial
  | cons op ops ih =>
    intro s h
    simp only [bDomains, Bool.and_eq_true] at h
    exact ⟨bDomain_sound h.1, ih h.2⟩

theorem exBits_reach : BReach exBP exBits :=
  BReach.run [.set 0, .push true, .push false, .push true] exBits0_reach
    (bDomains_sound _ (by decide +kernel))
    (show _ = Out.ret ([stSuccess, stSuccess, stSuccess, stSuccess], exBits) by cbv)

/-! ## C38: a sequence of booleans -/

/-- C38: every history of calls (pop only on a non-empty bitset, push only while there is room; see C45 and
C79 for what happens otherwise) is defined, returns the statuses of the specification, leaves exactly the
bits that a list of booleans would hold, and testing reads them back.
Missing: pop on the empty bitset, see `C45_negation`. -/
theorem C38_sequence_of_booleans_partial {P : Params} {t : Bits} (h : BReach P t) (ops : List BOp)
    (hd : BAllInDomain P (babsOf t) ops) :
    ∃ t', runBits t ops = .ret ((brun P (babsOf t) ops).1, t') ∧
      (babsOf t').bits = ops.foldl plain (babsOf t).bits ∧
      babsOf t' = (brun P (babsOf t) ops).2 ∧
      bsGetSize t' = (ops.foldl plain (babsOf t).bits).length ∧
      ∀ i, bsTest t' i = .ret (answer (ops.foldl plain (babsOf t).bits)[i]?) := by
  obtain ⟨bytes, b, sl, R⟩ := h.rep
  obtain ⟨t', bytes', b', sl', e, R'⟩ := runBits_ok ops R hd
  have hbits := brun_plain ops hd
  refine ⟨t', e, by rw [R'.abs_eq, hbits], R'.abs_eq, ?_, fun i => ?_⟩
  · unfold bsGetSize; rw [R'.size, hbits]
  · rw [test_ok R', hbits]

/-- A history that crosses a byte boundary in both directions. -/
def exBOps : List BOp :=
  [.pop, .toggle 3, .reset 0, .push true, .push true, .push false, .push true, .push true, .push true, .push true,
   .assign 16 false, .set 99, .pop, .flip]

example : ∃ t', runBits exBits exBOps = .ret ((brun exBP (babsOf exBits) exBOps).1, t') ∧
    (babsOf t').bits = exBOps.foldl plain (babsOf exBits).bits :=
  let ⟨t', h1, h2, _⟩ := C38_sequence_of_booleans_partial exBits_reach exBOps
    (bDomains_sound _ (by decide +kernel))
  ⟨t', h1, h2⟩
example : exBOps.foldl plain (babsOf exBits).bits = [true, true, true, false, true, true, true, true,
    false, true, false, false, true, false, false, false] := by decide +kernel
example : (brun exBP (babsOf exBits) exBOps).1 = List.replicate 11 stSuccess ++ [stOutOfRange, stSuccess, stSuccess] := by
  decide +kernel

/-! ## C39: one bit -/

/-- C39: set, reset, assign and toggle change the bit at a valid index as requested and no other bit; an
index outside is refused and nothing changes. -/
theorem C39_one_bit {P : Params} {t : Bits} (h : BReach P t) (i : Nat) (v : Bool) :
    (∀ x, bsTest t i = .ret (answer (some x)) →
      (∃ t', bsSet t i = .ret (stSuccess, t') ∧ t'.size = t.size ∧ bsTest t' i = .ret stTrue ∧
        ∀ j, j ≠ i → bsTest t' j = bsTest t j) ∧
      (∃ t', bsReset t i = .ret (stSuccess, t') ∧ t'.size = t.size ∧ bsTest t' i = .ret stFalse ∧
        ∀ j, j ≠ i → bsTest t' j = bsTest t j) ∧
      (∃ t', bsAssign t i v = .ret (stSuccess, t') ∧ t'.size = t.size ∧ bsTest t' i = .ret (answer (some v)) ∧
        ∀ j, j ≠ i → bsTest t' j = bsTest t j) ∧
      (∃ t', bsToggle t i = .ret (stSuccess, t') ∧ t'.size = t.size ∧ bsTest t' i = .ret (answer (some !x)) ∧
        ∀ j, j ≠ i → bsTest t' j = bsTest t j)) ∧
    (i < t.size → ∃ x, bsTest t i = .ret (answer (some x))) ∧
    (t.size ≤ i → bsTest t i = .ret stOutOfRange ∧ bsSet t i = .ret (stOutOfRange, t) ∧
      bsReset t i = .ret (stOutOfRange, t) ∧ bsAssign t i v = .ret (stOutOfRange, t) ∧
      bsToggle t i = .ret (stOutOfRange, t)) := by
  obtain ⟨bytes, b, sl, R⟩ := h.rep
  refine ⟨fun x hx => ?_, fun hi => ?_, fun hi => ?_⟩
  · rw [test_ok R] at hx
    have hget : (babsOf t).bits[i]? = some x := answer_inj (by simpa using hx)
    have hi : i < (babsOf t).bits.length := (List.getElem?_eq_some_iff.1 hget).1
    have key : ∀ (r : Out (Status × Bits)) (f : Bool → Bool),
        (∃ t' bytes' b', r = .ret ((change (babsOf t) i f).1, t') ∧
          BRep P t' (change (babsOf t) i f).2 bytes' b' sl) →
        ∃ t', r = .ret (stSuccess, t') ∧ t'.size = t.size ∧ bsTest t' i = .ret (answer (some (f x))) ∧
          ∀ j, j ≠ i → bsTest t' j = bsTest t j := by
      rintro r f ⟨t', bytes', b', e, R'⟩
      have hc : change (babsOf t) i f =
          (stSuccess, { babsOf t with bits := (babsOf t).bits.set i (f x) }) := by
        unfold change; rw [hget]
      rw [hc] at e R'
      refine ⟨t', e, ?_, ?_, fun j hj => ?_⟩
      · rw [R'.size, R.size]; simp
      · rw [test_ok R']; simp [hi]
      · rw [test_ok R', test_ok R]
        simp only
        rw [List.getElem?_set_ne (by omega)]
    exact ⟨key _ _ (set_bit_ok R i), key _ _ (reset_bit_ok R i), key _ _ (assign_bit_ok R i v),
      key _ _ (toggle_bit_ok R i)⟩
  · rw [R.size] at hi
    exact ⟨(babsOf t).bits[i], by rw [test_ok R, List.getElem?_eq_getElem hi]⟩
  · refine ⟨?_, ?_, ?_, ?_, ?_⟩
    · rw [test_ok R, List.getElem?_eq_none (by rw [← R.size]; exact hi)]; rfl
    · unfold bsSet bsModify; rw [if_pos hi]
    · unfold bsReset bsModify; rw [if_pos hi]
    · unfold bsAssign; split <;> (first | unfold bsSet bsModify; rw [if_pos hi] | unfold bsReset bsModify; rw [if_pos hi])
    · unfold bsToggle bsModify; rw [if_pos hi]

example : bsTest exBits 10 = .ret (answer (some true)) := by decide +kernel
example : ∃ t', bsReset exBits 10 = .ret (stSuccess, t') ∧ t'.size = exBits.size ∧ bsTest t' 10 = .ret stFalse ∧
    ∀ j, j ≠ 10 → bsTest t' j = bsTest exBits j :=
  ((C39_one_bit exBits_reach 10 true).1 true (by decide +kernel)).2.1
example : bsSet exBits 11 = .ret (stOutOfRange, exBits) :=
  ((C39_one_bit exBits_reach 11 true).2.2 (by decide)).2.1

/-! ## C40: logical operations -/

/-- C40: after AND, OR and XOR every index valid in both bitsets holds the conjunction, disjunction and
exclusive or of the former values; the bits beyond the bytes of the source, and the size, are unchanged. The
source is a value that no call changes. -/
theorem C40_and_or_xor {P P' : Params} {t u : Bits} (h : BReach P t) (hu : BReach P' u) :
    (∃ t', bsAnd t u = .ret (stSuccess, t') ∧ t'.size = t.size ∧
      (babsOf t').bits.length = (babsOf t).bits.length ∧
      (∀ (i : Nat) (x y : Bool), (babsOf t).bits[i]? = some x → (babsOf u).bits[i]? = some y →
        (babsOf t').bits[i]? = some (x && y)) ∧
      (∀ i : Nat, 8 * bytesFor u.size ≤ i → (babsOf t').bits[i]? = (babsOf t).bits[i]?)) ∧
    (∃ t', bsOr t u = .ret (stSuccess, t') ∧ t'.size = t.size ∧
      (babsOf t').bits.length = (babsOf t).bits.length ∧
      (∀ (i : Nat) (x y : Bool), (babsOf t).bits[i]? = some x → (babsOf u).bits[i]? = some y →
        (babsOf t').bits[i]? = some (x || y)) ∧
      (∀ i : Nat, 8 * bytesFor u.size ≤ i → (babsOf t').bits[i]? = (babsOf t).bits[i]?)) ∧
    (∃ t', bsXor t u = .ret (stSuccess, t') ∧ t'.size = t.size ∧
      (babsOf t').bits.length = (babsOf t).bits.length ∧
      (∀ (i : Nat) (x y : Bool), (babsOf t).bits[i]? = some x → (babsOf u).bits[i]? = some y →
        (babsOf t').bits[i]? = some (xor x y)) ∧
      (∀ i : Nat, 8 * bytesFor u.size ≤ i → (babsOf t').bits[i]? = (babsOf t).bits[i]?)) :=
  ⟨logic_bits h hu byteBits_and, logic_bits h hu byteBits_or, logic_bits h hu byteBits_xor⟩

/-- C40: flip complements every bit, and flipping twice restores the bitset. -/
theorem C40_flip {P : Params} {t : Bits} (h : BReach P t) :
    ∃ t' t'', bsFlip t = .ret (stSuccess, t') ∧ bsFlip t' = .ret (stSuccess, t'') ∧
      (babsOf t').bits = (babsOf t).bits.map (fun x => !x) ∧ t'.size = t.size ∧ babsOf t'' = babsOf t := by
  obtain ⟨bytes, b, sl, R⟩ := h.rep
  obtain ⟨t1, bytes1, b1, sl1, e1, R1⟩ := bop_ok R .flip trivial
  obtain ⟨t2, bytes2, b2, sl2, e2, R2⟩ := bop_ok R1 .flip trivial
  refine ⟨t1, t2, e1, e2, by rw [R1.abs_eq]; rfl, by rw [R1.size, R.size]; simp [bstep, changeAll], ?_⟩
  rw [R2.abs_eq]
  simp [bstep, changeAll, Function.comp_def]

example : ∃ t', bsXor exBits exBits0 = .ret (stSuccess, t') ∧ t'.size = exBits.size :=
  let ⟨t', h1, h2, _⟩ := (C40_and_or_xor exBits_reach exBits0_reach).2.2
  ⟨t', h1, h2⟩
example : (bsAnd exBits exBits0).bind (fun r => .ret (babsOf r.2).bits) =
    .ret (List.replicate 8 false ++ [true, false, true]) := by decide +kernel
example : (bsFlip exBits).bind (fun r => .ret (babsOf r.2).bits) =
    .ret (false :: List.replicate 7 true ++ [false, true, false]) := by decide +kernel
example : ∃ t' t'', bsFlip exBits = .ret (stSuccess, t') ∧ bsFlip t' = .ret (stSuccess, t'') ∧
    babsOf t'' = babsOf exBits :=
  let ⟨t', t'', h1, h2, _, _, h3⟩ := C40_flip exBits_reach
  ⟨t', t'', h1, h2, h3⟩

/-- C40: a bitset may be both arguments. Any byte operation does what it does with a separate copy of the
bitset; AND and OR change nothing, XOR resets all bits. -/
theorem C40_self {P : Params} {t : Bits} (h : BReach P t) :
    (∀ op, bsPerformSelf op t = bsPerform op t t) ∧
    (∃ t', bsAndSelf t = .ret (stSuccess, t') ∧ t'.size = t.size ∧ (babsOf t').bits = (babsOf t).bits) ∧
    (∃ t', bsOrSelf t = .ret (stSuccess, t') ∧ t'.size = t.size ∧ (babsOf t').bits = (babsOf t).bits) ∧
    (∃ t', bsXorSelf t = .ret (stSuccess, t') ∧ t'.size = t.size ∧
      (babsOf t').bits = (babsOf t).bits.map fun _ => false) := by
  obtain ⟨bytes, b, sl, R⟩ := h.rep
  have hself := fun op => performSelf_eq R op
  obtain ⟨⟨t1, e1, s1, l1, f1, _⟩, ⟨t2, e2, s2, l2, f2, _⟩, ⟨t3, e3, s3, l3, f3, _⟩⟩ := C40_and_or_xor h h
  have ext : ∀ {x y : List Bool}, x.length = y.length → (∀ (i : Nat) z, y[i]? = some z → x[i]? = some z) → x = y := by
    intro x y hl hi
    apply List.ext_getElem?
    intro i
    rcases Nat.lt_or_ge i y.length with h | h
    · rw [hi i _ (List.getElem?_eq_getElem h), List.getElem?_eq_getElem h]
    · rw [List.getElem?_eq_none h, List.getElem?_eq_none (by omega)]
  refine ⟨hself, ⟨t1, by rw [← e1]; exact hself _, s1, ext l1 fun i z hz => ?_⟩,
    ⟨t2, by rw [← e2]; exact hself _, s2, ext l2 fun i z hz => ?_⟩,
    ⟨t3, by rw [← e3]; exact hself _, s3, ext (by simp [l3]) fun i z hz => ?_⟩⟩
  · rw [f1 i z z hz hz, Bool.and_self]
  · rw [f2 i z z hz hz, Bool.or_self]
  · rw [List.getElem?_map, Option.map_eq_some_iff] at hz
    obtain ⟨y, hy, rfl⟩ := hz
    rw [f3 i y y hy hy, Bool.xor_self]

example : (bsXorSelf exBits).bind (fun r => .ret (babsOf r.2).bits) = .ret (List.replicate 11 false) ∧
    (bsAndSelf exBits).bind (fun r => .ret (babsOf r.2).bits) = .ret (babsOf exBits).bits := by decide +kernel

/-! ## C41: all bits -/

/-- C41: after set-all every valid index tests true, after reset-all false; the size does not change. -/
theorem C41_set_reset_all {P : Params} {t : Bits} (h : BReach P t) :
    (∃ t', bsSetAll t = .ret (stSuccess, t') ∧ t'.size = t.size ∧ ∀ i, i < t.size → bsTest t' i = .ret stTrue) ∧
    (∃ t', bsResetAll t = .ret (stSuccess, t') ∧ t'.size = t.size ∧
      ∀ i, i < t.size → bsTest t' i = .ret stFalse) := by
  obtain ⟨bytes, b, sl, R⟩ := h.rep
  have hs := R.size
  constructor
  · obtain ⟨t1, bytes1, b1, sl1, e1, R1⟩ := bop_ok R .setAll trivial
    refine ⟨t1, e1, by rw [R1.size, R.size]; simp [bstep, changeAll], fun i hi => ?_⟩
    rw [test_ok R1]
    simp [bstep, changeAll, answer, List.getElem?_eq_getElem (show i < (babsOf t).bits.length by omega)]
  · obtain ⟨t1, bytes1, b1, sl1, e1, R1⟩ := bop_ok R .resetAll trivial
    refine ⟨t1, e1, by rw [R1.size, R.size]; simp [bstep, changeAll], fun i hi => ?_⟩
    rw [test_ok R1]
    simp [bstep, changeAll, answer, List.getElem?_eq_getElem (show i < (babsOf t).bits.length by omega)]

example : ∃ t', bsSetAll exBits = .ret (stSuccess, t') ∧ t'.size = 11 ∧ ∀ i, i < 11 → bsTest t' i = .ret stTrue :=
  (C41_set_reset_all exBits_reach).1

/-! ## C42: counting -/

/-- C42: the count is the number of set bits among the valid *and* the stray ones, cut off at the size; it is
the number of set valid bits when no stray bit is set, in particular when the size is a multiple of eight.
Missing: bitsets with a set stray bit, see `C42_negation`. -/
theorem C42_count_partial {P : Params} {t : Bits} (h : BReach P t) :
    bsCount t = .ret (stSuccess, min (((babsOf t).bits ++ (babsOf t).stray).count true) t.size) ∧
    ((∀ x ∈ (babsOf t).stray, x = false) → bsCount t = .ret (stSuccess, (babsOf t).bits.count true)) ∧
    (t.size % 8 = 0 → bsCount t = .ret (stSuccess, (babsOf t).bits.count true)) := by
  obtain ⟨bytes, b, sl, R⟩ := h.rep
  have key : (∀ x ∈ (babsOf t).stray, x = false) →
      bsCount t = .ret (stSuccess, (babsOf t).bits.count true) := by
    intro hc
    rw [count_ok R, List.count_append, count_clean hc, Nat.add_zero, Nat.min_eq_left List.count_le_length]
  refine ⟨by rw [count_ok R, R.size], key, fun h8 => key ?_⟩
  have hlen := R.len
  have hs := R.short
  rw [R.size] at h8
  have h0 : (babsOf t).stray = [] := List.length_eq_zero_iff.1 (by omega)
  rw [h0]
  simp

/-- C42: in a history without pop, set-all, flip and logical operations, the count is always exact. -/
theorem C42_count_histories {P : Params} {t : Bits} (h : BReach P t)
    (hc : ∀ x ∈ (babsOf t).stray, x = false) (ops : List BOp) (hd : BAllInDomain P (babsOf t) ops)
    (ht : ∀ op ∈ ops, Tidy op) :
    ∃ sts t', runBits t ops = .ret (sts, t') ∧
      bsCount t' = .ret (stSuccess, (ops.foldl plain (babsOf t).bits).count true) := by
  obtain ⟨bytes, b, sl, R⟩ := h.rep
  obtain ⟨t', bytes', b', sl', e, R'⟩ := runBits_ok ops R hd
  have hclean := brun_tidy (P := P) ops ht hc
  refine ⟨_, t', e, ?_⟩
  rw [count_ok R', List.count_append, count_clean hclean, Nat.add_zero,
    Nat.min_eq_left List.count_le_length, brun_plain ops hd]

example : bsCount exBits = .ret (stSuccess, 3) := by decide +kernel
example : ∃ sts t', runBits exBits [.push true, .toggle 1, .assign 0 false] = .ret (sts, t') ∧
    bsCount t' = .ret (stSuccess, 4) :=
  C42_count_histories exBits_reach (by decide +kernel) _ (bDomains_sound _ (by decide +kernel)) (by simp [Tidy])

/-- C42 is false in general: after popping a set bit, the count still includes it. -/
theorem C42_negation : ¬ ∀ (P : Params) (t : Bits), BReach P t →
    bsCount t = .ret (stSuccess, (babsOf t).bits.count true) := by
  intro hall
  obtain ⟨bytes, b, sl, R⟩ := exBits_reach.rep
  obtain ⟨t', bytes', b', sl', e, R'⟩ := bop_ok R .pop (bDomain_sound (by decide +kernel))
  have h' := hall _ _ (BReach.step exBits_reach (bDomain_sound (by decide +kernel)) e)
  rw [count_ok R', R'.abs_eq] at h'
  revert h'
  decide +kernel

/-- C42, exactly when it fails: the count is the number of set valid bits if and only if no stray bit is set
or all valid bits are set. -/
theorem C42_exact_iff {P : Params} {t : Bits} (h : BReach P t) :
    bsCount t = .ret (stSuccess, (babsOf t).bits.count true) ↔
      true ∉ (babsOf t).stray ∨ false ∉ (babsOf t).bits := by
  obtain ⟨bytes, b, sl, R⟩ := h.rep
  rw [count_ok R, List.count_append]
  have hle : (babsOf t).bits.count true ≤ (babsOf t).bits.length := List.count_le_length
  have hall : (babsOf t).bits.count true = (babsOf t).bits.length ↔ false ∉ (babsOf t).bits := by
    rw [List.count_eq_length]
    constructor
    · intro h hf
      exact absurd (h _ hf) (by decide)
    · intro h x hx
      cases x with
      | true => rfl
      | false => exact absurd hx h
  have hno : (babsOf t).stray.count true = 0 ↔ true ∉ (babsOf t).stray := List.count_eq_zero
  constructor
  · intro heq
    simp only [Out.ret.injEq, Prod.mk.injEq, true_and] at heq
    rw [← hall, ← hno]
    omega
  · intro hor
    rw [← hall, ← hno] at hor
    simp only [Out.ret.injEq, Prod.mk.injEq, true_and]
    omega

example : ∃ t', bsPop exBits = .ret (stSuccess, t') ∧
    bsCount t' ≠ .ret (stSuccess, (babsOf t').bits.count true) := by
  obtain ⟨bytes, b, sl, R⟩ := exBits_reach.rep
  obtain ⟨t', bytes', b', sl', e, R'⟩ := bop_ok R .pop (bDomain_sound (by decide +kernel))
  have hr := BReach.step exBits_reach (bDomain_sound (by decide +kernel)) e
  refine ⟨t', e, fun h => ?_⟩
  have := (C42_exact_iff hr).1 h
  rw [R'.abs_eq] at this
  exact absurd this (by decide +kernel)

/-! ## C43: all, any, none -/

/-- C43: the queries answer for exactly the valid bits if the size is 7 modulo 8, or if the bitset is empty.
Missing: all other sizes, see the theorems below. -/
theorem C43_exact_partial {P : Params} {t : Bits} (h : BReach P t) (hs : t.size % 8 = 7 ∨ t.size = 0) :
    bsAll t = .ret (if false ∈ (babsOf t).bits then stFalse else stTrue) ∧
    bsAny t = .ret (if true ∈ (babsOf t).bits then stTrue else stFalse) ∧
    bsNone t = .ret (if true ∈ (babsOf t).bits then stFalse else stTrue) := by
  obtain ⟨bytes, b, sl, R⟩ := h.rep
  have hlen := R.len
  have hsh := R.short
  have key : ∀ v : Bool, (∃ i, Seen bytes.length t.size i ∧ ((babsOf t).bits ++ (babsOf t).stray)[i]? = some v) ↔
      v ∈ (babsOf t).bits := by
    intro v
    apply seen_iff_mem
    · intro i hi
      rcases hs with hs | hs
      · exact seen_valid R (by rw [R.size] at hs; omega) hi
      · rw [R.size] at hs; omega
    · intro i hi hsn he
      have hi' := (List.getElem?_eq_some_iff.1 he).1
      simp only [List.length_append] at hi'
      rcases hs with hs | hs
      · have := seen_seven R (by rw [← R.size]; exact hs) (i := i) (by omega) hsn
        omega
      · rw [R.size] at hs; omega
  refine ⟨?_, ?_, ?_⟩
  · exact all_seen R (key false)
  · exact any_seen R (key true)
  · exact none_seen R (key true)

/-- C43: if the size is not a multiple of eight and no stray bit is set, any and none are exact; if every
stray bit is set, all is exact. -/
theorem C43_clean_partial {P : Params} {t : Bits} (h : BReach P t) (hs : t.size % 8 ≠ 0) :
    ((∀ x ∈ (babsOf t).stray, x = false) →
      bsAny t = .ret (if true ∈ (babsOf t).bits then stTrue else stFalse) ∧
      bsNone t = .ret (if true ∈ (babsOf t).bits then stFalse else stTrue)) ∧
    ((∀ x ∈ (babsOf t).stray, x = true) →
      bsAll t = .ret (if false ∈ (babsOf t).bits then stFalse else stTrue)) := by
  obtain ⟨bytes, b, sl, R⟩ := h.rep
  rw [R.size] at hs
  have key : ∀ v : Bool, (∀ x ∈ (babsOf t).stray, x = !v) →
      ((∃ i, Seen bytes.length t.size i ∧ ((babsOf t).bits ++ (babsOf t).stray)[i]? = some v) ↔
        v ∈ (babsOf t).bits) := by
    intro v hc
    apply seen_iff_mem
    · intro i hi; exact seen_valid R hs hi
    · intro i hi _ he
      rw [List.getElem?_append_right hi] at he
      have := hc v (List.mem_of_getElem? he)
      cases v <;> simp at this
  refine ⟨fun hc => ⟨?_, ?_⟩, fun hc => ?_⟩
  · exact any_seen R (key true hc)
  · exact none_seen R (key true hc)
  · exact all_seen R (key false hc)

/-- C43 is false for every non-empty bitset whose size is a multiple of eight: the fourth bit from the end is
ignored, so the answers are those for the bits without it. -/
theorem C43_multiple_of_eight {P : Params} {t : Bits} (h : BReach P t) (hs : t.size % 8 = 0) :
    bsAll t = .ret (if false ∈ (babsOf t).bits.eraseIdx (t.size - 4) then stFalse else stTrue) ∧
    bsAny t = .ret (if true ∈ (babsOf t).bits.eraseIdx (t.size - 4) then stTrue else stFalse) ∧
    bsNone t = .ret (if true ∈ (babsOf t).bits.eraseIdx (t.size - 4) then stFalse else stTrue) := by
  obtain ⟨bytes, b, sl, R⟩ := h.rep
  have hlen := R.len
  have hsh := R.short
  have hsz := R.size
  rw [R.size] at hs
  have h0 : (babsOf t).stray = [] := List.length_eq_zero_iff.1 (by omega)
  have key : ∀ v : Bool, (∃ i, Seen bytes.length t.size i ∧ ((babsOf t).bits ++ (babsOf t).stray)[i]? = some v) ↔
      v ∈ (babsOf t).bits.eraseIdx (t.size - 4) := by
    intro v
    rw [h0, List.append_nil, List.mem_eraseIdx_iff_getElem?]
    constructor
    · rintro ⟨i, hsn, he⟩
      have hi := (List.getElem?_eq_some_iff.1 he).1
      exact ⟨i, by rw [hsz]; exact (seen_eight R hs hi).1 hsn, he⟩
    · rintro ⟨i, hne, he⟩
      have hi := (List.getElem?_eq_some_iff.1 he).1
      exact ⟨i, (seen_eight R hs hi).2 (by rw [← hsz]; exact hne), he⟩
  refine ⟨?_, ?_, ?_⟩
  · exact all_seen R (key false)
  · exact any_seen R (key true)
  · exact none_seen R (key true)

/-- C43 is false for every bitset without set stray bits whose size is 1 to 6 modulo 8 (any bitset built by
push alone, for instance): all answers FALSE, whatever the bits are. -/
theorem C43_all_always_false {P : Params} {t : Bits} (h : BReach P t) (hs : t.size % 8 ≠ 0 ∧ t.size % 8 ≠ 7)
    (hc : ∀ x ∈ (babsOf t).stray, x = false) : bsAll t = .ret stFalse := by
  obtain ⟨bytes, b, sl, R⟩ := h.rep
  have hlen := R.len
  rw [R.size] at hs
  obtain ⟨i, h1, h2, h3⟩ := seen_stray R hs.1 hs.2
  refine all_seen R (q := True) ⟨fun _ => trivial, fun _ => ⟨i, h3, ?_⟩⟩
  have hi : i - (babsOf t).bits.length < (babsOf t).stray.length := by omega
  rw [List.getElem?_append_right h1, List.getElem?_eq_getElem hi]
  congr 1
  exact hc _ (List.getElem_mem _)

/-- C43, the negation for each of the three queries: all answers FALSE for the bits 1; any answers FALSE and
none answers TRUE for the bits 00001000. -/
theorem C43_negation :
    (∃ P t, BReach P t ∧ (babsOf t).bits = [true] ∧ bsAll t = .ret stFalse) ∧
    (∃ P t, BReach P t ∧ (babsOf t).bits = [false, false, false, false, true, false, false, false] ∧
      bsAny t = .ret stFalse ∧ bsNone t = .ret stTrue) := by
  constructor
  · obtain ⟨t', e, hb, ha, hsz, _⟩ := C38_sequence_of_booleans_partial exBits0_reach [.clear, .push true]
      (bDomains_sound _ (by decide +kernel))
    have h' := BReach.run _ exBits0_reach (bDomains_sound _ (by decide +kernel)) e
    refine ⟨exBP, t', h', hb, C43_all_always_false h' ?_ ?_⟩
    · rw [show t'.size = 1 from hsz]; decide
    · rw [ha]; decide +kernel
  · obtain ⟨t', e, hb, ha, hsz, _⟩ := C38_sequence_of_booleans_partial exBits0_reach [.set 4]
      (bDomains_sound _ (by decide +kernel))
    have h' := BReach.run _ exBits0_reach (bDomains_sound _ (by decide +kernel)) e
    have hs8 : t'.size = 8 := hsz
    obtain ⟨_, h2, h3⟩ := C43_multiple_of_eight h' (by rw [hs8])
    have hb' : (babsOf t').bits = [false, false, false, false, true, false, false, false] := hb
    rw [hb', hs8] at h2 h3
    exact ⟨exBP, t', h', hb', h2, h3⟩

/-- Seven bits for `C43_exact_partial`: pop one of the eight. -/
example : ∃ t, BReach exBP t ∧ t.size % 8 = 7 ∧ bsAll t = .ret stFalse ∧ bsNone t = .ret stTrue := by
  obtain ⟨t', e, hb, ha, hsz, _⟩ := C38_sequence_of_booleans_partial exBits0_reach [.pop]
    (bDomains_sound _ (by decide +kernel))
  have h' := BReach.run _ exBits0_reach (bDomains_sound _ (by decide +kernel)) e
  have h7 : t'.size = 7 := hsz
  obtain ⟨h1, _, h3⟩ := C43_exact_partial h' (Or.inl (by rw [h7]))
  have hb' : (babsOf t').bits = List.replicate 7 false := hb
  rw [hb'] at h1 h3
  exact ⟨t', h', by rw [h7], h1, h3⟩
example : bsAny exBits = .ret stTrue :=
  ((C43_clean_partial exBits_reach (by decide)).1 (by decide +kernel)).1.trans (by decide +kernel)
example : bsAll exBits = .ret stFalse := C43_all_always_false exBits_reach (by decide) (by decide +kernel)

/-! ## C44: initialisation -/

/-- C44: a bitset initialised with a multiple of eight bits (fewer than `2^35`) has that many zero bits that
can be tested and set. The same holds on a caller buffer that is large enough.
Missing: all other numbers of bits, see `C44_negation`. -/
theorem C44_init_partial {w : World Byte} {P : Params} {n al : Nat} (hw : Fresh w) (hr : Reliable w)
    (hP : P.allocator = some al ∧ P.growth ≤ 255 ∧ P.thr ≤ 255) (hB : BParams P) (hg : 1 ≤ P.growth)
    (hn : n % 8 = 0 ∧ n < 34359738368) :
    ∃ t w', bsInitEx w n (some al) P.growth P.thr = .ret (stSuccess, some t, w') ∧ bsGetSize t = n ∧
      ∀ i, i < n → bsTest t i = .ret stFalse ∧ ∃ t', bsSet t i = .ret (stSuccess, t') ∧
        bsTest t' i = .ret stTrue := by
  obtain ⟨t, w', b, sl, e, hs, R⟩ := binit_ok (n := n) hw hr hP hB hg
  have hreach : BReach P t := BReach.init hw hr hP hB hn e
  have R' := zero_rep hB hn hs R
  refine ⟨t, w', e, hs, fun i hi => ?_⟩
  have ht : bsTest t i = .ret stFalse := by rw [test_ok R']; simp [hi, answer]
  obtain ⟨t', e', _, h', _⟩ := ((C39_one_bit hreach i true).1 false ht).1
  exact ⟨ht, t', e', h'⟩

/-- C44 on a caller buffer. -/
theorem C44_init_buffer_partial {w : World Byte} {P : Params} {n cap : Nat} {b : Block Byte} (hw : Fresh w)
    (hr : Reliable w) (hP : P.allocator = none ∧ P.growth = 1 ∧ P.thr = 0) (hB : BParams P)
    (hb : cap ≤ b.cells.length) (h0 : cap ≠ 0) (hn : n % 8 = 0 ∧ n < 34359738368) :
    (n ≤ 8 * cap → ∃ t, bsInitBuffer w n (some b) cap = .ret (stSuccess, some t) ∧ bsGetSize t = n ∧
      ∀ i, i < n → bsTest t i = .ret stFalse ∧ ∃ t', bsSet t i = .ret (stSuccess, t') ∧
        bsTest t' i = .ret stTrue) ∧
    (8 * cap < n → bsInitBuffer w n (some b) cap = .ret (stInsufficient, none)) := by
  have hbytes := bitsToBytes_eq hn.2
  constructor
  · intro hc
    obtain ⟨t, b', sl, e, hs, R⟩ := binitBuffer_ok (n := n) hw hr hP hB hb h0 (by rw [hbytes]; omega)
    have hreach : BReach P t := BReach.initBuffer hw hr hP hB hn hb e
    have R' := zero_rep hB hn hs R
    refine ⟨t, e, hs, fun i hi => ?_⟩
    have ht : bsTest t i = .ret stFalse := by rw [test_ok R']; simp [hi, answer]
    obtain ⟨t', e', _, h', _⟩ := ((C39_one_bit hreach i true).1 false ht).1
    exact ⟨ht, t', e', h'⟩
  · intro hc
    unfold bsInitBuffer
    simp only
    rw [if_pos (by rw [hbytes]; omega)]

/-- C44 is false for every number of bits that is not a multiple of eight, and for every number from `2^35`
on: initialisation succeeds and reports the size, but the last bit can neither be tested nor set. -/
theorem C44_negation {w : World Byte} {P : Params} {n al : Nat} (hw : Fresh w) (hr : Reliable w)
    (hP : P.allocator = some al ∧ P.growth ≤ 255 ∧ P.thr ≤ 255) (hB : BParams P) (hg : 1 ≤ P.growth)
    (hn : n % 8 ≠ 0 ∨ 34359738368 ≤ n) :
    ∃ t w', bsInitEx w n (some al) P.growth P.thr = .ret (stSuccess, some t, w') ∧ bsGetSize t = n ∧
      bsTest t (n - 1) = .ret stOutOfRange ∧ bsSet t (n - 1) = .ret (stOutOfRange, t) := by
  obtain ⟨t, w', b, sl, e, hs, R⟩ := binit_ok (n := n) hw hr hP hB hg
  have hlt := bitsToBytes_lt n
  have hout : bitsToBytes n ≤ (n - 1) / 8 := by
    rcases Nat.lt_or_ge n 34359738368 with h | h
    · rw [bitsToBytes_eq h]; omega
    · omega
  refine ⟨t, w', e, hs, ?_, ?_⟩
  · unfold bsTest
    rw [if_neg (by rw [hs]; omega), withPointer_out R (by simpa using hout)]
    rfl
  · unfold bsSet bsModify
    rw [if_neg (by rw [hs]; omega), withPointer_out R (by simpa using hout)]

example : ∃ t w', bsInit exBW 16 = .ret (stSuccess, some t, w') ∧ bsTest t 15 = .ret stFalse :=
  let ⟨t, w', h1, _, h3⟩ := C44_init_partial (P := exBP) (w := exBW) (al := 0) (n := 16) ⟨rfl, rfl⟩
    (fun _ => failed_success) ⟨rfl, by decide, by decide⟩ ⟨rfl, rfl⟩ (by decide) (by decide)
  ⟨t, w', h1, (h3 15 (by decide)).1⟩
example : ∃ t, bsInitBuffer exBW 16 (some ⟨7, List.replicate 2 none⟩) 2 = .ret (stSuccess, some t) ∧
    bsTest t 15 = .ret stFalse :=
  let ⟨t, h1, _, h3⟩ := (C44_init_buffer_partial (w := exBW) (P := ⟨none, 1, 0, 1, false⟩) (n := 16) (cap := 2)
    (b := ⟨7, List.replicate 2 none⟩) ⟨rfl, rfl⟩ (fun _ => failed_success) ⟨rfl, rfl, rfl⟩ ⟨rfl, rfl⟩ (by decide)
    (by decide) (by decide)).1 (by decide)
  ⟨t, h1, (h3 15 (by decide)).1⟩
example : ∃ t w', bsInit exBW 5 = .ret (stSuccess, some t, w') ∧ bsGetSize t = 5 ∧
    bsTest t 4 = .ret stOutOfRange ∧ bsSet t 4 = .ret (stOutOfRange, t) :=
  C44_negation (P := exBP) (w := exBW) (al := 0) ⟨rfl, rfl⟩ (fun _ => failed_success)
    ⟨rfl, by decide, by decide⟩ ⟨rfl, rfl⟩ (by decide) (by decide)

/-! ## C45: pop -/

/-- C45: pop on a non-empty bitset removes the last bit.
Missing: pop on the empty bitset, see `C45_negation`. -/
theorem C45_pop_partial {P : Params} {t : Bits} (h : BReach P t) (hne : t.size ≠ 0) :
    ∃ t', bsPop t = .ret (stSuccess, t') ∧ (babsOf t').bits = (babsOf t).bits.dropLast ∧
      bsGetSize t' = t.size - 1 := by
  obtain ⟨bytes, b, sl, R⟩ := h.rep
  have hb : (babsOf t).bits ≠ [] := by
    intro h0
    rw [R.size, h0] at hne
    exact hne rfl
  obtain ⟨t', bytes', b', sl', e, R'⟩ := bop_ok R .pop hb
  have hst : (bstep P (babsOf t) .pop).1 = stSuccess := by
    simp only [bstep, List.getLast?_eq_some_getLast hb]
    split <;> rfl
  have hbits := bstep_plain (P := P) (op := .pop) hb
  refine ⟨t', by rw [← hst]; exact e, by rw [R'.abs_eq, hbits]; rfl, ?_⟩
  unfold bsGetSize
  rw [R'.size, hbits, R.size]
  simp [plain]

/-- C45 is false for every empty bitset, however it was emptied: pop succeeds and leaves a size of
`2^64 - 1`. -/
theorem C45_negation {t : Bits} (h0 : t.size = 0) :
    ∃ t', bsPop t = .ret (stSuccess, t') ∧ bsGetSize t' = 18446744073709551615 := by
  have hsub : sub64 0 1 = 18446744073709551615 := by decide
  unfold bsPop
  simp only [h0, hsub]
  rw [if_neg (by omega)]
  exact ⟨⟨18446744073709551615, t.s⟩, rfl, rfl⟩

example : ∃ t', bsPop exBits = .ret (stSuccess, t') ∧ (babsOf t').bits = (babsOf exBits).bits.dropLast ∧
    bsGetSize t' = 10 := C45_pop_partial exBits_reach (by decide)
/-- An empty bitset that was emptied by the clear function. -/
example : ∃ t, BReach exBP t ∧ t.size = 0 := by
  obtain ⟨t', e, _, _, hsz, _⟩ := C38_sequence_of_booleans_partial exBits_reach [.clear] ⟨trivial, trivial⟩
  exact ⟨t', BReach.run [.clear] exBits_reach ⟨trivial, trivial⟩ e, hsz⟩

/-! ## C79: push into a full buffer -/

/-- C79: a push that finds room appends the bit and keeps the others.
Missing: a push that is refused, see `C79_negation`. -/
theorem C79_push_partial {P : Params} {t : Bits} (h : BReach P t) (v : Bool)
    (hd : t.size % 8 ≠ 0 ∨ (Fits P (t.size / 8 + 1) ∧ (P.allocator.isSome ∨ t.size / 8 < t.s.v.cap))) :
    ∃ t', bsPush t v = .ret (stSuccess, t') ∧ (babsOf t').bits = (babsOf t).bits ++ [v] ∧
      bsGetSize t' = t.size + 1 := by
  obtain ⟨bytes, b, sl, R⟩ := h.rep
  have hlen := R.len
  have hsh := R.short
  have hsz := R.size
  have hcap : (babsOf t).cap = t.s.v.cap := rfl
  have hin : BInDomain P (babsOf t) (.push v) := by
    intro h0
    rw [h0] at hlen
    simp only [List.length_nil, Nat.add_zero] at hlen
    rcases hd with hd | ⟨hf, hroom⟩
    · rw [hsz] at hd; omega
    · have hb : bytesFor (babsOf t).bits.length = t.size / 8 := by unfold bytesFor; omega
      rw [hb]
      refine ⟨hf, ?_⟩
      unfold room
      rcases hroom with hr | hr
      · split
        · rfl
        · rfl
      · rw [if_pos (by rw [hcap]; omega)]; rfl
  obtain ⟨t', bytes', b', sl', e, R'⟩ := bop_ok R (.push v) hin
  have hst : (bstep P (babsOf t) (.push v)).1 = stSuccess := by
    simp only [bstep]
    cases hs : (babsOf t).stray with
    | nil =>
      obtain ⟨c, hc⟩ := Option.isSome_iff_exists.1 (hin hs).2
      simp only [hc]
    | cons x rest => rfl
  have hbits := bstep_plain (P := P) hin
  refine ⟨t', by rw [← hst]; exact e, by rw [R'.abs_eq, hbits]; rfl, ?_⟩
  unfold bsGetSize
  rw [R'.size, hbits, R.size]
  simp [plain]

/-- C79 is false for every full bitset on a caller buffer: the refused push has already increased the size,
and the bit at the new last index can not be tested. -/
theorem C79_negation {P : Params} {t : Bits} (h : BReach P t) (v : Bool) (hfix : P.allocator = none)
    (hf : Fits P (t.s.v.cap + 1)) (hfull : t.size = 8 * t.s.v.cap) :
    ∃ t', bsPush t v = .ret (stInsufficient, t') ∧ bsGetSize t' = t.size + 1 ∧
      bsTest t' t.size = .ret stOutOfRange := by
  obtain ⟨bytes, b, sl, R⟩ := h.rep
  have hlen := R.len
  have hsh := R.short
  have hsz := R.size
  have hsm := R.small
  have hcap : (babsOf t).cap = t.s.v.cap := rfl
  have hbl : bytes.length = t.s.v.cap := by omega
  have hfits : Fits P (bytes.length + 1) := by rw [hbl]; exact hf
  obtain ⟨junk, st, s', a', b', sl', _, hst, e, R'⟩ := push_ok R.rep (some 0#8)
    (show Fits P _ by simpa using hfits)
  have hroom : room P (babsOf t).cap (bytes.length + 1) = none := by
    unfold room
    rw [if_neg (by omega), hfix]
    rfl
  simp only [step, List.length_map, hroom, Prod.mk.injEq] at hst
  obtain ⟨rfl, rfl⟩ := hst
  simp only [vecOp] at e
  have hadd : add64 t.size 1 = t.size + 1 := add64_eq (by omega)
  refine ⟨⟨t.size + 1, s'⟩, ?_, rfl, ?_⟩
  · unfold bsPush
    simp only [hadd]
    rw [if_pos (by omega), e, Out.ret_bind']
    simp only
    rw [if_pos (show failed stInsufficient = true by decide)]
  · unfold bsTest
    rw [if_neg (show ¬ t.size ≥ t.size + 1 by omega), withPointer_out R' (by omega)]
    rfl

/-- The parameters of a bitset on a caller buffer. -/
def exFBP : Params := ⟨none, 1, 0, 1, false⟩

/-- Eight zero bits in a caller buffer of one byte. -/
def exFBits : Bits :=
  ⟨8, ⟨{ allocator := none, growth := 1, shrink := 0, size := 1, cap := 1, esz := 1, hasDtor := false,
         data := some ⟨7, [some 0#8]⟩ }, exBW⟩⟩

theorem exFBits_reach : BReach exFBP exFBits :=
  BReach.initBuffer (P := exFBP) (w := exBW) (n := 8) (cap := 1) (b := ⟨7, [none]⟩) (st := stSuccess)
    ⟨rfl, rfl⟩ (fun _ => failed_success) ⟨rfl, rfl, rfl⟩ ⟨rfl, rfl⟩ (by decide) (by decide) (by cbv)

example : ∃ t', bsPush exFBits true = .ret (stInsufficient, t') ∧ bsGetSize t' = 9 ∧
    bsTest t' 8 = .ret stOutOfRange :=
  C79_negation exFBits_reach true rfl (by show _ < _; decide) rfl
example : ∃ t', bsPush exBits0 true = .ret (stSuccess, t') ∧ (babsOf t').bits = (babsOf exBits0).bits ++ [true] ∧
    bsGetSize t' = 9 := C79_push_partial exBits0_reach true (Or.inr ⟨by show _ < _; decide, Or.inl rfl⟩)

/-! ## C80: memory safety -/

/-- C80: whatever was done to a bitset before (any size at initialisation, pops on empty bitsets, refused
pushes, failing byte operations), every call is free of undefined behaviour: all memory accesses are inside
of the storage and no uninitialised byte is read. -/
theorem C80_memory_safe {P P' : Params} {t u : Bits} (h : BAny P t) (hu : BAny P' u)
    (hf : Fits P (t.s.v.size + 1)) (op : BOp) (f : Byte → Byte → Status × Byte) (i : Nat) :
    (∃ st t', bsOp t op = .ret (st, t') ∧ BAny P t') ∧ (∃ st t', bsPerform f t u = .ret (st, t') ∧ BAny P t') ∧
    (∃ st, bsTest t i = .ret st) ∧ (∃ n, bsCount t = .ret (stSuccess, n)) ∧ (∃ st, bsAll t = .ret st) ∧
    (∃ st, bsAny t = .ret st) ∧ (∃ st, bsNone t = .ret st) := by
  obtain ⟨st, t', e, _⟩ := bop_any h.sound hf op
  obtain ⟨st2, t2, e2, _⟩ := perform_any h.sound hu.sound f
  exact ⟨⟨st, t', e, .step h hf e⟩, ⟨st2, t2, e2, .logic f h hu e2⟩, test_any h.sound i, count_any h.sound,
    scan_any h.sound _ _ _ _, scan_any h.sound _ _ _ _, scan_any h.sound _ _ _ _⟩

/-- Five bits without any byte. -/
def exOdd : Bits :=
  ⟨5, ⟨{ allocator := some 0, growth := 2, shrink := 2, size := 0, cap := 1, esz := 1, hasDtor := false,
         data := some ⟨0, [none]⟩ }, ⟨fun _ => stSuccess, 1, 1, [.alloc 0 0 1 1]⟩⟩⟩

theorem exOdd_any : BAny exBP exOdd :=
  BAny.init (P := exBP) (w := exBW) (n := 5) (a := 0) (st := stSuccess) (w' := exOdd.s.w) ⟨rfl, rfl⟩
    (fun _ => failed_success) ⟨rfl, by decide, by decide⟩ ⟨rfl, rfl⟩ (by decide) (by cbv)

example : ∃ st t', bsPop exOdd = .ret (st, t') ∧ BAny exBP t' :=
  (C80_memory_safe exOdd_any exOdd_any (by show _ < _; decide) .pop (fun x _ => (stFalse, x)) 0).1

/-! ## C81: reserve -/

/-- C81: reserving a multiple of eight bits on a dynamic bitset makes the capacity at least that large and
keeps all bits.
Missing: other numbers of bits, see `C81_negation`. -/
theorem C81_reserve_partial {P : Params} {t : Bits} (h : BReach P t) (hdyn : P.allocator.isSome) {n : Nat}
    (hn : n % 8 = 0 ∧ n < 34359738368) :
    ∃ t', bsReserve t n = .ret (stSuccess, t') ∧ n ≤ 8 * bsGetCapacityBytes t' ∧
      (babsOf t').bits = (babsOf t).bits ∧ bsGetSize t' = t.size := by
  obtain ⟨bytes, b, sl, R⟩ := h.rep
  obtain ⟨t', bytes', b', sl', e, R'⟩ := bop_ok R (.reserve n) hn.2
  have hbits := bstep_plain (P := P) (s := babsOf t) (op := .reserve n) hn.2
  have hcap : (babsOf t').cap = bsGetCapacityBytes t' := rfl
  have hst : (bstep P (babsOf t) (.reserve n)).1 = stSuccess ∧ n ≤ 8 * (bstep P (babsOf t) (.reserve n)).2.cap := by
    simp only [bstep, hdyn, if_true]
    split
    · exact ⟨rfl, by show n ≤ 8 * (babsOf t).cap; omega⟩
    · exact ⟨rfl, by show n ≤ 8 * (n / 8); omega⟩
  refine ⟨t', by rw [← hst.1]; exact e, by rw [← hcap, R'.abs_eq]; exact hst.2, by rw [R'.abs_eq, hbits]; rfl, ?_⟩
  unfold bsGetSize
  rw [R'.size, hbits, R.size]
  rfl

/-- C81 is false for every number of bits that is not a multiple of eight: a dynamic bitset whose capacity
does not exceed the request in whole bytes gets a capacity that is too small, and success is reported. -/
theorem C81_negation {P : Params} {t : Bits} (h : BReach P t) (hdyn : P.allocator.isSome) {n : Nat}
    (hn : n % 8 ≠ 0 ∧ n < 34359738368) (hc : bsGetCapacityBytes t ≤ n / 8) :
    ∃ t', bsReserve t n = .ret (stSuccess, t') ∧ 8 * bsGetCapacityBytes t' < n := by
  obtain ⟨bytes, b, sl, R⟩ := h.rep
  obtain ⟨t', bytes', b', sl', e, R'⟩ := bop_ok R (.reserve n) hn.2
  have hcap : (babsOf t').cap = bsGetCapacityBytes t' := rfl
  have hcap0 : (babsOf t).cap = bsGetCapacityBytes t := rfl
  have hst : (bstep P (babsOf t) (.reserve n)).1 = stSuccess ∧ 8 * (bstep P (babsOf t) (.reserve n)).2.cap < n := by
    simp only [bstep, hdyn, if_true]
    split
    · exact ⟨rfl, by show 8 * (babsOf t).cap < n; omega⟩
    · exact ⟨rfl, by show 8 * (n / 8) < n; omega⟩
  exact ⟨t', by rw [← hst.1]; exact e, by rw [← hcap, R'.abs_eq]; exact hst.2⟩

example : ∃ t', bsReserve exBits 80 = .ret (stSuccess, t') ∧ 80 ≤ 8 * bsGetCapacityBytes t' :=
  let ⟨t', h1, h2, _⟩ := C81_reserve_partial exBits_reach rfl (n := 80) (by decide)
  ⟨t', h1, h2⟩
example : ∃ t', bsReserve exBits0 9 = .ret (stSuccess, t') ∧ 8 * bsGetCapacityBytes t' < 9 :=
  C81_negation exBits0_reach rfl (by decide) (by decide)

/-! ## C82: first and last bit -/

/-- C82: testing the "most significant" bit reads the last, the "least significant" bit the first element; on
the empty bitset both are refused. -/
theorem C82_msb_lsb {P : Params} {t : Bits} (h : BReach P t) :
    bsTestMSB t = .ret (answer (babsOf t).bits.getLast?) ∧ bsTestLSB t = .ret (answer (babsOf t).bits.head?) ∧
    (t.size = 0 → bsTestMSB t = .ret stOutOfRange ∧ bsTestLSB t = .ret stOutOfRange) := by
  obtain ⟨bytes, b, sl, R⟩ := h.rep
  refine ⟨bits_getLast R, bits_head R, fun h0 => ?_⟩
  have hb : (babsOf t).bits = [] := List.length_eq_zero_iff.1 (by rw [← R.size]; exact h0)
  rw [bits_getLast R, bits_head R, hb]
  exact ⟨rfl, rfl⟩

example : bsTestMSB exBits = .ret stTrue ∧ bsTestLSB exBits0 = .ret stFalse :=
  ⟨(C82_msb_lsb exBits_reach).1, (C82_msb_lsb exBits0_reach).2.1⟩

/-! ## C83: size in bytes -/

/-- C83: the size in bytes is the smallest number of bytes that hold the bits, and does not exceed the
capacity in bytes; the capacity in bits is eight times that in bytes. -/
theorem C83_size_bytes {P : Params} {t : Bits} (h : BReach P t) :
    bsGetSize t ≤ 8 * bsGetSizeBytes t ∧ 8 * bsGetSizeBytes t < bsGetSize t + 8 ∧
    bsGetSizeBytes t ≤ bsGetCapacityBytes t ∧
    (bsGetCapacityBytes t < 2305843009213693952 → bsGetCapacity t = 8 * bsGetCapacityBytes t) := by
  obtain ⟨bytes, b, sl, R⟩ := h.rep
  have hlen := R.len
  have hsh := R.short
  have hsz := R.size
  have hv : bsGetSizeBytes t = bytes.length := R.rep.vsize
  have hle := R.rep.len
  simp only [List.length_map] at hle
  have hcap : (babsOf t).cap = bsGetCapacityBytes t := rfl
  refine ⟨by unfold bsGetSize; omega, by unfold bsGetSize; omega, by omega, fun hc => ?_⟩
  unfold bsGetCapacity
  rw [mul64_eq (by omega)]
  omega

example : bsGetSize exBits ≤ 8 * 2 ∧ 8 * 2 < 11 + 8 :=
  ⟨(C83_size_bytes exBits_reach).1, (C83_size_bytes exBits_reach).2.1⟩

/-! ## C84: storage -/

/-- C84 for bitsets: as for strings. -/
theorem C84_bitset_storage {P : Params} {t : Bits} (h : BReach P t) (ops : List BOp)
    (hd : BAllInDomain P (babsOf t) ops) :
    ∃ sts t' t'', runBits t ops = .ret (sts, t') ∧ bsDestroy t' = .ret (stSuccess, t'') ∧
      (∀ al, P.allocator = some al → (∃ b, t'.s.v.data = some b ∧ b.cells.length = t'.s.v.cap ∧
        replay t'.s.w.trace = some (some ⟨al, b.id, 1, t'.s.v.cap⟩)) ∧ replay t''.s.w.trace = some none) ∧
      (P.allocator = none → t''.s.w.calls = 0 ∧ onlyDestroys t''.s.w.trace ∧
        destroyedOf t''.s.w.trace = []) := by
  obtain ⟨bytes, b, sl, R⟩ := h.rep
  obtain ⟨t', bytes', b', sl', hrun, R'⟩ := runBits_ok ops R hd
  have hA := R'.rep.alloc
  obtain ⟨s'', e, _, hdead, hrep, hnone⟩ := destroy_rep R'.rep
  refine ⟨_, t', { t' with s := s'' }, hrun, by unfold bsDestroy; rw [e]; rfl, ?_, ?_⟩
  · intro al hal
    simp only [AllocOK, hal] at hA
    refine ⟨⟨b', R'.rep.data, ?_, ?_⟩, hrep (by simp [hal])⟩
    · rw [R'.rep.dyn (by simp [hal]), R'.rep.cap]
    · rw [hA.1, R'.par.1, R'.rep.cap]
  · intro hal
    refine ⟨(hnone hal).1, (hnone hal).2, ?_⟩
    rw [hdead]
    simp [killed, R'.par.2]

example : ∃ sts t' t'', runBits exBits exBOps = .ret (sts, t') ∧ bsDestroy t' = .ret (stSuccess, t'') ∧
    replay t''.s.w.trace = some none :=
  let ⟨sts, t', t'', h1, h2, h3, _⟩ := C84_bitset_storage exBits_reach exBOps
    (bDomains_sound _ (by decide +kernel))
  ⟨sts, t', t'', h1, h2, (h3 0 rfl).2⟩

end Zy
