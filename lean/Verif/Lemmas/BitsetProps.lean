import Verif.Lemmas.BitsetReach

/-!
# Queries on bitsets, and the weak invariant for memory safety
-/

namespace Zy

open Spec

section
variable {P : Params} {t : Bits} {a : BState} {bytes : List Byte} {b : Block Byte} {sl : List (Cell Byte)}

/-! ## Testing bits -/

theorem answer_inj {x y : Option Bool} (h : answer x = answer y) : x = y := by
  rcases x with _ | _ | _ <;> rcases y with _ | _ | _ <;>
    first | rfl | exact absurd h (by decide)

theorem test_ok (R : BRep P t a bytes b sl) (i : Nat) : bsTest t i = .ret (answer a.bits[i]?) := by
  have hlen := R.len
  unfold bsTest
  rw [R.size]
  by_cases hi : i < a.bits.length
  · have hb : i / 8 < bytes.length := by omega
    have hx : bytes[i / 8]? = some bytes[i / 8] := List.getElem?_eq_getElem hb
    have hbit : a.bits[i]? = some a.bits[i] := List.getElem?_eq_getElem hi
    have hv : (byteBits bytes[i / 8])[i % 8]? = some a.bits[i] := by
      rw [← flatBits_get hx, ← R.flat, List.getElem?_append_left hi, hbit]
    have ht := byteBits_test bytes[i / 8] (i % 8) (by omega)
    rw [hv] at ht
    simp only [Option.some.injEq] at ht
    rw [if_neg (by omega), withPointer_in R.rep hb, load_ok R.rep hx, Out.ret_bind', hbit]
    unfold bitMask
    rw [ht]
    by_cases h0 : bytes[i / 8] &&& 1#8 <<< (7 - i % 8) = 0#8 <;> simp [h0, answer]
  · rw [if_pos (by omega), List.getElem?_eq_none (by omega)]
    rfl

theorem bits_getLast (R : BRep P t a bytes b sl) : bsTestMSB t = .ret (answer a.bits.getLast?) := by
  have hsm := R.small
  unfold bsTestMSB
  rw [test_ok R, R.size]
  rcases Nat.eq_zero_or_pos a.bits.length with h0 | h0
  · have h1 : a.bits = [] := List.length_eq_zero_iff.1 h0
    rw [h1]
    rfl
  · have hsub : sub64 a.bits.length 1 = a.bits.length - 1 := sub64_eq (by omega) (by omega)
    rw [hsub, List.getLast?_eq_getElem?]

theorem bits_head (R : BRep P t a bytes b sl) : bsTestLSB t = .ret (answer a.bits.head?) := by
  unfold bsTestLSB
  rw [test_ok R, List.head?_eq_getElem?]

/-! ## Counting -/

theorem count_ok (R : BRep P t a bytes b sl) :
    bsCount t = .ret (stSuccess, min ((a.bits ++ a.stray).count true) a.bits.length) := by
  have hsm := R.small
  have hlen := R.len
  have hs := R.short
  unfold bsCount
  rw [R.rep.vsize, countLoop_ok R.rep bytes.length (by omega) (by omega)]
  simp only [Out.ret_bind', failed_success, Bool.false_eq_true, if_false, List.drop_zero, Nat.zero_add]
  rw [R.flat, R.size]

theorem count_clean {l : List Bool} (h : ∀ x ∈ l, x = false) : l.count true = 0 := by
  rw [List.count_eq_zero]
  intro hm
  simpa using h _ hm

/-! ## All, any, none -/

theorem byte_get (x : Byte) (j : Nat) (hj : j < 8) : (byteBits x)[j]? = some (x.getLsbD (7 - j)) := by
  simp [byteBits, hj]

theorem not_ones (x : Byte) : (x != 0xFF#8) = true ↔ ∃ j, j < 8 ∧ (byteBits x)[j]? = some false := by
  rw [bne_iff_ne]
  constructor
  · intro h
    refine Classical.byContradiction fun hc => ?_
    apply h
    apply BitVec.eq_of_getLsbD_eq
    intro k hk
    refine Classical.byContradiction fun hk' => ?_
    refine hc ⟨7 - k, by omega, ?_⟩
    rw [byte_get x _ (by omega), show 7 - (7 - k) = k by omega]
    have : (0xFF#8).getLsbD k = true := by
      rcases k with _|_|_|_|_|_|_|_|k <;> first | rfl | omega
    rw [this] at hk'
    simpa using hk'
  · rintro ⟨j, hj, h⟩ rfl
    rw [byte_get _ _ hj] at h
    rcases j with _|_|_|_|_|_|_|_|j <;> first | omega | simp at h

theorem not_zero (x : Byte) : (x != 0x00#8) = true ↔ ∃ j, j < 8 ∧ (byteBits x)[j]? = some true := by
  rw [bne_iff_ne]
  constructor
  · intro h
    refine Classical.byContradiction fun hc => ?_
    apply h
    apply BitVec.eq_of_getLsbD_eq
    intro k hk
    refine Classical.byContradiction fun hk' => ?_
    refine hc ⟨7 - k, by omega, ?_⟩
    rw [byte_get x _ (by omega), show 7 - (7 - k) = k by omega]
    simpa using hk'
  · rintro ⟨j, hj, h⟩ rfl
    rw [byte_get _ _ hj] at h
    simp at h

theorem mask_ones (x m : Byte) : ((x &&& m) != m) = true ↔
    ∃ j, j < 8 ∧ m.getLsbD (7 - j) = true ∧ (byteBits x)[j]? = some false := by
  rw [bne_iff_ne]
  constructor
  · intro h
    refine Classical.byContradiction fun hc => ?_
    apply h
    apply BitVec.eq_of_getLsbD_eq
    intro k hk
    refine Classical.byContradiction fun hk' => ?_
    refine hc ⟨7 - k, by omega, ?_⟩
    rw [byte_get x _ (by omega), show 7 - (7 - k) = k by omega]
    rw [BitVec.getLsbD_and] at hk'
    cases h1 : x.getLsbD k <;> cases h2 : m.getLsbD k <;> simp_all
  · rintro ⟨j, hj, hm, h⟩ he
    rw [byte_get _ _ hj] at h
    have := congrArg (fun z : Byte => z.getLsbD (7 - j)) he
    simp only [BitVec.getLsbD_and, hm] at this
    simp_all

theorem mask_zero (x m : Byte) : ((x &&& m) != 0x00#8) = true ↔
    ∃ j, j < 8 ∧ m.getLsbD (7 - j) = true ∧ (byteBits x)[j]? = some true := by
  rw [bne_iff_ne]
  constructor
  · intro h
    refine Classical.byContradiction fun hc => ?_
    apply h
    apply BitVec.eq_of_getLsbD_eq
    intro k hk
    refine Classical.byContradiction fun hk' => ?_
    refine hc ⟨7 - k, by omega, ?_⟩
    rw [byte_get x _ (by omega), show 7 - (7 - k) = k by omega]
    rw [BitVec.getLsbD_and] at hk'
    cases h1 : x.getLsbD k <;> cases h2 : m.getLsbD k <;> simp_all
  · rintro ⟨j, hj, hm, h⟩ he
    rw [byte_get _ _ hj] at h
    have := congrArg (fun z : Byte => z.getLsbD (7 - j)) he
    simp only [BitVec.getLsbD_and, hm] at this
    simp_all

/-- The bit at `i` is looked at by the all/any/none queries on `n` bytes: it lies in a byte in front of the
last one, or is selected by the mask. -/
def Seen (n size i : Nat) : Prop :=
  i / 8 + 1 = n → (lastMask size).getLsbD (7 - i % 8) = true

theorem scan_hit {v : Bool} {whole : Byte → Bool} {last : Byte → Byte → Bool} (size : Nat)
    (hw : ∀ x, whole x = true ↔ ∃ j, j < 8 ∧ (byteBits x)[j]? = some v)
    (hl : ∀ x m, last x m = true ↔ ∃ j, j < 8 ∧ m.getLsbD (7 - j) = true ∧ (byteBits x)[j]? = some v) :
    (bytes.dropLast.any whole = true ∨ (bytes.getLast?.any fun x => last x (lastMask size)) = true) ↔
      ∃ i, Seen bytes.length size i ∧ (flatBits bytes)[i]? = some v := by
  constructor
  · rintro (h | h)
    · rw [List.any_eq_true] at h
      obtain ⟨x, hx, hwx⟩ := h
      obtain ⟨k, hk, rfl⟩ := List.getElem_of_mem hx
      obtain ⟨j, hj, hv⟩ := (hw _).1 hwx
      simp only [List.length_dropLast] at hk
      refine ⟨8 * k + j, fun he => by omega, ?_⟩
      have hx : bytes[(8 * k + j) / 8]? = some bytes[k] := by
        rw [show (8 * k + j) / 8 = k by omega]; exact List.getElem?_eq_getElem (by omega)
      rw [flatBits_get hx, show (8 * k + j) % 8 = j by omega]
      rw [List.getElem_dropLast] at hv
      exact hv
    · cases hg : bytes.getLast? with
      | none => rw [hg] at h; simp at h
      | some x =>
        rw [hg] at h
        obtain ⟨j, hj, hm, hv⟩ := (hl _ _).1 (show last x (lastMask size) = true from h)
        rw [List.getLast?_eq_getElem?] at hg
        have hpos : 0 < bytes.length := by
          rcases Nat.eq_zero_or_pos bytes.length with h0 | h0
          · rw [List.getElem?_eq_none (by omega)] at hg; cases hg
          · exact h0
        refine ⟨8 * (bytes.length - 1) + j, fun _ => ?_, ?_⟩
        · rw [show (8 * (bytes.length - 1) + j) % 8 = j by omega]; exact hm
        · have hx : bytes[(8 * (bytes.length - 1) + j) / 8]? = some x := by
            rw [show (8 * (bytes.length - 1) + j) / 8 = bytes.length - 1 by omega]; exact hg
          rw [flatBits_get hx, show (8 * (bytes.length - 1) + j) % 8 = j by omega]
          exact hv
  · rintro ⟨i, hs, hv⟩
    have hi : i < 8 * bytes.length := by
      rw [← flatBits_length]
      exact (List.getElem?_eq_some_iff.1 hv).1
    have hb : i / 8 < bytes.length := by omega
    have hx : bytes[i / 8]? = some bytes[i / 8] := List.getElem?_eq_getElem hb
    rw [flatBits_get hx] at hv
    by_cases he : i / 8 + 1 = bytes.length
    · right
      rw [List.getLast?_eq_getElem?, show bytes.length - 1 = i / 8 by omega, hx]
      exact (hl _ _).2 ⟨i % 8, by omega, hs he, hv⟩
    · left
      rw [List.any_eq_true]
      refine ⟨bytes[i / 8], ?_, (hw _).2 ⟨i % 8, by omega, hv⟩⟩
      have := List.getElem_mem (l := bytes.dropLast) (n := i / 8) (by simp; omega)
      rwa [List.getElem_dropLast] at this

theorem ite_iff {α : Type} {p q : Prop} [Decidable p] [Decidable q] (h : p ↔ q) {x y : α} :
    (if p then x else y) = if q then x else y := by
  by_cases hp : p
  · rw [if_pos hp, if_pos (h.1 hp)]
  · rw [if_neg hp, if_neg fun hq => hp (h.2 hq)]

theorem all_seen (R : BRep P t a bytes b sl) {q : Prop} [Decidable q]
    (h : (∃ i, Seen bytes.length t.size i ∧ (a.bits ++ a.stray)[i]? = some false) ↔ q) :
    bsAll t = .ret (if q then stFalse else stTrue) := by
  unfold bsAll
  rw [R.rep.vsize, scan_ok R.rep _ _ _ _ bytes.length (by omega), List.drop_zero]
  rw [R.flat] at h
  congr 1
  exact ite_iff ((scan_hit t.size not_ones mask_ones).trans h)

theorem any_seen (R : BRep P t a bytes b sl) {q : Prop} [Decidable q]
    (h : (∃ i, Seen bytes.length t.size i ∧ (a.bits ++ a.stray)[i]? = some true) ↔ q) :
    bsAny t = .ret (if q then stTrue else stFalse) := by
  unfold bsAny
  rw [R.rep.vsize, scan_ok R.rep _ _ _ _ bytes.length (by omega), List.drop_zero]
  rw [R.flat] at h
  congr 1
  exact ite_iff ((scan_hit t.size not_zero mask_zero).trans h)

theorem none_seen (R : BRep P t a bytes b sl) {q : Prop} [Decidable q]
    (h : (∃ i, Seen bytes.length t.size i ∧ (a.bits ++ a.stray)[i]? = some true) ↔ q) :
    bsNone t = .ret (if q then stFalse else stTrue) := by
  unfold bsNone
  rw [R.rep.vsize, scan_ok R.rep _ _ _ _ bytes.length (by omega), List.drop_zero]
  rw [R.flat] at h
  congr 1
  exact ite_iff ((scan_hit t.size not_zero mask_zero).trans h)

/-! ### Which bits are seen -/

theorem mask_table : ∀ r, r < 8 → ∀ j, j < 8 → (~~~(BitVec.ofNat 8 (8 - r))).getLsbD (7 - j) =
    (if r = 0 then decide (j ≠ 4) else if j < r then true else
      !(BitVec.ofNat 8 (8 - r)).getLsbD (7 - j)) := by decide +kernel

/-- With an incomplete last byte, every valid bit is seen. -/
theorem seen_valid (R : BRep P t a bytes b sl) (h : a.bits.length % 8 ≠ 0) {i : Nat}
    (hi : i < a.bits.length) : Seen bytes.length t.size i := by
  intro he
  have hlen := R.len
  have hs := R.short
  unfold lastMask
  rw [R.size, mask_table _ (by omega) _ (by omega), if_neg h, if_pos (by omega)]

/-- With seven valid bits in the last byte, nothing else is seen. -/
theorem seen_seven (R : BRep P t a bytes b sl) (h : a.bits.length % 8 = 7) {i : Nat}
    (hi : i < 8 * bytes.length) (hsn : Seen bytes.length t.size i) : i < a.bits.length := by
  have hlen := R.len
  have hs := R.short
  refine Classical.byContradiction fun hc => ?_
  have he := hsn (by omega)
  unfold lastMask at he
  rw [R.size, h, show i % 8 = 7 by omega] at he
  simp at he

/-- With a complete last byte, all bits but one are seen. -/
theorem seen_eight (R : BRep P t a bytes b sl) (h : a.bits.length % 8 = 0) {i : Nat} (hi : i < a.bits.length) :
    Seen bytes.length t.size i ↔ i ≠ a.bits.length - 4 := by
  have hlen := R.len
  have hs := R.short
  unfold Seen lastMask
  rw [R.size, h]
  constructor
  · intro hsn he
    have := hsn (by omega)
    rw [mask_table 0 (by omega) _ (by omega), if_pos rfl] at this
    simp at this
    omega
  · intro hne he
    rw [mask_table 0 (by omega) _ (by omega), if_pos rfl]
    simp
    omega

/-- With one to six valid bits in the last byte, some stray bit is seen. -/
theorem seen_stray (R : BRep P t a bytes b sl) (h : a.bits.length % 8 ≠ 0) (h7 : a.bits.length % 8 ≠ 7) :
    ∃ i, a.bits.length ≤ i ∧ i < 8 * bytes.length ∧ Seen bytes.length t.size i := by
  have hlen := R.len
  have hs := R.short
  have key : ∀ r, r < 8 → r ≠ 0 → r ≠ 7 → ∃ j, j < 8 ∧ r ≤ j ∧ (~~~(BitVec.ofNat 8 (8 - r))).getLsbD (7 - j) = true := by
    decide +kernel
  obtain ⟨j, hj, hr, hm⟩ := key _ (Nat.mod_lt a.bits.length (by omega)) h h7
  refine ⟨8 * (bytes.length - 1) + j, by omega, by omega, fun _ => ?_⟩
  unfold lastMask
  rw [R.size, show (8 * (bytes.length - 1) + j) % 8 = j by omega]
  exact hm

theorem get_valid {l m : List Bool} {i : Nat} (hi : i < l.length) : (l ++ m)[i]? = l[i]? :=
  List.getElem?_append_left hi

/-- If the seen bits with value `v` are exactly the valid ones, the query is about membership. -/
theorem seen_iff_mem {l m : List Bool} {n size : Nat} {v : Bool}
    (h1 : ∀ i, i < l.length → Seen n size i)
    (h2 : ∀ i, l.length ≤ i → Seen n size i → (l ++ m)[i]? ≠ some v) :
    (∃ i, Seen n size i ∧ (l ++ m)[i]? = some v) ↔ v ∈ l := by
  constructor
  · rintro ⟨i, hs, hv⟩
    by_cases hi : i < l.length
    · rw [get_valid hi] at hv
      exact List.mem_of_getElem? hv
    · exact absurd hv (h2 i (by omega) hs)
  · intro hm
    obtain ⟨i, hi, he⟩ := List.getElem_of_mem hm
    exact ⟨i, h1 i hi, by rw [get_valid hi, List.getElem?_eq_getElem hi, he]⟩

/-! ## Weak invariant: any bitset, whatever its size field says -/

/-- The storage of the bitset is a valid vector of bytes. -/
def Sound (P : Params) (t : Bits) : Prop :=
  BParams P ∧ ∃ (bytes : List Byte) (c : Nat) (b : Block Byte) (sl : List (Cell Byte)),
    Rep P t.s ⟨bytes.map some, c, []⟩ b sl

/-- The call returns, and leaves a sound bitset. -/
def Returns (P : Params) (r : Out (Status × Bits)) : Prop := ∃ st t', r = .ret (st, t') ∧ Sound P t'

theorem modify_any (h : Sound P t) (f : Byte → Byte → Byte) (i : Nat) : Returns P (bsModify f t i) := by
  obtain ⟨hB, bytes, c, b, sl, R⟩ := h
  unfold bsModify
  by_cases hi : i ≥ t.size
  · rw [if_pos hi]; exact ⟨_, t, rfl, hB, bytes, c, b, sl, R⟩
  · rw [if_neg hi]
    by_cases hb : i / 8 < bytes.length
    · obtain ⟨s', b', e, R'⟩ := store_ok R hb (f bytes[i / 8] (bitMask i))
      rw [withPointer_in R hb, load_ok R (List.getElem?_eq_getElem hb), Out.ret_bind', e]
      exact ⟨_, _, rfl, hB, _, c, b', sl, R'⟩
    · rw [withPointer_out R (by omega)]
      exact ⟨_, _, rfl, hB, bytes, c, b, sl, R⟩

theorem mapAll_any (h : Sound P t) {f : VS Byte → Nat → Out Byte} {g : Byte → Byte}
    (hf : ∀ {c : Nat} {sl : List (Cell Byte)} {s : VS Byte} {bytes : List Byte} {b : Block Byte},
      Rep P s ⟨bytes.map some, c, []⟩ b sl →
      ∀ (i : Nat) (h : i < bytes.length), f s i = .ret (g bytes[i])) : Returns P (bsMapAll f t) := by
  obtain ⟨hB, bytes, c, b, sl, R⟩ := h
  obtain ⟨s', b', e, R'⟩ := mapLoop_ok f g hf bytes.length (i := 0) R (by simp)
  unfold bsMapAll
  rw [R.vsize, e]
  exact ⟨_, _, rfl, hB, _, c, b', sl, R'⟩

theorem assign_any (h : Sound P t) (i : Nat) (v : Bool) : Returns P (bsAssign t i v) := by
  cases v
  · exact modify_any h (fun x m => x &&& ~~~m) i
  · exact modify_any h (fun x m => x ||| m) i

theorem bop_any (h : Sound P t) (hf : Fits P (t.s.v.size + 1)) (op : BOp) : Returns P (bsOp t op) := by
  have hS := h
  obtain ⟨hB, bytes, c, b, sl, R⟩ := h
  have hsz : t.s.v.size = bytes.length := by rw [R.size]; simp
  cases op with
  | push v =>
    simp only [bsOp, bsPush]
    by_cases h8 : t.size % 8 = 0
    · rw [if_pos h8]
      obtain ⟨junk, st, s', a', b', sl', _, hst, e, R'⟩ := push_ok R (some 0#8)
        (show Fits P _ by rw [hsz] at hf; simpa using hf)
      simp only [vecOp] at e
      rw [e, Out.ret_bind']
      have hS' : Sound P ⟨add64 t.size 1, s'⟩ := by
        simp only [step] at hst
        split at hst
        · obtain ⟨rfl, rfl⟩ := Prod.mk.injEq .. ▸ hst
          exact ⟨hB, bytes, c, b', sl', R'⟩
        · rename_i c' _
          obtain ⟨rfl, rfl⟩ := Prod.mk.injEq .. ▸ hst
          exact ⟨hB, bytes ++ [0#8], c', b', sl', by simpa using R'⟩
      simp only
      split
      · exact ⟨_, _, rfl, hS'⟩
      · exact assign_any hS' _ v
    · rw [if_neg h8, Out.ret_bind']
      simp only [failed_success, Bool.false_eq_true, if_false]
      exact assign_any (t := ⟨add64 t.size 1, t.s⟩) ⟨hB, bytes, c, b, sl, R⟩ _ v
  | pop =>
    simp only [bsOp, bsPop]
    split
    · obtain ⟨junk, st, s', a', b', sl', _, hst, e, R'⟩ := pop_ok R
      simp only [vecOp] at e
      rw [e]
      simp only [step] at hst
      split at hst
      · obtain ⟨rfl, rfl⟩ := Prod.mk.injEq .. ▸ hst
        exact ⟨_, _, rfl, hB, bytes, c, b', sl', R'⟩
      · obtain ⟨rfl, rfl⟩ := Prod.mk.injEq .. ▸ hst
        refine ⟨_, _, rfl, hB, bytes.dropLast, trim P c (bytes.length - 1), b', sl', ?_⟩
        simpa [killed, hB.2, List.map_dropLast] using R'
    · exact ⟨_, _, rfl, hB, bytes, c, b, sl, R⟩
  | set i => exact modify_any hS _ i
  | reset i => exact modify_any hS (fun x m => x &&& ~~~m) i
  | assign i v => exact assign_any hS i v
  | toggle i => exact modify_any hS _ i
  | setAll => exact mapAll_any hS (g := fun _ => 0xFF#8) (fun _ _ _ => rfl)
  | resetAll => exact mapAll_any hS (g := fun _ => 0x00#8) (fun _ _ _ => rfl)
  | flip =>
    exact mapAll_any hS (g := fun x => ~~~x) (fun R i h => by
      rw [load_ok R (List.getElem?_eq_getElem h)]; rfl)
  | clear =>
    obtain ⟨junk, st, s', a', b', sl', _, hst, e, R'⟩ := clear_ok R
    simp only [vecOp] at e
    simp only [bsOp, bsClear, e]
    simp only [step] at hst
    split at hst
    · obtain ⟨rfl, rfl⟩ := Prod.mk.injEq .. ▸ hst
      exact ⟨_, _, rfl, hB, bytes, c, b', sl', R'⟩
    · obtain ⟨rfl, rfl⟩ := Prod.mk.injEq .. ▸ hst
      refine ⟨_, _, rfl, hB, [], trim P c 0, b', sl', ?_⟩
      simpa [killed, hB.2] using R'
  | reserve n =>
    have hlt := bitsToBytes_lt n
    obtain ⟨junk, st, s', a', b', sl', _, hst, e, R'⟩ := reserve_ok R (bitsToBytes n)
      (show bitsToBytes n * P.esz < _ by rw [hB.1]; omega)
    simp only [vecOp] at e
    simp only [bsOp, bsReserve, e]
    simp only [step] at hst
    split at hst
    · obtain ⟨rfl, rfl⟩ := Prod.mk.injEq .. ▸ hst
      exact ⟨_, _, rfl, hB, bytes, c, b', sl', R'⟩
    · split at hst
      · obtain ⟨rfl, rfl⟩ := Prod.mk.injEq .. ▸ hst
        exact ⟨_, _, rfl, hB, bytes, _, b', sl', R'⟩
      · obtain ⟨rfl, rfl⟩ := Prod.mk.injEq .. ▸ hst
        exact ⟨_, _, rfl, hB, bytes, c, b', sl', R'⟩
  | shrinkToFit =>
    obtain ⟨junk, st, s', a', b', sl', _, hst, e, R'⟩ := shrinkToFit_ok R
    simp only [vecOp] at e
    simp only [bsOp, bsShrinkToFit, e]
    simp only [step, Prod.mk.injEq] at hst
    obtain ⟨rfl, rfl⟩ := hst
    by_cases hd : P.allocator.isSome
    · simp only [hd, if_true] at R'
      exact ⟨_, _, rfl, hB, bytes, _, b', sl', R'⟩
    · simp only [hd] at R'
      exact ⟨_, _, rfl, hB, bytes, c, b', sl', R'⟩

theorem perform_any {P' : Params} {u : Bits} (h : Sound P t) (hu : Sound P' u)
    (f : Byte → Byte → Status × Byte) : Returns P (bsPerform f t u) := by
  obtain ⟨hB, bytes, c, b, sl, R⟩ := h
  obtain ⟨_, ys, c', bu, slu, U⟩ := hu
  obtain ⟨st, s', bytes', b', e, _, R'⟩ := opLoop_any U f (min bytes.length ys.length) (i := 0) R
    (by omega) (by omega)
  unfold bsPerform
  simp only [R.vsize, U.vsize, e]
  exact ⟨_, _, rfl, hB, bytes', c, b', sl, R'⟩

theorem BAny.sound {P : Params} {t : Bits} (h : BAny P t) : Sound P t := by
  induction h with
  | init hw hr hP hB hn h =>
    obtain ⟨t', w', b, sl, e, hs, R⟩ := binit_ok hw hr hP hB (binit_growth h)
    rw [e] at h
    simp only [Out.ret.injEq, Prod.mk.injEq, Option.some.injEq] at h
    obtain ⟨-, rfl, -⟩ := h
    exact ⟨hB, _, _, b, sl, R⟩
  | initBuffer hw hr hP hB hn hb h =>
    obtain ⟨h0, hc⟩ := binitBuffer_cond h
    obtain ⟨t', b, sl, e, hs, R⟩ := binitBuffer_ok hw hr hP hB hb h0 hc
    rw [e] at h
    simp only [Out.ret.injEq, Prod.mk.injEq, Option.some.injEq] at h
    obtain ⟨-, rfl⟩ := h
    exact ⟨hB, _, _, b, sl, R⟩
  | step _ hd hs ih =>
    obtain ⟨st, t', e, h'⟩ := bop_any ih hd _
    rw [e] at hs
    simp only [Out.ret.injEq, Prod.mk.injEq] at hs
    obtain ⟨-, rfl⟩ := hs
    exact h'
  | logic f _ _ hs ih ihu =>
    obtain ⟨st, t', e, h'⟩ := perform_any ih ihu f
    rw [e] at hs
    simp only [Out.ret.injEq, Prod.mk.injEq] at hs
    obtain ⟨-, rfl⟩ := hs
    exact h'

theorem test_any (h : Sound P t) (i : Nat) : ∃ st, bsTest t i = .ret st := by
  obtain ⟨hB, bytes, c, b, sl, R⟩ := h
  unfold bsTest
  split
  · exact ⟨_, rfl⟩
  · by_cases hb : i / 8 < bytes.length
    · rw [withPointer_in R hb, load_ok R (List.getElem?_eq_getElem hb), Out.ret_bind']
      split <;> exact ⟨_, rfl⟩
    · rw [withPointer_out R (by omega)]; exact ⟨_, rfl⟩

theorem countLoop_any {s : VS Byte} {c : Nat} (R : Rep P s ⟨bytes.map some, c, []⟩ b sl) (n : Nat) :
    ∀ {i acc : Nat}, i + n = bytes.length → ∃ k, bsCountLoop s n i acc = .ret (stSuccess, k) := by
  induction n with
  | zero => intro i acc _; exact ⟨_, rfl⟩
  | succ n ih =>
    intro i acc h
    unfold bsCountLoop
    rw [withPointer_in R (by omega), load_ok R (List.getElem?_eq_getElem (by omega)), Out.ret_bind']
    exact ih (by omega)

theorem count_any (h : Sound P t) : ∃ k, bsCount t = .ret (stSuccess, k) := by
  obtain ⟨hB, bytes, c, b, sl, R⟩ := h
  obtain ⟨k, e⟩ := countLoop_any R bytes.length (i := 0) (acc := 0) (by omega)
  unfold bsCount
  rw [R.vsize, e]
  exact ⟨min k t.size, by simp [failed_success]⟩

theorem scan_any (h : Sound P t) (whole : Byte → Bool) (last : Byte → Byte → Bool) (hit miss : Status) :
    ∃ st, bsScan t whole last hit miss (vecGetSize t.s) 0 = .ret st := by
  obtain ⟨hB, bytes, c, b, sl, R⟩ := h
  rw [R.vsize, scan_ok R _ _ _ _ bytes.length (by omega)]
  exact ⟨_, rfl⟩

/-! ## Histories -/

theorem modify_set {l : List Bool} {i : Nat} (hi : i < l.length) (f : Bool → Bool) :
    l.modify i f = l.set i (f l[i]) := by
  apply List.ext_getElem?
  intro j
  rw [List.getElem?_modify, List.getElem?_set]
  by_cases h : i = j
  · subst h
    simp [hi]
  · simp [h]

theorem modify_out {l : List Bool} {i : Nat} (hi : l.length ≤ i) (f : Bool → Bool) : l.modify i f = l := by
  apply List.ext_getElem?
  intro j
  rw [List.getElem?_modify]
  by_cases h : i = j
  · subst h
    simp [hi]
  · simp [h]

theorem bstep_plain {s : BState} {op : BOp} (hd : BInDomain P s op) :
    (bstep P s op).2.bits = plain s.bits op := by
  have hch : ∀ (i : Nat) (f : Bool → Bool), (change s i f).2.bits = s.bits.modify i f := by
    intro i f
    unfold change
    by_cases hi : i < s.bits.length
    · rw [List.getElem?_eq_getElem hi]
      exact (modify_set hi f).symm
    · rw [List.getElem?_eq_none (by omega)]
      exact (modify_out (l := s.bits) (by omega) f).symm
  have hconst : ∀ (i : Nat) (v : Bool), s.bits.modify i (fun _ => v) = s.bits.set i v := by
    intro i v
    by_cases hi : i < s.bits.length
    · exact modify_set hi fun _ => v
    · rw [modify_out (by omega), List.set_eq_of_length_le (by omega)]
  cases op with
  | push v =>
    simp only [bstep, plain]
    cases hs : s.stray with
    | nil =>
      obtain ⟨c, hc⟩ := Option.isSome_iff_exists.1 (hd hs).2
      simp only [hc]
    | cons x rest => rfl
  | pop =>
    have hne : s.bits ≠ [] := hd
    simp only [bstep, plain, List.getLast?_eq_some_getLast hne]
    split <;> rfl
  | set i => simp only [bstep, plain, hch, hconst]
  | reset i => simp only [bstep, plain, hch, hconst]
  | assign i v => simp only [bstep, plain, hch, hconst]
  | toggle i => simp only [bstep, plain, hch]
  | setAll => rfl
  | resetAll => rfl
  | flip => rfl
  | clear => rfl
  | reserve n =>
    simp only [bstep, plain]
    split
    · rfl
    · split <;> rfl
  | shrinkToFit =>
    simp only [bstep, plain]
    split <;> rfl

theorem brun_plain (ops : List BOp) : ∀ {s : BState}, BAllInDomain P s ops →
    (brun P s ops).2.bits = ops.foldl plain s.bits := by
  induction ops with
  | nil => intro s _; rfl
  | cons op ops ih =>
    intro s hd
    simp only [brun, List.foldl_cons]
    rw [ih hd.2, bstep_plain hd.1]

theorem bstep_tidy {s : BState} {op : BOp} (hop : Tidy op) (h : ∀ x ∈ s.stray, x = false) :
    ∀ x ∈ (bstep P s op).2.stray, x = false := by
  have hch : ∀ (i : Nat) (f : Bool → Bool), (change s i f).2.stray = s.stray := by
    intro i f
    unfold change
    split <;> rfl
  cases op with
  | push v =>
    simp only [bstep]
    cases hs : s.stray with
    | nil =>
      simp only
      split
      · rw [hs]; simp
      · simp
    | cons x rest =>
      rw [hs] at h
      exact fun y hy => h y (List.mem_cons_of_mem _ hy)
  | pop => exact hop.elim
  | set i => simpa only [bstep, hch] using h
  | reset i => simpa only [bstep, hch] using h
  | assign i v => simpa only [bstep, hch] using h
  | toggle i => simpa only [bstep, hch] using h
  | setAll => exact hop.elim
  | resetAll => simp [bstep, changeAll]
  | flip => exact hop.elim
  | clear => simp [bstep]
  | reserve n =>
    simp only [bstep]
    split
    · exact h
    · split <;> exact h
  | shrinkToFit =>
    simp only [bstep]
    split <;> exact h

theorem brun_tidy (ops : List BOp) : ∀ {s : BState}, (∀ op ∈ ops, Tidy op) →
    (∀ x ∈ s.stray, x = false) → ∀ x ∈ (brun P s ops).2.stray, x = false := by
  induction ops with
  | nil => intro s _ h; exact h
  | cons op ops ih =>
    intro s hop h
    exact ih (fun o ho => hop o (List.mem_cons_of_mem _ ho)) (bstep_tidy (hop op List.mem_cons_self) h)

theorem BReach.run {P : Params} (ops : List BOp) : ∀ {t : Bits} {sts : List Status} {t' : Bits}, BReach P t →
    BAllInDomain P (babsOf t) ops → runBits t ops = .ret (sts, t') → BReach P t' := by
  induction ops with
  | nil =>
    intro t sts t' h _ e
    simp only [runBits, Out.ret.injEq, Prod.mk.injEq] at e
    exact e.2 ▸ h
  | cons op ops ih =>
    intro t sts t' h hd e
    obtain ⟨bytes, b, sl, R⟩ := h.rep
    obtain ⟨t1, bytes1, b1, sl1, e1, R1⟩ := bop_ok R op hd.1
    simp only [runBits, e1, Out.ret_bind'] at e
    have h1 := BReach.step h hd.1 e1
    cases h2 : runBits t1 ops with
    | ub why => rw [h2] at e; cases e
    | ret q =>
      rw [h2] at e
      simp only [Out.ret_bind', Out.ret.injEq, Prod.mk.injEq] at e
      refine ih h1 ?_ (by rw [h2, ← e.2])
      rw [R1.abs_eq]
      exact hd.2

end

/-- What a bitwise operation on bytes does to two bitsets. -/
theorem logic_bits {P P' : Params} {t u : Bits} (h : BReach P t) (hu : BReach P' u) {f : Byte → Byte → Byte}
    {g : Bool → Bool → Bool} (hg : ∀ x y, byteBits (f x y) = List.zipWith g (byteBits x) (byteBits y)) :
    ∃ t', bsPerform (fun x y => (stSuccess, f x y)) t u = .ret (stSuccess, t') ∧ t'.size = t.size ∧
      (babsOf t').bits.length = (babsOf t).bits.length ∧
      (∀ (i : Nat) (x y : Bool), (babsOf t).bits[i]? = some x → (babsOf u).bits[i]? = some y →
        (babsOf t').bits[i]? = some (g x y)) ∧
      (∀ i : Nat, 8 * bytesFor u.size ≤ i → (babsOf t').bits[i]? = (babsOf t).bits[i]?) := by
  obtain ⟨bytes, b, sl, R⟩ := h.rep
  obtain ⟨ys, bu, slu, U⟩ := hu.rep
  obtain ⟨t', b', e, hsz, R'⟩ := perform_ok R U f
  have hlen := R.len
  have hulen := U.len
  have hflat : flatBits (List.zipWith f bytes ys ++ bytes.drop ys.length) =
      combine g (flatBits bytes) (flatBits ys) := flatBits_zipWith hg bytes ys
  have hcl : (combine g (flatBits bytes) (flatBits ys)).length = 8 * bytes.length := by
    unfold combine; simp; omega
  refine ⟨t', e, hsz, ?_, fun i x y hx hy => ?_, fun i hi => ?_⟩
  · rw [R'.abs_eq, hflat]
    simp only [List.length_take, hcl]
    omega
  · have hi := (List.getElem?_eq_some_iff.1 hx).1
    have hi' := (List.getElem?_eq_some_iff.1 hy).1
    rw [R'.abs_eq, hflat]
    simp only
    rw [List.getElem?_take_of_lt hi]
    unfold combine
    rw [List.getElem?_append_left (by simp; omega), List.getElem?_zipWith, ← R.flat, ← U.flat,
      List.getElem?_append_left hi, List.getElem?_append_left hi', hx, hy]
  · rw [U.size, ← U.bytes_len] at hi
    rw [R'.abs_eq, hflat]
    simp only
    by_cases hi1 : i < (babsOf t).bits.length
    · rw [List.getElem?_take_of_lt hi1]
      unfold combine
      rw [List.getElem?_append_right (by simp; omega)]
      simp only [List.length_zipWith, flatBits_length, List.getElem?_drop]
      rw [show 8 * ys.length + (i - min (8 * bytes.length) (8 * ys.length)) = i by omega, ← R.flat,
        List.getElem?_append_left hi1]
    · rw [List.getElem?_eq_none (by simp; omega), List.getElem?_eq_none (by omega)]

end Zy
