import Verif.Model.Format
import Verif.Spec.Format
import Verif.Lemmas.StringMake

/-!
# Helper lemmas about number formatting
-/

namespace Zy

open Spec

/-! ## Digits -/

theorem digits_lt {base n : Nat} (h : n < base) : digits base n = [n] := by
  rw [digits]; rw [dif_pos (Or.inr h)]

theorem digits_step {base n : Nat} (hb : 2 ≤ base) (h : base ≤ n) :
    digits base n = digits base (n / base) ++ [n % base] := by
  rw [digits]; rw [dif_neg (by omega)]

theorem digits_bound {base : Nat} (hb : 2 ≤ base) : ∀ n, ∀ d ∈ digits base n, d < base := by
  intro n
  induction n using Nat.strongRecOn with
  | _ n ih =>
    by_cases h : n < base
    · rw [digits_lt h]; simpa using h
    · rw [digits_step hb (by omega)]
      intro d hd
      rw [List.mem_append] at hd
      rcases hd with hd | hd
      · exact ih _ (Nat.div_lt_self (by omega) (by omega)) d hd
      · simp only [List.mem_singleton] at hd
        rw [hd]; exact Nat.mod_lt _ (by omega)

theorem digits_ne_nil (base n : Nat) : digits base n ≠ [] := by
  rw [digits]; split <;> simp

theorem digits_foldl {base : Nat} (hb : 2 ≤ base) : ∀ n,
    (digits base n).foldl (fun acc d => acc * base + d) 0 = n := by
  intro n
  induction n using Nat.strongRecOn with
  | _ n ih =>
    by_cases h : n < base
    · rw [digits_lt h]; simp
    · rw [digits_step hb (by omega), List.foldl_append, ih _ (Nat.div_lt_self (by omega) (by omega))]
      simp only [List.foldl_cons, List.foldl_nil]
      rw [Nat.mul_comm]
      exact Nat.div_add_mod n base

theorem digits_head {base : Nat} (hb : 2 ≤ base) : ∀ n, n ≠ 0 → (digits base n).head? ≠ some 0 := by
  intro n
  induction n using Nat.strongRecOn with
  | _ n ih =>
    intro hn
    by_cases h : n < base
    · rw [digits_lt h]; simpa using hn
    · rw [digits_step hb (by omega)]
      have h1 : 0 < n / base := Nat.div_pos (by omega) (by omega)
      have := ih (n / base) (Nat.div_lt_self (by omega) (by omega)) (by omega)
      cases hd : digits base (n / base) with
      | nil => exact absurd hd (digits_ne_nil _ _)
      | cons a as => rw [hd] at this; simpa using this

theorem digitValue_char (upper : Bool) : ∀ d, d < 16 → digitValue (digitChar upper d) = d := by
  cases upper <;> decide +kernel

theorem readNumeral_aux {base : Nat} {upper : Bool} (hb : base ≤ 16) :
    ∀ (ds : List Nat) (acc : Nat), (∀ d ∈ ds, d < base) →
    (ds.map (digitChar upper)).foldl (fun acc c => acc * base + digitValue c) acc =
      ds.foldl (fun acc d => acc * base + d) acc := by
  intro ds
  induction ds with
  | nil => intro acc _; rfl
  | cons d ds ih =>
    intro acc h
    simp only [List.map_cons, List.foldl_cons]
    rw [digitValue_char upper d (by have := h d (by simp); omega)]
    exact ih _ (fun e he => h e (by simp [he]))

theorem readNumeral_zeros (base k : Nat) (x : List Byte) :
    readNumeral base (List.replicate k 48#8 ++ x) = readNumeral base x := by
  induction k with
  | zero => simp
  | succ k ih =>
    rw [← ih]
    unfold readNumeral
    simp only [List.replicate_succ, List.cons_append, List.foldl_cons]
    have : digitValue 48#8 = 0 := by decide
    rw [this]; simp

theorem readNumeral_padded {base : Nat} (hb : 2 ≤ base) (hb' : base ≤ 16) (upper : Bool) (w n : Nat) :
    readNumeral base (padded w (numeral base upper n)) = n := by
  unfold padded
  rw [readNumeral_zeros]
  unfold readNumeral numeral
  rw [readNumeral_aux hb' _ _ (digits_bound hb n), digits_foldl hb]

/-! ## Decimal digits in pairs -/

theorem lookup_pair : ∀ v, v < 100 → readRange (decimalLookup.map some) (v * 2) 2 =
    .ret [some (digitChar false (v / 10)), some (digitChar false (v % 10))] := by decide +kernel

theorem putPair_ok {buf done : List (Cell Byte)} {junk : List (Cell Byte)} {v p i : Nat} (hv : v < 100)
    (hi : i = v * 2) (hp : junk.length = p) (h2 : 2 ≤ p) (hb : buf = junk ++ done) :
    putPair buf p i = .ret (junk.take (p - 2) ++
      ([some (digitChar false (v / 10)), some (digitChar false (v % 10))] ++ done), p - 2) := by
  subst hi hb
  unfold putPair
  rw [if_neg (by omega), lookup_pair v hv, Out.ret_bind']
  have hs : junk ++ done = junk.take (p - 2) ++ junk.drop (p - 2) ++ done := by
    rw [List.take_append_drop]
  have hl : p - 2 = (junk.take (p - 2)).length := by rw [List.length_take]; omega
  rw [hs]
  have := writeRange_at (pre := junk.take (p - 2)) (mid := junk.drop (p - 2)) (post := done)
    (xs := [some (digitChar false (v / 10)), some (digitChar false (v % 10))])
    (by rw [List.length_drop]; simp; omega)
  rw [← hl] at this
  rw [this, Out.ret_bind']
  simp

theorem digits_pair {v : Nat} (h : 100 ≤ v) :
    digits 10 v = digits 10 (v / 100) ++ [v % 100 / 10, v % 100 % 10] := by
  rw [digits_step (by omega) (by omega : 10 ≤ v), digits_step (by omega) (by omega : 10 ≤ v / 10)]
  have h1 : v / 10 / 10 = v / 100 := by omega
  have h2 : v / 10 % 10 = v % 100 / 10 := by omega
  have h3 : v % 10 = v % 100 % 10 := by omega
  rw [h1, h2, h3]; simp

theorem decLoop_ok : ∀ (fuel : Nat) {buf junk done : List (Cell Byte)} {p value : Nat},
    buf = junk ++ done → junk.length = p → p % 2 = 0 → 2 ≤ p → value < 10 ^ p →
    value < 18446744073709551616 → p < fuel →
    ∃ junk' ds p' r, decLoop fuel buf p value =
        .ret (junk' ++ (ds.map fun d => some (digitChar false d)) ++ done, p', r) ∧
      junk'.length = p' ∧ 2 ≤ p' ∧ r < 100 ∧ p = p' + ds.length ∧
      digits 10 value = digits 10 r ++ ds := by
  intro fuel
  induction fuel with
  | zero => intro buf junk done p value _ _ _ _ _ _ h; omega
  | succ fuel ih =>
    intro buf junk done p value hb hj he h2 hv hw hfuel
    simp only [decLoop]
    by_cases hge : value ≥ 100
    · rw [if_pos hge]
      have hp4 : 4 ≤ p := by
        have : p ≠ 2 := by intro h; subst h; omega
        omega
      have hm : mul64 (value / 100) 100 = value / 100 * 100 := mul64_eq (by omega)
      have hs : sub64 value (value / 100 * 100) = value % 100 := by
        rw [sub64_eq (by omega) hw]; omega
      have hm2 : mul64 (value % 100) 2 = value % 100 * 2 := mul64_eq (by omega)
      rw [hm, hs, hm2, putPair_ok (v := value % 100) (Nat.mod_lt _ (by omega)) rfl hj h2 hb,
        Out.ret_bind']
      have hpow : value / 100 < 10 ^ (p - 2) := by
        rw [Nat.div_lt_iff_lt_mul (by omega)]
        have : 10 ^ p = 10 ^ (p - 2) * 100 := by
          rw [show (100 : Nat) = 10 ^ 2 from rfl, ← Nat.pow_add]; congr 1; omega
        omega
      obtain ⟨junk', ds, p', r, e, hj', hp', hr, hpp, hd⟩ := ih (junk := junk.take (p - 2))
        (done := [some (digitChar false (value % 100 / 10)), some (digitChar false (value % 100 % 10))] ++ done)
        (p := p - 2) (value := value / 100) rfl (by rw [List.length_take]; omega) (by omega) (by omega) hpow
        (by omega) (by omega)
      refine ⟨junk', ds ++ [value % 100 / 10, value % 100 % 10], p', r, ?_, hj', hp', hr, ?_, ?_⟩
      · rw [e]; simp
      · simp; omega
      · rw [digits_pair hge, hd]; simp
    · rw [if_neg hge]
      exact ⟨junk, [], p, value, by rw [hb]; simp, hj, h2, by omega, by simp, by simp⟩

/-- The characters that end up in the local buffer. -/
theorem decBuffer_ok {maxchars value : Nat} (he : maxchars % 2 = 0) (h2 : 2 ≤ maxchars)
    (hv : value < 10 ^ maxchars) (hw : value < 18446744073709551616) :
    ∃ buf0 p0 r buf p, decLoop (maxchars + 1) (List.replicate maxchars none) maxchars value =
        .ret (buf0, p0, r) ∧ putPair buf0 p0 (mul64 r 2) = .ret (buf, p) ∧
      buf.drop (p + if r < 10 then 1 else 0) = (numeral 10 false value).map some ∧
      maxchars - p - (if r < 10 then 1 else 0) = (numeral 10 false value).length := by
  obtain ⟨junk', ds, p', r, e, hj', hp', hr, hpp, hd⟩ := decLoop_ok (maxchars + 1)
    (buf := List.replicate maxchars none) (junk := List.replicate maxchars none) (done := [])
    (p := maxchars) (value := value) (by simp) (by simp) he h2 hv hw (by omega)
  have hm : mul64 r 2 = r * 2 := mul64_eq (by omega)
  have hput := putPair_ok (buf := junk' ++ (ds.map fun d => some (digitChar false d)) ++ [])
    (done := (ds.map fun d => some (digitChar false d)) ++ []) (junk := junk') (v := r) (p := p')
    (i := r * 2) hr rfl hj' hp' (by rw [List.append_assoc])
  refine ⟨_, p', r, _, p' - 2, e, by rw [hm]; exact hput, ?_, ?_⟩
  · have hl : (junk'.take (p' - 2)).length = p' - 2 := by rw [List.length_take]; omega
    rw [← List.drop_drop]
    have h1 : (junk'.take (p' - 2) ++ ([some (digitChar false (r / 10)), some (digitChar false (r % 10))] ++
        ((ds.map fun d => some (digitChar false d)) ++ []))).drop (p' - 2) =
        [some (digitChar false (r / 10)), some (digitChar false (r % 10))] ++
        ((ds.map fun d => some (digitChar false d)) ++ []) := by
      conv => lhs; rw [← hl]
      rw [hl]
      exact List.drop_left' hl
    rw [h1]
    unfold numeral
    rw [hd]
    by_cases h10 : r < 10
    · rw [if_pos h10, digits_lt h10]
      have : r % 10 = r := by omega
      simp [this]
    · rw [if_neg h10, digits_step (by omega) (by omega : 10 ≤ r), digits_lt (by omega : r / 10 < 10)]
      simp
  · unfold numeral
    rw [List.length_map, hd]
    by_cases h10 : r < 10
    · rw [if_pos h10, digits_lt h10]; simp; omega
    · rw [if_neg h10, digits_step (by omega) (by omega : 10 ≤ r), digits_lt (by omega : r / 10 < 10)]
      simp; omega

theorem digits_length {base : Nat} (hb : 2 ≤ base) : ∀ (k n : Nat), n < base ^ (k + 1) →
    (digits base n).length ≤ k + 1 := by
  intro k
  induction k with
  | zero => intro n h; rw [digits_lt (by simpa using h)]; simp
  | succ k ih =>
    intro n h
    by_cases hn : n < base
    · rw [digits_lt hn]; simp
    · rw [digits_step hb (by omega)]
      have : n / base < base ^ (k + 1) := by
        rw [Nat.div_lt_iff_lt_mul (by omega), ← Nat.pow_succ]; exact h
      have := ih _ this
      simp; omega

/-! ## Storage -/

/-- Outcome of appending the characters `x` of a number. -/
def NumRes (P : Params) (res : Out (Status × Str)) (a : SState) (x : List (Cell Byte)) : Prop :=
  (a.text.length + x.length + 1 ≤ a.bytes → SRes P res stSuccess ⟨a.text ++ x, a.bytes⟩) ∧
  (a.bytes < a.text.length + x.length + 1 → P.allocator = none → SRes P res stInsufficient a) ∧
  (a.bytes < a.text.length + x.length + 1 → P.allocator ≠ none →
    ∃ c, a.text.length + x.length + 1 ≤ c ∧ c < 18446744073709551616 ∧
      SRes P res stSuccess ⟨a.text ++ x, c⟩)

theorem SFits.lt {n : Nat} (h : SFits n) : n < 18446744073709551616 := by
  unfold SFits at h; omega

/-- `ZyanStringResize` to a length that is not smaller. -/
theorem grow_step {P : Params} {t : Str} {pre junk : List (Cell Byte)} {c : Nat} {b : Block Byte}
    {sl : List (Cell Byte)} (R : SRep P t ⟨pre ++ junk, c⟩ b sl) {n : Nat}
    (hn : (pre ++ junk).length ≤ n) (hf : SFits (n + 1)) :
    (n + 1 ≤ c ∨ P.allocator ≠ none → ∃ junk' c' t' b' sl', strResize t n = .ret (stSuccess, t') ∧
      SRep P t' ⟨pre ++ junk', c'⟩ b' sl' ∧ n + 1 ≤ c' ∧ (pre ++ junk').length = n ∧
      (c' < 18446744073709551616 ∨ c' = c)) ∧
    (c < n + 1 → P.allocator = none → ∃ t' b' sl', strResize t n = .ret (stInsufficient, t') ∧
      SRep P t' ⟨pre ++ junk, c⟩ b' sl') := by
  obtain ⟨jk, st, t', a', b', sl', hj, hstep, hop, R'⟩ := sop_ok R (.resize n) hf
  have hop' : strResize t n = .ret (st, t') := hop
  have hlen := R.rep.len
  simp only [List.length_append, List.length_singleton] at hlen hn
  have hg := R.rep.growth255
  have hg1 := R.rep.growth1
  have hf' := hf
  unfold SFits at hf'
  simp only [sjunkLen, List.length_append] at hj
  simp only [sstep, List.length_append] at hstep
  by_cases he : n = pre.length + junk.length
  · rw [if_pos he] at hstep
    injection hstep with h1 h2
    subst h1 h2
    constructor
    · intro _
      exact ⟨junk, c, t', b', sl', hop', R', by omega, by simp; omega, Or.inr rfl⟩
    · intro h; omega
  · rw [if_neg he, if_neg (by omega)] at hstep
    by_cases hle : n + 1 ≤ c
    · rw [extend, if_pos hle] at hstep
      simp only at hstep
      injection hstep with h1 h2
      subst h1 h2
      have hc' : n + 1 ≤ trim P c (n + 1) ∧ (trim P c (n + 1) < 18446744073709551616 ∨ trim P c (n + 1) = c) := by
        unfold trim
        split
        · have h1 : (n + 1) * P.growth ≤ (n + 1) * 255 := Nat.mul_le_mul_left _ hg
          have h2 : n + 1 ≤ (n + 1) * P.growth := Nat.le_mul_of_pos_right _ hg1
          omega
        · omega
      refine ⟨fun _ => ⟨junk ++ jk, trim P c (n + 1), t', b', sl', hop', ?_, hc'.1, by simp; omega, hc'.2⟩,
        fun h => by omega⟩
      rw [← List.append_assoc]; exact R'
    · rw [extend, if_neg hle, room, if_neg hle] at hstep
      constructor
      · intro hd
        have hd : P.allocator ≠ none := by
          rcases hd with h | h
          · exact absurd h hle
          · exact h
        rw [if_pos (Option.isSome_iff_ne_none.2 hd)] at hstep
        simp only at hstep
        injection hstep with h1 h2
        subst h1 h2
        have h1 : (n + 1) * P.growth ≤ (n + 1) * 255 := Nat.mul_le_mul_left _ hg
        have h2 : n + 1 ≤ (n + 1) * P.growth := Nat.le_mul_of_pos_right _ hg1
        refine ⟨junk ++ jk, (n + 1) * P.growth, t', b', sl', hop', ?_, h2, by simp; omega,
          Or.inl (by omega)⟩
        rw [← List.append_assoc]; exact R'
      · intro _ hd
        rw [if_neg (by simp [hd])] at hstep
        simp only at hstep
        injection hstep with h1 h2
        subst h1 h2
        exact ⟨t', b', sl', hop', R'⟩

/-- Setting size and terminator after the characters `x` were written behind `pre`. -/
theorem finish_ok {P : Params} {t : Str} {a0 : SState} {c : Nat} {b : Block Byte}
    {sl : List (Cell Byte)} (R : SRep P t a0 b sl) (hc0 : c = a0.bytes)
    {pre x M : List (Cell Byte)} (hM : b.cells.length = (pre ++ x ++ M).length)
    (hc : pre.length + x.length + 1 ≤ c) (hf : SFits (pre.length + x.length + 1)) {n : Nat}
    (hn : n = pre.length + x.length + 1) :
    SRes P ((nullTerminate ⟨⟨{ t.s.v with data := some ⟨b.id, pre ++ x ++ M⟩, size := n }, t.s.w⟩,
      t.fixed⟩).bind fun t => .ret (stSuccess, t)) stSuccess ⟨pre ++ x, c⟩ := by
  subst hc0
  have hroom := R.rep.room
  simp only at hroom
  simp only [List.length_append] at hM
  cases M with
  | nil => simp at hM; omega
  | cons old post =>
    have hl : (pre ++ x ++ [old]).length = pre.length + x.length + 1 := by simp; omega
    have h3 : pre ++ x ++ old :: post = pre ++ x ++ [old] ++ post := by simp
    have R1 := R.rep.setSize (ys := pre ++ x ++ [old]) (rest := post) (n := n)
      (by rw [hM]; simp; omega) ((fits_iff R.one _).2 (by rw [hl]; exact hf)) (by rw [hl]; exact hc)
      (by rw [hl]; exact hn)
    obtain ⟨s', e, R2⟩ := nullTerminate_ok (t := ⟨⟨{ t.s.v with
      data := some ⟨b.id, pre ++ x ++ [old] ++ post⟩, size := n }, t.s.w⟩, t.fixed⟩) R1
    rw [h3, e, Out.ret_bind']
    exact ⟨_, _, _, rfl, ⟨R2, R.one, R.nod, R.fixed⟩⟩

theorem writeRange_tail {pre M xs : List (Cell Byte)} {i : Nat} (hi : i = pre.length)
    (h : xs.length ≤ M.length) :
    writeRange (pre ++ M) i xs = .ret (pre ++ xs ++ M.drop xs.length) := by
  subst hi
  have hs : pre ++ M = pre ++ M.take xs.length ++ M.drop xs.length := by
    rw [List.append_assoc, List.take_append_drop]
  rw [hs]
  exact writeRange_at (by rw [List.length_take]; omega)

theorem vecMemset_ok {v : Vec Byte} {b : Block Byte} (hd : v.data = some b) {pre M : List (Cell Byte)}
    (hb : b.cells = pre ++ M) {i n : Nat} (hi : i = pre.length) (h : n ≤ M.length) (c : Byte) :
    vecMemset v i c n =
      .ret { v with data := some ⟨b.id, pre ++ List.replicate n (some c) ++ M.drop n⟩ } := by
  unfold vecMemset
  rw [hd]
  simp only [withData]
  rw [hb, writeRange_tail hi (by simpa using h), Out.ret_bind']
  simp

theorem vecMemcpy_tail {v : Vec Byte} {b : Block Byte} (hd : v.data = some b) {pre M ys : List (Cell Byte)}
    (hb : b.cells = pre ++ M) {i n : Nat} (hi : i = pre.length) (hn : n = ys.length)
    (h : ys.length ≤ M.length) :
    vecMemcpy v i (.ext ys) n =
      .ret { v with data := some ⟨b.id, pre ++ ys ++ M.drop ys.length⟩ } := by
  have := vecMemcpy_raw hd (pre := pre) (mid := M.take ys.length) (post := M.drop ys.length) (ys := ys)
    (rest := []) (by rw [hb, List.append_assoc, List.take_append_drop])
    (by rw [List.length_take]; omega) hi hn
  rw [List.append_nil] at this
  exact this

/-- The storage behind the text. -/
theorem SRep.tail {P : Params} {t : Str} {pre junk : List (Cell Byte)} {c : Nat} {b : Block Byte}
    {sl : List (Cell Byte)} (R : SRep P t ⟨pre ++ junk, c⟩ b sl) :
    ∃ M, b.cells = pre ++ M ∧ c ≤ pre.length + M.length := by
  refine ⟨junk ++ [some 0#8] ++ sl, ?_, ?_⟩
  · rw [R.rep.cells]; simp
  · have h1 := R.rep.room
    have h2 := R.rep.cells
    simp only at h1
    rw [h2] at h1
    simp only [List.length_append] at *
    omega

/-! ## Decimal -/

theorem dec_res {P : Params} {t : Str} {a : SState} {b : Block Byte} {sl : List (Cell Byte)}
    (R : SRep P t a b sl) {maxchars value padding : Nat} (he : maxchars % 2 = 0) (h2 : 2 ≤ maxchars)
    (h20 : maxchars ≤ 20) (hv : value < 10 ^ maxchars) (hw : value < 18446744073709551616)
    (hp : padding ≤ 255) (hf : SFits (a.text.length + 300)) :
    NumRes P (strAppendDecWith maxchars t value padding) a
      ((padded padding (numeral 10 false value)).map some) := by
  obtain ⟨buf0, p0, r, buf, p, e1, e2, hdrop, hlen⟩ := decBuffer_ok he h2 hv hw
  have hf' := hf
  unfold SFits at hf'
  generalize hnum : numeral 10 false value = num at *
  have hnl : num.length ≤ 20 := by
    have := digits_length (base := 10) (by omega) (maxchars - 1) value
      (by rw [show maxchars - 1 + 1 = maxchars by omega]; exact hv)
    rw [← hnum]
    unfold numeral
    rw [List.length_map]; omega
  have hx : ((padded padding num).map (some : Byte → Cell Byte)).length = max num.length padding := by
    unfold padded; simp; omega
  have hadd : add64 (a.text.length + 1) (max num.length padding) =
      a.text.length + 1 + max num.length padding := add64_eq (by omega)
  have hsub : sub64 (a.text.length + 1 + max num.length padding) 1 =
      a.text.length + max num.length padding := by
    rw [sub64_eq (by omega) (by omega)]; omega
  have hsub1 : sub64 (a.text.length + 1) 1 = a.text.length := by
    rw [sub64_eq (by omega) (by omega)]; omega
  -- the rest of the function once there is enough room
  have rest : ∀ {t1 : Str} {junk : List (Cell Byte)} {c : Nat} {b1 : Block Byte} {sl1 : List (Cell Byte)},
      SRep P t1 ⟨a.text ++ junk, c⟩ b1 sl1 → a.text.length + max num.length padding + 1 ≤ c →
      SRes P
        ((if padding > num.length then vecMemset t1.s.v a.text.length 48#8
            (if padding > num.length then padding - num.length else 0) else .ret t1.s.v).bind fun v =>
          (vecMemcpy v (sub64 (add64 (a.text.length + 1)
            (if padding > num.length then padding - num.length else 0)) 1) (.ext (num.map some))
            num.length).bind fun v =>
          (nullTerminate { t1 with s := { t1.s with v :=
            { v with size := a.text.length + 1 + max num.length padding } } }).bind fun t =>
          .ret (stSuccess, t))
        stSuccess ⟨a.text ++ (padded padding num).map some, c⟩ := by
    intro t1 junk c b1 sl1 R1 hc
    obtain ⟨M, hM, hMl⟩ := R1.tail
    by_cases hpad : padding > num.length
    · rw [if_pos hpad, if_pos hpad, vecMemset_ok R1.rep.data hM rfl (by omega), Out.ret_bind']
      have hoff : sub64 (add64 (a.text.length + 1) (padding - num.length)) 1 =
          (a.text ++ List.replicate (padding - num.length) (some 48#8)).length := by
        rw [add64_eq (by omega), sub64_eq (by omega) (by omega), List.length_append, List.length_replicate]
        omega
      rw [vecMemcpy_tail rfl (pre := a.text ++ List.replicate (padding - num.length) (some 48#8))
        (M := M.drop (padding - num.length)) rfl hoff (by simp) (by simp; omega), Out.ret_bind']
      have hpx : (padded padding num).map (some : Byte → Cell Byte) =
          List.replicate (padding - num.length) (some 48#8) ++ num.map some := by
        unfold padded; simp
      rw [hpx] at hx ⊢
      have := finish_ok R1 (c := c) rfl (pre := a.text)
        (x := List.replicate (padding - num.length) (some 48#8) ++ num.map some)
        (M := (M.drop (padding - num.length)).drop (num.map (some : Byte → Cell Byte)).length)
        (by rw [hM]; simp; omega) (by rw [hx]; omega) (by rw [hx]; exact hf.mono (by omega))
        (n := a.text.length + 1 + max num.length padding) (by rw [hx]; omega)
      simp only [List.append_assoc] at this ⊢
      exact this
    · rw [if_neg hpad, if_neg hpad, Out.ret_bind']
      have hoff : sub64 (add64 (a.text.length + 1) 0) 1 = a.text.length := by
        rw [add64_eq (by omega), sub64_eq (by omega) (by omega)]; rfl
      rw [vecMemcpy_tail R1.rep.data hM hoff (by simp) (by simp; omega), Out.ret_bind']
      have hpx : (padded padding num).map (some : Byte → Cell Byte) = num.map some := by
        unfold padded
        rw [show padding - num.length = 0 by omega]; simp
      rw [hpx] at hx ⊢
      exact finish_ok R1 (c := c) rfl (pre := a.text) (x := num.map some)
        (M := M.drop (num.map (some : Byte → Cell Byte)).length)
        (by rw [hM]; simp; omega) (by rw [hx]; omega) (by rw [hx]; exact hf.mono (by omega))
        (n := a.text.length + 1 + max num.length padding) (by rw [hx]; omega)
  have hR0 : SRep P t ⟨a.text ++ [], a.bytes⟩ b sl := by rw [List.append_nil]; exact R
  have hcap : t.s.v.cap = a.bytes := R.rep.cap
  unfold NumRes
  rw [hx]
  unfold strAppendDecWith
  rw [e1, Out.ret_bind']
  simp only
  rw [e2, Out.ret_bind']
  simp only
  rw [hlen, hdrop, R.size, hadd, hcap, hsub, hsub1]
  obtain ⟨g1, g2⟩ := grow_step hR0 (n := a.text.length + max num.length padding) (by simp)
    (hf.mono (by omega))
  refine ⟨fun h => ?_, fun h hd => ?_, fun h hd => ?_⟩
  · rw [if_neg (by omega), Out.ret_bind']
    simp only [failed_success, Bool.false_eq_true, if_false]
    exact rest hR0 (by omega)
  · obtain ⟨t', b', sl', e, R'⟩ := g2 (by omega) hd
    rw [if_pos (by omega), e, Out.ret_bind']
    simp only [failed_insufficient, if_true]
    rw [List.append_nil] at R'
    exact ⟨t', b', sl', rfl, R'⟩
  · obtain ⟨junk', c', t', b', sl', e, R', hc', _, hlt⟩ := g1 (Or.inr hd)
    refine ⟨c', hc', by omega, ?_⟩
    rw [if_pos (by omega), e, Out.ret_bind']
    simp only [failed_success, Bool.false_eq_true, if_false]
    exact rest R' hc'

/-! ## Hexadecimal -/

/-- The lowest `i` nibbles, most significant first. -/
def nibs (value : Nat) : Nat → List Nat
  | 0 => []
  | i + 1 => value / 16 ^ i % 16 :: nibs value i

theorem nibs_length (value : Nat) : ∀ i, (nibs value i).length = i
  | 0 => rfl
  | i + 1 => by rw [nibs, List.length_cons, nibs_length value i]

theorem nibs_snoc (value : Nat) : ∀ i, nibs value (i + 1) = nibs (value / 16) i ++ [value % 16]
  | 0 => by simp [nibs]
  | i + 1 => by
    rw [nibs, nibs_snoc value i, nibs, List.cons_append, Nat.div_div_eq_div_mul, Nat.pow_succ,
      Nat.mul_comm]

theorem nibs_digits : ∀ (k value : Nat), 16 ^ k ≤ value → value < 16 ^ (k + 1) →
    digits 16 value = nibs value (k + 1)
  | 0, value, _, h => by
    have h : value < 16 := by simpa using h
    rw [digits_lt h]; simp [nibs]; omega
  | k + 1, value, h1, h2 => by
    have hge : 16 ≤ value := by
      have : 16 ^ 1 ≤ 16 ^ (k + 1) := Nat.pow_le_pow_right (by omega) (by omega)
      omega
    rw [digits_step (by omega) hge, nibs_snoc, nibs_digits k (value / 16)]
    · rw [Nat.le_div_iff_mul_le (by omega), ← Nat.pow_succ]; exact h1
    · rw [Nat.div_lt_iff_lt_mul (by omega), ← Nat.pow_succ]; exact h2

theorem nibble_eq (value i : Nat) : (value >>> (i * 4)) &&& 0x0F = value / 16 ^ i % 16 := by
  rw [Nat.shiftRight_eq_div_pow, show (0x0F : Nat) = 2 ^ 4 - 1 from rfl, Nat.and_two_pow_sub_one_eq_mod,
    Nat.mul_comm, Nat.pow_mul]

theorem hexTable_get (upper : Bool) : ∀ v, v < 16 → (hexTable upper)[v]? = some (digitChar upper v) := by
  cases upper <;> decide +kernel

theorem putHex_ok {t : Str} {b : Block Byte} (hd : t.s.v.data = some b) {pre w M : List (Cell Byte)}
    (hb : b.cells = pre ++ w ++ M) {n v : Nat} (hn : n = w.length) (hv : v < 16) (hM : 1 ≤ M.length)
    (h255 : n < 255) (upper : Bool) :
    putHex upper t (some pre.length) n v = .ret (⟨⟨{ t.s.v with
      data := some ⟨b.id, pre ++ (w ++ [some (digitChar upper v)]) ++ M.drop 1⟩ }, t.s.w⟩, t.fixed⟩, n + 1) := by
  unfold putHex
  simp only
  rw [hexTable_get upper v hv]
  simp only
  unfold strPoke
  rw [hd]
  simp only [withData]
  cases M with
  | nil => simp at hM
  | cons m M =>
    rw [hb, if_pos (by simp; omega), Out.ret_bind', Nat.mod_eq_of_lt (by omega),
      List.set_append_right _ _ (by simp; omega)]
    simp [hn]

/-- The loop once the first digit has been written. -/
theorem hexLoop_tail (upper : Bool) (value len padding remaining : Nat) : ∀ (i : Nat) {t : Str}
    {b : Block Byte} {pre w M : List (Cell Byte)} {n : Nat},
    t.s.v.data = some b → b.cells = pre ++ w ++ M → n = w.length → n ≠ 0 → n + i ≤ 255 → i ≤ M.length →
    hexLoop upper value len padding remaining i t n (some pre.length) =
      .ret (stSuccess, ⟨⟨{ t.s.v with data := some ⟨b.id,
        pre ++ (w ++ (nibs value i).map fun d => some (digitChar upper d)) ++ M.drop i⟩ }, t.s.w⟩, t.fixed⟩,
        n + i) := by
  intro i
  induction i with
  | zero =>
    intro t b pre w M n hd hb hn h0 h255 hM
    simp only [hexLoop, nibs, List.map_nil, List.append_nil, List.drop_zero, Nat.add_zero]
    rw [← hb]
    have : (⟨b.id, b.cells⟩ : Block Byte) = b := rfl
    rw [this, ← hd]
  | succ i ih =>
    intro t b pre w M n hd hb hn h0 h255 hM
    simp only [hexLoop]
    rw [if_neg h0, nibble_eq, putHex_ok hd hb hn (Nat.mod_lt _ (by omega)) (by omega) (by omega) upper,
      Out.ret_bind']
    simp only
    rw [ih (b := ⟨b.id, pre ++ (w ++ [some (digitChar upper (value / 16 ^ i % 16))]) ++ M.drop 1⟩) rfl rfl
      (by simp; omega) (by omega) (by omega) (by simp; omega)]
    simp only [nibs, List.map_cons, List.append_assoc, List.singleton_append, List.drop_drop]
    rw [Nat.add_comm 1 i, Nat.add_right_comm n 1 i]
    rfl

/-- The first digit that is not zero is reached. -/
theorem hexLoop_skip (upper : Bool) {value len padding remaining : Nat} (h0 : value ≠ 0) (t : Str) :
    ∀ i, value < 16 ^ i → ∃ k, 16 ^ k ≤ value ∧ value < 16 ^ (k + 1) ∧ k < i ∧
      value / 16 ^ k % 16 = value / 16 ^ k ∧ 0 < value / 16 ^ k ∧
      hexLoop upper value len padding remaining i t 0 none =
        hexLoop upper value len padding remaining (k + 1) t 0 none := by
  intro i
  induction i with
  | zero => intro h; simp at h; omega
  | succ i ih =>
    intro h
    by_cases hk : 16 ^ i ≤ value
    · have h1 : 0 < value / 16 ^ i := Nat.div_pos hk (Nat.pow_pos (by omega))
      have h2 : value / 16 ^ i < 16 := by
        rw [Nat.div_lt_iff_lt_mul (Nat.pow_pos (by omega)), Nat.mul_comm, ← Nat.pow_succ]; exact h
      exact ⟨i, hk, h, by omega, Nat.mod_eq_of_lt h2, h1, rfl⟩
    · obtain ⟨k, h1, h2, h3, h4, h5, h6⟩ := ih (by omega)
      refine ⟨k, h1, h2, by omega, h4, h5, ?_⟩
      rw [← h6]
      conv => lhs; rw [hexLoop]
      simp only [if_true]
      rw [nibble_eq, Nat.div_eq_of_lt (by omega), if_pos (by omega)]

theorem high_half {value : Nat} (h : value < 18446744073709551616)
    (hz : ¬ (value &&& 0xFFFFFFFF00000000 ≠ 0)) : value < 16 ^ 8 := by
  have hz : value &&& 0xFFFFFFFF00000000 = 0 := by simpa using hz
  have h1 : (value &&& 0xFFFFFFFF00000000) >>> 32 = value / 2 ^ 32 % 2 ^ 32 := by
    rw [Nat.shiftRight_and_distrib, Nat.shiftRight_eq_div_pow, Nat.shiftRight_eq_div_pow,
      show (0xFFFFFFFF00000000 : Nat) / 2 ^ 32 = 2 ^ 32 - 1 from by decide, Nat.and_two_pow_sub_one_eq_mod]
  rw [hz] at h1
  simp at h1
  omega

theorem sub64_one {n : Nat} (h : n + 1 < 18446744073709551616) : sub64 (n + 1) 1 = n := by
  rw [sub64_eq (by omega) h]; omega

theorem hex_res {P : Params} {t : Str} {a : SState} {b : Block Byte} {sl : List (Cell Byte)}
    (R : SRep P t a b sl) {nibbles value padding : Nat} (h16 : nibbles ≤ 16)
    (hv : value < 16 ^ nibbles) (hp : padding ≤ 255) (hf : SFits (a.text.length + 300))
    (hb : a.bytes < 18446744073709551616) (upper : Bool) :
    NumRes P (strAppendHexWith nibbles t value padding upper) a
      ((padded padding (numeral 16 upper value)).map some) := by
  have hf' := hf
  unfold SFits at hf'
  have hcap : t.s.v.cap = a.bytes := R.rep.cap
  have hlen : a.text.length + 1 ≤ a.bytes := by have := R.rep.len; simpa using this
  have hR0 : SRep P t ⟨a.text ++ [], a.bytes⟩ b sl := by rw [List.append_nil]; exact R
  have hx : ((padded padding (numeral 16 upper value)).map (some : Byte → Cell Byte)).length =
      max (numeral 16 upper value).length padding := by
    unfold padded; simp; omega
  have hpx : (padded padding (numeral 16 upper value)).map (some : Byte → Cell Byte) =
      List.replicate (padding - (numeral 16 upper value).length) (some 48#8) ++
        (numeral 16 upper value).map some := by unfold padded; simp
  -- the writing part, with enough room
  have zero : ∀ {t1 : Str} {junk : List (Cell Byte)} {c n : Nat} {b1 : Block Byte} {sl1 : List (Cell Byte)},
      SRep P t1 ⟨a.text ++ junk, c⟩ b1 sl1 → a.text.length + n + 1 ≤ c → n ≤ 255 →
      SRes P ((vecMemset t1.s.v a.text.length 48#8 n).bind fun v =>
        hexFinish { t1 with s := { t1.s with v := v } } (a.text.length + 1) n) stSuccess
        ⟨a.text ++ List.replicate n (some 48#8), c⟩ := by
    intro t1 junk c n b1 sl1 R1 hc hn
    obtain ⟨M, hM, hMl⟩ := R1.tail
    rw [vecMemset_ok R1.rep.data hM rfl (by omega), Out.ret_bind']
    unfold hexFinish
    rw [add64_eq (by omega)]
    exact finish_ok R1 (c := c) rfl (pre := a.text) (x := List.replicate n (some 48#8)) (M := M.drop n)
      (by rw [hM]; simp; omega) (by simp; omega) (hf.mono (by simp; omega)) (by simp; omega)
  have wr : ∀ {t1 : Str} {junk : List (Cell Byte)} {c k rem : Nat} {b1 : Block Byte} {sl1 : List (Cell Byte)},
      SRep P t1 ⟨a.text ++ junk, c⟩ b1 sl1 → 16 ^ k ≤ value → value < 16 ^ (k + 1) → k < 16 →
      value / 16 ^ k < 16 → value / 16 ^ k % 16 = value / 16 ^ k →
      a.text.length + max (k + 1) padding + 1 ≤ c →
      SRes P
        (((if padding > k then vecMemset t1.s.v a.text.length 48#8 (if padding > k then padding - k - 1 else 0)
            else .ret t1.s.v).bind fun vec =>
          (putHex upper { t1 with s := { t1.s with v := vec } } (some a.text.length)
            (if padding > k then padding - k - 1 else 0) (value / 16 ^ k)).bind fun q =>
          hexLoop upper value (a.text.length + 1) padding rem k q.1 q.2 (some a.text.length)).bind fun r =>
        if failed r.1 then .ret (r.1, r.2.1) else hexFinish r.2.1 (a.text.length + 1) r.2.2) stSuccess
        ⟨a.text ++ (padded padding (numeral 16 upper value)).map some, c⟩ := by
    intro t1 junk c k rem b1 sl1 R1 hk1 hk2 hk16 hd16 hmod hc
    obtain ⟨M, hM, hMl⟩ := R1.tail
    have hdig : (numeral 16 upper value).length = k + 1 := by
      unfold numeral; rw [List.length_map, nibs_digits k value hk1 hk2, nibs_length]
    rw [hpx] at hx ⊢
    rw [hdig] at hx ⊢
    have hnum : (numeral 16 upper value).map (some : Byte → Cell Byte) =
        some (digitChar upper (value / 16 ^ k)) :: (nibs value k).map fun d => some (digitChar upper d) := by
      unfold numeral
      rw [nibs_digits k value hk1 hk2, nibs, List.map_map, List.map_cons, hmod]
      rfl
    have hZ : (if padding > k then padding - k - 1 else 0) = padding - (k + 1) := by split <;> omega
    rw [hZ]
    have hset : (if padding > k then vecMemset t1.s.v a.text.length 48#8 (padding - (k + 1))
        else .ret t1.s.v) = .ret { t1.s.v with data := some ⟨b1.id,
          a.text ++ List.replicate (padding - (k + 1)) (some 48#8) ++ M.drop (padding - (k + 1))⟩ } := by
      by_cases hpk : padding > k
      · rw [if_pos hpk, vecMemset_ok R1.rep.data hM rfl (by omega)]
      · rw [if_neg hpk, show padding - (k + 1) = 0 by omega]
        simp only [List.replicate_zero, List.append_nil, List.drop_zero]
        rw [← hM, ← R1.rep.data]
    rw [hset, Out.ret_bind']
    have hput := putHex_ok (t := ⟨⟨{ t1.s.v with data := some ⟨b1.id,
          a.text ++ List.replicate (padding - (k + 1)) (some 48#8) ++ M.drop (padding - (k + 1))⟩ }, t1.s.w⟩,
          t1.fixed⟩) rfl (pre := a.text) (w := List.replicate (padding - (k + 1)) (some 48#8))
      (M := M.drop (padding - (k + 1))) rfl (n := padding - (k + 1)) (v := value / 16 ^ k) (by simp) hd16
      (by rw [List.length_drop]; omega) (by omega) upper
    rw [hput, Out.ret_bind']
    have htail := hexLoop_tail upper value (a.text.length + 1) padding rem k
      (t := ⟨⟨{ t1.s.v with data := some ⟨b1.id, a.text ++ (List.replicate (padding - (k + 1)) (some 48#8) ++
        [some (digitChar upper (value / 16 ^ k))]) ++ (M.drop (padding - (k + 1))).drop 1⟩ }, t1.s.w⟩, t1.fixed⟩)
      rfl (pre := a.text) (w := List.replicate (padding - (k + 1)) (some 48#8) ++
        [some (digitChar upper (value / 16 ^ k))]) (M := (M.drop (padding - (k + 1))).drop 1) rfl
      (n := padding - (k + 1) + 1) (by simp) (by omega) (by omega)
      (by rw [List.length_drop, List.length_drop]; omega)
    rw [htail, Out.ret_bind']
    simp only [failed_success, Bool.false_eq_true, if_false]
    unfold hexFinish
    rw [add64_eq (by omega)]
    have hfin := finish_ok R1 (c := c) rfl (pre := a.text)
      (x := List.replicate (padding - (k + 1)) (some 48#8) ++ (numeral 16 upper value).map some)
      (M := ((M.drop (padding - (k + 1))).drop 1).drop k)
      (by rw [hM]; simp; omega) (by rw [hx]; omega) (by rw [hx]; exact hf.mono (by omega))
      (n := a.text.length + 1 + (padding - (k + 1) + 1 + k)) (by rw [hx]; omega)
    rw [hnum] at hfin ⊢
    simp only [List.append_assoc, List.cons_append, List.nil_append] at hfin ⊢
    exact hfin
  -- what follows the first resize
  have main : ∀ {t1 : Str} {junk : List (Cell Byte)} {c rem : Nat} {b1 : Block Byte} {sl1 : List (Cell Byte)},
      SRep P t1 ⟨a.text ++ junk, c⟩ b1 sl1 → a.text.length + 1 + rem ≤ c → padding ≤ rem →
      junk.length ≤ padding → (c < 18446744073709551616) →
      (junk = [] ∧ c = a.bytes ∧ rem = a.bytes - (a.text.length + 1) ∨
        P.allocator ≠ none ∧ a.bytes < a.text.length + 1 + padding ∧ junk.length = padding) →
      NumRes P
        (if value = 0 then
          (if rem < (if padding ≠ 0 then padding else 1) then
            strResize t1 (sub64 (add64 t1.s.v.size (if padding ≠ 0 then padding else 1)) 1)
           else .ret (stSuccess, t1)).bind fun r =>
          if failed r.1 then .ret r
          else (vecMemset r.2.s.v a.text.length 48#8 (if padding ≠ 0 then padding else 1)).bind fun v =>
            hexFinish { r.2 with s := { r.2.s with v := v } } (a.text.length + 1)
              (if padding ≠ 0 then padding else 1)
        else
          (hexLoop upper value (a.text.length + 1) padding rem nibbles t1 0 none).bind fun r =>
          if failed r.1 then .ret (r.1, r.2.1) else hexFinish r.2.1 (a.text.length + 1) r.2.2)
        a ((padded padding (numeral 16 upper value)).map some) := by
    intro t1 junk c rem b1 sl1 R1 hc hprem hjrem hc64 hor
    unfold NumRes
    by_cases hz : value = 0
    · rw [if_pos hz]
      have hnum : numeral 16 upper value = [48#8] := by
        subst hz
        unfold numeral
        rw [digits_lt (by omega)]
        cases upper <;> rfl
      have hrep : (padded padding (numeral 16 upper value)).map (some : Byte → Cell Byte) =
          List.replicate (if padding ≠ 0 then padding else 1) (some 48#8) := by
        rw [hnum]
        unfold padded
        by_cases hp0 : padding = 0
        · simp [hp0]
        · rw [if_pos hp0]
          simp only [List.length_singleton, List.map_append, List.map_replicate, List.map_cons, List.map_nil]
          rw [show [some 48#8] = List.replicate 1 (some 48#8) from rfl, List.replicate_append_replicate,
            Nat.sub_add_cancel (by omega)]
      rw [hrep]
      simp only [List.length_replicate]
      generalize hN : (if padding ≠ 0 then padding else 1) = N
      have hN1 : N = max padding 1 := by rw [← hN]; split <;> omega
      have hsz : t1.s.v.size = a.text.length + junk.length + 1 := by rw [R1.size]; simp
      rw [hsz, add64_eq (by omega), sub64_eq (by omega) (by omega),
        show a.text.length + junk.length + 1 + N - 1 = a.text.length + junk.length + N by omega]
      by_cases hlt : rem < N
      · rw [if_pos hlt]
        have hp0 : padding = 0 ∧ N = 1 ∧ rem = 0 ∧ junk.length = 0 := by omega
        rcases hor with ⟨hj, hcb, hrb⟩ | ⟨_, h, _⟩
        · refine ⟨fun h => by omega, fun h hd => ?_, fun h hd => ?_⟩
          · obtain ⟨t', b', sl', e, R'⟩ := (grow_step R1 (n := a.text.length + junk.length + N) (by rw [List.length_append]; omega)
              (hf.mono (by omega))).2 (by omega) hd
            rw [e, Out.ret_bind']
            simp only [failed_insufficient, if_true]
            rw [hj, List.append_nil, hcb] at R'
            exact ⟨t', b', sl', rfl, R'⟩
          · obtain ⟨junk', c', t', b', sl', e, R', hc', _, hlt'⟩ := (grow_step R1 (n := a.text.length + junk.length + N) (by rw [List.length_append]; omega)
              (hf.mono (by omega))).1 (Or.inr hd)
            refine ⟨c', by omega, by omega, ?_⟩
            rw [e, Out.ret_bind']
            simp only [failed_success, Bool.false_eq_true, if_false]
            exact zero R' (by omega) (by omega)
        · omega
      · rw [if_neg hlt, Out.ret_bind']
        simp only [failed_success, Bool.false_eq_true, if_false]
        have hres := zero R1 (n := N) (by omega) (by omega)
        rcases hor with ⟨hj, hcb, hrb⟩ | ⟨hd, h, _⟩
        · refine ⟨fun _ => by rw [← hcb]; exact hres, fun h => by omega, fun h => by omega⟩
        · exact ⟨fun h => by omega, fun _ hd' => absurd hd' hd, fun _ _ => ⟨c, by omega, hc64, hres⟩⟩
    · rw [if_neg hz]
      obtain ⟨k, hk1, hk2, hkn, hmod, hpos, hloop⟩ := hexLoop_skip upper (len := a.text.length + 1)
        (padding := padding) (remaining := rem) hz t1 nibbles hv
      have hdig : (numeral 16 upper value).length = k + 1 := by
        unfold numeral; rw [List.length_map, nibs_digits k value hk1 hk2, nibs_length]
      have hd16 : value / 16 ^ k < 16 := by
        rw [Nat.div_lt_iff_lt_mul (Nat.pow_pos (by omega)), Nat.mul_comm, ← Nat.pow_succ]; exact hk2
      rw [hx, hdig, hloop]
      simp only [hexLoop, if_true]
      rw [nibble_eq, hmod, if_neg (by omega), sub64_one (by omega)]
      have hsz : t1.s.v.size = a.text.length + junk.length + 1 := by rw [R1.size]; simp
      rw [hsz, add64_eq (by omega)]
      by_cases hle : rem ≤ k
      · rw [if_pos hle]
        have hfixed : a.bytes < a.text.length + max (k + 1) padding + 1 := by omega
        refine ⟨fun h => by omega, fun h hd => ?_, fun h hd => ?_⟩
        · rcases hor with ⟨hj, hcb, hrb⟩ | ⟨hd', _, _⟩
          · obtain ⟨t', b', sl', e, R'⟩ := (grow_step R1 (n := a.text.length + junk.length + 1 + k) (by rw [List.length_append]; omega)
              (hf.mono (by omega))).2 (by subst hj; simp; omega) hd
            rw [e, Out.ret_bind']
            simp only [failed_insufficient, if_true, Out.ret_bind']
            rw [hj, List.append_nil, hcb] at R'
            exact ⟨t', b', sl', rfl, R'⟩
          · exact absurd hd hd'
        · obtain ⟨junk', c', t', b', sl', e, R', hc', _, hlt'⟩ := (grow_step R1 (n := a.text.length + junk.length + 1 + k) (by rw [List.length_append]; omega)
              (hf.mono (by omega))).1 (Or.inr hd)
          refine ⟨c', by omega, by omega, ?_⟩
          rw [e, Out.ret_bind']
          simp only [failed_success, Bool.false_eq_true, if_false]
          exact wr R' hk1 hk2 (by omega) hd16 hmod (by omega)
      · rw [if_neg hle, Out.ret_bind']
        simp only [failed_success, Bool.false_eq_true, if_false]
        have hres := wr R1 (rem := rem) hk1 hk2 (by omega) hd16 hmod (by omega)
        rcases hor with ⟨hj, hcb, hrb⟩ | ⟨hd, h, _⟩
        · refine ⟨fun _ => by rw [← hcb]; exact hres, fun h => by omega, fun h => by omega⟩
        · exact ⟨fun h => by omega, fun _ hd' => absurd hd' hd, fun _ _ => ⟨c, by omega, hc64, hres⟩⟩
  unfold strAppendHexWith
  simp only
  rw [R.size, hcap, sub64_eq hlen hb, sub64_one (by omega), add64_eq (by omega), sub64_eq (by omega) (by omega),
    show a.text.length + 1 + padding - 1 = a.text.length + padding by omega]
  by_cases hlt : a.bytes - (a.text.length + 1) < padding
  · rw [if_pos hlt, if_pos hlt]
    by_cases hd : P.allocator = none
    · obtain ⟨t', b', sl', e, R'⟩ := (grow_step hR0 (n := a.text.length + padding) (by simp) (hf.mono (by omega))).2 (by omega) hd
      rw [e, Out.ret_bind']
      simp only [failed_insufficient, if_true]
      rw [List.append_nil] at R'
      unfold NumRes
      rw [hx]
      exact ⟨fun h => by omega, fun _ _ => ⟨t', b', sl', rfl, R'⟩, fun _ hd' => absurd hd hd'⟩
    · obtain ⟨junk', c', t', b', sl', e, R', hc', hjl, hlt'⟩ := (grow_step hR0 (n := a.text.length + padding) (by simp) (hf.mono (by omega))).1 (Or.inr hd)
      rw [e, Out.ret_bind']
      simp only [failed_success, Bool.false_eq_true, if_false]
      rw [List.length_append] at hjl
      exact main R' (by omega) (by omega) (by omega) (by omega) (Or.inr ⟨hd, by omega, by omega⟩)
  · rw [if_neg hlt, if_neg hlt, Out.ret_bind']
    simp only [failed_success, Bool.false_eq_true, if_false]
    exact main hR0 (by omega) (by omega) (by simp) hb (Or.inl ⟨rfl, rfl, rfl⟩)


theorem hexU_res {P : Params} {t : Str} {a : SState} {b : Block Byte} {sl : List (Cell Byte)}
    (R : SRep P t a b sl) {value padding : Nat} (hv : value < 18446744073709551616) (hp : padding ≤ 255)
    (hf : SFits (a.text.length + 300)) (hb : a.bytes < 18446744073709551616) (upper : Bool) :
    NumRes P (strAppendHexU t value padding upper) a
      ((padded padding (numeral 16 upper value)).map some) := by
  unfold strAppendHexU strAppendHexU64
  by_cases h : value &&& 0xFFFFFFFF00000000 ≠ 0
  · rw [if_pos h]
    exact hex_res R (by omega) (Nat.lt_of_lt_of_le hv (by decide)) hp hf hb upper
  · rw [if_neg h]
    exact hex_res R (by omega) (high_half hv h) hp hf hb upper

theorem decU_res {P : Params} {t : Str} {a : SState} {b : Block Byte} {sl : List (Cell Byte)}
    (R : SRep P t a b sl) {value padding : Nat} (hv : value < 18446744073709551616) (hp : padding ≤ 255)
    (hf : SFits (a.text.length + 300)) :
    NumRes P (strAppendDecU t value padding) a ((padded padding (numeral 10 false value)).map some) := by
  unfold strAppendDecU strAppendDecU64
  exact dec_res R (by decide) (by decide) (by decide) (Nat.lt_of_lt_of_le hv (by decide)) hv hp hf

/-! ## Sign and prefix -/

/-- Outcome of appending `x` in several steps. -/
def AppRes (P : Params) (res : Out (Status × Str)) (a : SState) (x : List (Cell Byte)) : Prop :=
  (P.allocator = none → a.text.length + x.length + 1 ≤ a.bytes →
    SRes P res stSuccess ⟨a.text ++ x, a.bytes⟩) ∧
  (P.allocator = none → a.bytes < a.text.length + x.length + 1 →
    ∃ y, y <+: x ∧ SRes P res stInsufficient ⟨a.text ++ y, a.bytes⟩) ∧
  (P.allocator ≠ none → ∃ c, c < 18446744073709551616 ∧ SRes P res stSuccess ⟨a.text ++ x, c⟩)

theorem NumRes.app {P : Params} {res : Out (Status × Str)} {a : SState} {x : List (Cell Byte)}
    (h : NumRes P res a x) (hb : a.bytes < 18446744073709551616) : AppRes P res a x := by
  obtain ⟨h1, h2, h3⟩ := h
  refine ⟨fun _ h => h1 h, fun hd h => ⟨[], List.nil_prefix, ?_⟩, fun hd => ?_⟩
  · rw [List.append_nil]; exact h2 h hd
  · by_cases hle : a.text.length + x.length + 1 ≤ a.bytes
    · exact ⟨a.bytes, hb, h1 hle⟩
    · obtain ⟨c, _, hc, hs⟩ := h3 (by omega) hd
      exact ⟨c, hc, hs⟩

theorem append_app {P : Params} {t : Str} {a : SState} {b : Block Byte} {sl : List (Cell Byte)}
    (R : SRep P t a b sl) (x rest : List (Cell Byte)) (hf : SFits (a.text.length + x.length + 1))
    (hb : a.bytes < 18446744073709551616) :
    AppRes P (strAppend t ⟨x ++ rest, x.length + 1⟩) a x := by
  have h := append_res R x rest hf
  have hl := R.rep.len
  simp only [List.length_append, List.length_singleton] at hl
  have hg := R.rep.growth255
  have hf' := hf
  unfold SFits at hf'
  unfold appendText at h
  by_cases hx : x = []
  · rw [if_pos hx] at h
    unfold AppRes
    rw [hx, List.append_nil]
    rw [hx] at h
    exact ⟨fun _ _ => h, fun _ hlt => by simp at hlt; omega, fun _ => ⟨a.bytes, hb, h⟩⟩
  · rw [if_neg hx] at h
    have h1 : (a.text.length + x.length + 1) * P.growth ≤ (a.text.length + x.length + 1) * 255 :=
      Nat.mul_le_mul_left _ hg
    by_cases hle : a.text.length + x.length + 1 ≤ a.bytes
    · rw [extend, if_pos hle] at h
      simp only at h
      refine ⟨fun hd _ => ?_, fun _ h => by omega, fun hd => ⟨_, ?_, h⟩⟩
      · rw [trim, if_neg (by simp [hd])] at h; exact h
      · unfold trim; split <;> omega
    · rw [extend, if_neg hle, room, if_neg hle] at h
      refine ⟨fun _ h => by omega, fun hd _ => ⟨[], List.nil_prefix, ?_⟩, fun hd => ?_⟩
      · rw [if_neg (by simp [hd])] at h
        rw [List.append_nil]; exact h
      · rw [if_pos (Option.isSome_iff_ne_none.2 hd)] at h
        exact ⟨_, by omega, h⟩

theorem AppRes.bind {P : Params} {res : Out (Status × Str)} {a : SState} {x y : List (Cell Byte)}
    {k : Str → Out (Status × Str)} (h : AppRes P res a x) (hb : a.bytes < 18446744073709551616)
    (hk : ∀ t' c b' sl', c < 18446744073709551616 → SRep P t' ⟨a.text ++ x, c⟩ b' sl' →
      AppRes P (k t') ⟨a.text ++ x, c⟩ y) :
    AppRes P (res.bind fun r => if failed r.1 then .ret r else k r.2) a (x ++ y) := by
  obtain ⟨h1, h2, h3⟩ := h
  refine ⟨fun hd hle => ?_, fun hd hlt => ?_, fun hd => ?_⟩
  · rw [List.length_append] at hle
    obtain ⟨t', b', sl', e, R⟩ := h1 hd (by omega)
    rw [e, Out.ret_bind']
    simp only [failed_success, Bool.false_eq_true, if_false]
    have := (hk t' a.bytes b' sl' hb R).1 hd (by simp only [List.length_append]; omega)
    rw [List.append_assoc] at this
    exact this
  · rw [List.length_append] at hlt
    by_cases hx : a.text.length + x.length + 1 ≤ a.bytes
    · obtain ⟨t', b', sl', e, R⟩ := h1 hd hx
      rw [e, Out.ret_bind']
      simp only [failed_success, Bool.false_eq_true, if_false]
      obtain ⟨z, hz, hs⟩ := (hk t' a.bytes b' sl' hb R).2.1 hd (by simp only [List.length_append]; omega)
      exact ⟨x ++ z, by rw [List.prefix_append_right_inj]; exact hz, by rw [← List.append_assoc]; exact hs⟩
    · obtain ⟨z, hz, t', b', sl', e, R⟩ := h2 hd (by omega)
      refine ⟨z, hz.trans (List.prefix_append _ _), t', b', sl', ?_, R⟩
      rw [e, Out.ret_bind']
      simp only [failed_insufficient, if_true]
  · obtain ⟨c, hc, t', b', sl', e, R⟩ := h3 hd
    obtain ⟨c', hc', hs⟩ := (hk t' c b' sl' hc R).2.2 hd
    refine ⟨c', hc', ?_⟩
    rw [e, Out.ret_bind']
    simp only [failed_success, Bool.false_eq_true, if_false]
    rw [List.append_assoc] at hs
    exact hs

theorem checkAppend_app {P : Params} {t : Str} {a : SState} {b : Block Byte} {sl : List (Cell Byte)}
    (R : SRep P t a b sl) {v : View} {x : List Byte} {y : List (Cell Byte)} (hv : Shows v x)
    (hf : SFits (a.text.length + x.length + 1)) (hb : a.bytes < 18446744073709551616)
    {k : Str → Out (Status × Str)}
    (hk : ∀ t' c b' sl', c < 18446744073709551616 → SRep P t' ⟨a.text ++ x.map some, c⟩ b' sl' →
      AppRes P (k t') ⟨a.text ++ x.map some, c⟩ y) :
    AppRes P (checkAppend t v k) a (x.map some ++ y) := by
  obtain ⟨h1, rest, h2⟩ := hv
  obtain ⟨mem, size⟩ := v
  subst h1 h2
  have := append_app R (x.map some) rest (by simpa using hf) hb
  rw [List.length_map] at this
  exact this.bind hb hk

theorem checkPrefix_app {P : Params} {t : Str} {a : SState} {b : Block Byte} {sl : List (Cell Byte)}
    (R : SRep P t a b sl) {pre : Option View} {x : List Byte} {y : List (Cell Byte)}
    (hv : PrefixShows pre x)
    (hf : SFits (a.text.length + x.length + 1)) (hb : a.bytes < 18446744073709551616)
    {k : Str → Out (Status × Str)}
    (hk : ∀ t' c b' sl', c < 18446744073709551616 → SRep P t' ⟨a.text ++ x.map some, c⟩ b' sl' →
      AppRes P (k t') ⟨a.text ++ x.map some, c⟩ y) :
    AppRes P (checkPrefix t pre k) a (x.map some ++ y) := by
  cases pre with
  | none =>
    have hx : x = [] := hv
    subst hx
    have := hk t a.bytes b sl hb (by simpa using R)
    simpa [checkPrefix] using this
  | some v => exact checkAppend_app R hv hf hb hk

theorem absI64_eq (x : BitVec 64) : ∃ m, absI64 x = .ret m ∧ m.toNat = x.toInt.natAbs := by
  unfold absI64
  have h1 := BitVec.toInt_lt (x := x)
  have h2 := BitVec.le_toInt (x := x)
  simp only [Nat.add_one_sub_one, Int.reducePow] at h1 h2
  by_cases hm : x = BitVec.ofInt 64 (-0x7fffffffffffffff - 1)
  · rw [if_pos hm, hm]
    exact ⟨_, rfl, by decide⟩
  · rw [if_neg hm]
    have hne : x.toInt ≠ -9223372036854775808 := by
      intro h
      apply hm
      apply BitVec.eq_of_toInt_eq
      rw [h]; decide
    by_cases hn : x.toInt < 0
    · rw [if_pos hn, if_pos (by omega)]
      refine ⟨_, rfl, ?_⟩
      rw [BitVec.toNat_ofInt]
      omega
    · rw [if_neg hn]
      refine ⟨x, rfl, ?_⟩
      have := BitVec.toInt_eq_toNat_cond x
      have hl := x.isLt
      split at this <;> omega

theorem toNat_of_nonneg {x : BitVec 64} (h : ¬ x.toInt < 0) : x.toNat = x.toInt.natAbs := by
  have := BitVec.toInt_eq_toNat_cond x
  have hl := x.isLt
  split at this <;> omega

theorem signed_res {P : Params} {t : Str} {a : SState} {b : Block Byte} {sl : List (Cell Byte)}
    (R : SRep P t a b sl) {number : Str → Nat → Out (Status × Str)} {num : Nat → List (Cell Byte)}
    (value : BitVec 64) (forceSign : Bool) {pre : Option View} {px : List Byte} (hpre : PrefixShows pre px)
    (hf : SFits (a.text.length + px.length + 301)) (hb : a.bytes < 18446744073709551616)
    (hnum : ∀ t' a' b' sl' m, SRep P t' a' b' sl' → a'.bytes < 18446744073709551616 →
      a'.text.length ≤ a.text.length + px.length + 1 → m < 18446744073709551616 →
      AppRes P (number t' m) a' (num m)) :
    AppRes P (strAppendSigned number t value forceSign pre) a
      ((signPrefix value.toInt forceSign px).map some ++ num value.toInt.natAbs) := by
  unfold strAppendSigned signPrefix
  have hsub : Shows viewSub [45#8] := ⟨rfl, by decide⟩
  have hadd : Shows viewAdd [43#8] := ⟨rfl, by decide⟩
  have hlt : value.toInt.natAbs < 18446744073709551616 := by
    have h1 := BitVec.toInt_lt (x := value)
    have h2 := BitVec.le_toInt (x := value)
    simp only [Nat.add_one_sub_one, Int.reducePow] at h1 h2
    omega
  by_cases hn : value.toInt < 0
  · rw [if_pos hn, if_pos hn, List.map_append, List.append_assoc]
    refine checkAppend_app R hsub (hf.mono (by simp; omega)) hb ?_
    intro t1 c1 b1 sl1 hc1 R1
    refine checkPrefix_app R1 hpre (hf.mono (by simp; omega)) hc1 ?_
    intro t2 c2 b2 sl2 hc2 R2
    obtain ⟨m, hm, hmn⟩ := absI64_eq value
    rw [hm, Out.ret_bind', hmn]
    exact hnum _ _ _ _ _ R2 hc2 (by simp; omega) hlt
  · rw [if_neg hn, if_neg hn]
    by_cases hs : forceSign = true
    · rw [if_pos hs, if_pos hs, List.map_append, List.append_assoc]
      refine checkAppend_app R hadd (hf.mono (by simp; omega)) hb ?_
      intro t1 c1 b1 sl1 hc1 R1
      refine checkPrefix_app R1 hpre (hf.mono (by simp; omega)) hc1 ?_
      intro t2 c2 b2 sl2 hc2 R2
      rw [toNat_of_nonneg hn]
      exact hnum _ _ _ _ _ R2 hc2 (by simp; omega) hlt
    · rw [if_neg hs, if_neg hs, List.nil_append]
      refine checkPrefix_app R hpre (hf.mono (by omega)) hb ?_
      intro t2 c2 b2 sl2 hc2 R2
      rw [toNat_of_nonneg hn]
      exact hnum _ _ _ _ _ R2 hc2 (by simp) hlt

theorem decS_res {P : Params} {t : Str} {a : SState} {b : Block Byte} {sl : List (Cell Byte)}
    (R : SRep P t a b sl) (value : BitVec 64) {padding : Nat} (hp : padding ≤ 255) (forceSign : Bool)
    {pre : Option View} {px : List Byte} (hpre : PrefixShows pre px)
    (hf : SFits (a.text.length + px.length + 301)) (hb : a.bytes < 18446744073709551616) :
    AppRes P (strAppendDecS t value padding forceSign pre) a
      ((signPrefix value.toInt forceSign px ++
        padded padding (numeral 10 false value.toInt.natAbs)).map some) := by
  rw [List.map_append]
  exact signed_res (num := fun m => (padded padding (numeral 10 false m)).map some) R value forceSign hpre hf
    hb fun _ _ _ _ _ R' hb' hl hm => (decU_res R' hm hp (hf.mono (by omega))).app hb'

theorem hexS_res {P : Params} {t : Str} {a : SState} {b : Block Byte} {sl : List (Cell Byte)}
    (R : SRep P t a b sl) (value : BitVec 64) {padding : Nat} (hp : padding ≤ 255) (upper forceSign : Bool)
    {pre : Option View} {px : List Byte} (hpre : PrefixShows pre px)
    (hf : SFits (a.text.length + px.length + 301)) (hb : a.bytes < 18446744073709551616) :
    AppRes P (strAppendHexS t value padding upper forceSign pre) a
      ((signPrefix value.toInt forceSign px ++
        padded padding (numeral 16 upper value.toInt.natAbs)).map some) := by
  rw [List.map_append]
  exact signed_res (num := fun m => (padded padding (numeral 16 upper m)).map some) R value forceSign hpre hf
    hb fun _ _ _ _ _ R' hb' hl hm => (hexU_res R' hm hp (hf.mono (by omega)) hb' upper).app hb'

theorem AppRes.some {P : Params} {res : Out (Status × Str)} {a : SState} {x : List (Cell Byte)}
    (h : AppRes P res a x) : ∃ st t' a' b' sl', res = .ret (st, t') ∧ SRep P t' a' b' sl' := by
  obtain ⟨h1, h2, h3⟩ := h
  by_cases hd : P.allocator = none
  · by_cases hle : a.text.length + x.length + 1 ≤ a.bytes
    · obtain ⟨t', b', sl', e, R⟩ := h1 hd hle
      exact ⟨_, t', _, b', sl', e, R⟩
    · obtain ⟨y, _, t', b', sl', e, R⟩ := h2 hd (by omega)
      exact ⟨_, t', _, b', sl', e, R⟩
  · obtain ⟨c, _, t', b', sl', e, R⟩ := h3 hd
    exact ⟨_, t', _, b', sl', e, R⟩

theorem NumRes.some {P : Params} {res : Out (Status × Str)} {a : SState} {x : List (Cell Byte)}
    (h : NumRes P res a x) : ∃ st t' a' b' sl', res = .ret (st, t') ∧ SRep P t' a' b' sl' := by
  obtain ⟨h1, h2, h3⟩ := h
  by_cases hle : a.text.length + x.length + 1 ≤ a.bytes
  · obtain ⟨t', b', sl', e, R⟩ := h1 hle
    exact ⟨_, t', _, b', sl', e, R⟩
  · by_cases hd : P.allocator = none
    · obtain ⟨t', b', sl', e, R⟩ := h2 (by omega) hd
      exact ⟨_, t', _, b', sl', e, R⟩
    · obtain ⟨c, _, _, t', b', sl', e, R⟩ := h3 (by omega) hd
      exact ⟨_, t', _, b', sl', e, R⟩

/-! ## printf-style append -/

theorem toI32_eq {n : Nat} (h : n < 2147483648) : toI32 n = n := by
  unfold toI32
  rw [BitVec.toInt_ofNat']
  simp only [Int.bmod, Nat.reducePow]
  omega

theorem vsnprintf_ok {v : Vec Byte} {b : Block Byte} (hd : v.data = some b) {pre M : List (Cell Byte)}
    (hb : b.cells = pre ++ M) {dst n : Nat} (hi : dst = pre.length) (h1 : 1 ≤ n) (hn : n ≤ M.length)
    (res : FmtRes) :
    ∃ x, (res = .text x ∨ res = .error x) ∧
    vsnprintf v dst n res = .ret ((match res with
        | .error _ => -1
        | .text x => if x.length ≤ 0x7fffffff then x.length else -1),
      { v with data := some ⟨b.id, pre ++ ((x.take (n - 1)).map some ++ [some 0#8]) ++
        M.drop (min x.length (n - 1) + 1)⟩ }) := by
  have hw : ∀ x : List Byte, writeRange (pre ++ M) dst ((x.take (n - 1)).map some ++ [some 0#8]) =
      .ret (pre ++ ((x.take (n - 1)).map some ++ [some 0#8]) ++ M.drop (min x.length (n - 1) + 1)) := by
    intro x
    rw [writeRange_tail hi (by simp; omega)]
    simp [Nat.min_comm]
  cases res with
  | text x =>
    refine ⟨x, Or.inl rfl, ?_⟩
    unfold vsnprintf
    simp only
    rw [if_neg (by omega), hd]
    simp only [withData]
    rw [hb, hw, Out.ret_bind', Out.ret_bind']
  | error x =>
    refine ⟨x, Or.inr rfl, ?_⟩
    unfold vsnprintf
    simp only
    rw [if_neg (by omega), hd]
    simp only [withData]
    rw [hb, hw, Out.ret_bind', Out.ret_bind']

/-- Growing a string whose terminator was overwritten. -/
theorem grow_any {P : Params} {t : Str} {pre : List (Cell Byte)} {c0 : Cell Byte} {c : Nat} {b : Block Byte}
    {sl : List (Cell Byte)} (R : Rep P t.s ⟨pre ++ [c0], c, []⟩ b sl) (one : P.esz = 1)
    (nod : P.dtor = false) (hfix : t.fixed = P.allocator.isNone) {n : Nat}
    (hn : pre.length < n) (hc : c < n + 1) (hf : SFits (n + 1)) :
    (P.allocator ≠ none → ∃ junk, junk.length = n - pre.length ∧
      SRes P (strResize t n) stSuccess ⟨pre ++ junk, (n + 1) * P.growth⟩) ∧
    (P.allocator = none → ∃ s' b' sl', strResize t n = .ret (stInsufficient, { t with s := s' }) ∧
      Rep P s' ⟨pre ++ [c0], c, []⟩ b' sl') := by
  have hf' := hf
  unfold SFits at hf'
  obtain ⟨junk, st, s1, a1, b1, sl1, hj, hstep, hop, R1⟩ := resize_ok R (n + 1) none ((fits_iff one _).2 hf)
  simp only [vecOp, initSrc] at hop
  have hle : (pre ++ [c0]).length = pre.length + 1 := by simp
  simp only [junkLen, hle] at hj
  have hrun : strResize t n = checkTerminate t (st, s1) := by
    simp only [strResize, add64_eq (show n + 1 < 18446744073709551616 by omega), vecResize, hop, Out.ret_bind']
  simp only [step, hle] at hstep
  rw [if_neg (by omega), room, if_neg (by omega)] at hstep
  refine ⟨fun hd => ?_, fun hd => ?_⟩
  · rw [if_pos (Option.isSome_iff_ne_none.2 hd)] at hstep
    simp only at hstep
    rw [if_neg (by omega)] at hstep
    simp only [newElems, Prod.mk.injEq] at hstep
    obtain ⟨h1, h2⟩ := hstep
    subst h1 h2
    have hsn : [c0] ++ junk = ([c0] ++ junk).dropLast ++ [([c0] ++ junk).getLast (by simp)] := by
      rw [List.dropLast_concat_getLast]
    rw [List.append_assoc, hsn, ← List.append_assoc] at R1
    refine ⟨([c0] ++ junk).dropLast, by simp; omega, ?_⟩
    rw [hrun]
    have := checkTerminate_ok (t := t) R1 one nod hfix
    rw [if_neg (by omega)] at this
    exact this
  · rw [if_neg (by simp [hd])] at hstep
    simp only [Prod.mk.injEq] at hstep
    obtain ⟨h1, h2⟩ := hstep
    subst h1 h2
    exact ⟨s1, b1, sl1, by rw [hrun]; simp only [checkTerminate, failed_insufficient, if_true], R1⟩


/-- The call of the formatter that fits. -/
theorem format_fits {P : Params} {t : Str} {a : SState} {b : Block Byte} {sl : List (Cell Byte)}
    (R : SRep P t a b sl) {fmt : Fmt} {x : List Byte} (hx : fmt 0 = .text x)
    (h : a.text.length + x.length + 1 ≤ a.bytes) (hf : SFits (a.text.length + x.length + 1))
    (hb : a.bytes < 18446744073709551616) (h31 : a.bytes - (a.text.length + 1) < 2147483648) :
    SRes P (strAppendFormat t fmt) stSuccess ⟨a.text ++ x.map some, a.bytes⟩ := by
  have hf' := hf
  unfold SFits at hf'
  have hcap : t.s.v.cap = a.bytes := R.rep.cap
  obtain ⟨M, hM, hMl⟩ := SRep.tail (pre := a.text) (junk := []) (c := a.bytes) (by simpa using R)
  unfold strAppendFormat
  simp only
  rw [R.size, hcap, sub64_one (by omega), sub64_eq (by omega) hb, add64_eq (by omega)]
  obtain ⟨x', hx', e⟩ := vsnprintf_ok R.rep.data hM rfl (n := a.bytes - (a.text.length + 1) + 1)
    (by omega) (by omega) (fmt 0)
  have : x' = x := by rw [hx] at hx'; rcases hx' with h | h <;> simp at h; exact h.symm
  subst this
  rw [e, Out.ret_bind', hx]
  simp only [hcap]
  rw [if_pos (show x'.length ≤ 0x7fffffff by omega), if_neg (by omega), sub64_eq (by omega) hb, toI32_eq h31, if_pos (by omega), Int.toNat_natCast,
    add64_eq (by omega)]
  have htake : x'.take (a.bytes - (a.text.length + 1) + 1 - 1) = x' := List.take_of_length_le (by omega)
  rw [htake]
  have R1 := R.rep.setSize (ys := a.text ++ x'.map some ++ [some 0#8])
    (rest := M.drop (min x'.length (a.bytes - (a.text.length + 1) + 1 - 1) + 1))
    (n := a.text.length + 1 + x'.length)
    (by rw [hM]; simp; omega) ((fits_iff R.one _).2 (hf.mono (by simp; omega))) (by simp; omega) (by simp; omega)
  simp only [hcap] at R1
  rw [← List.append_assoc]
  exact ⟨_, _, _, rfl, ⟨R1, R.one, R.nod, R.fixed⟩⟩

/-- The state after the first call of the formatter, whatever it wrote. -/
theorem format_first {P : Params} {t : Str} {a : SState} {b : Block Byte} {sl : List (Cell Byte)}
    (R : SRep P t a b sl) (hb : a.bytes < 18446744073709551616) (res : FmtRes) :
    ∃ v c0 b' sl', vsnprintf t.s.v (sub64 t.s.v.size 1) (add64 (sub64 t.s.v.cap t.s.v.size) 1) res =
        .ret ((match res with
          | .error _ => -1
          | .text x => if x.length ≤ 0x7fffffff then x.length else -1), v) ∧
      Rep P ⟨v, t.s.w⟩ ⟨a.text ++ [c0], a.bytes, []⟩ b' sl' := by
  have hlen := R.rep.len
  simp only [List.length_append, List.length_singleton] at hlen
  have hcap : t.s.v.cap = a.bytes := R.rep.cap
  obtain ⟨M, hM, hMl⟩ := SRep.tail (pre := a.text) (junk := []) (c := a.bytes) (by simpa using R)
  rw [R.size, hcap, sub64_one (by omega), sub64_eq (by omega) hb, add64_eq (by omega)]
  obtain ⟨x, _, e⟩ := vsnprintf_ok R.rep.data hM rfl (n := a.bytes - (a.text.length + 1) + 1)
    (by omega) (by omega) res
  have hl : ((x.take (a.bytes - (a.text.length + 1) + 1 - 1)).map (some : Byte → Cell Byte) ++
      [some 0#8]).length = min x.length (a.bytes - (a.text.length + 1) + 1 - 1) + 1 := by
    simp [Nat.min_comm]
  cases hy : (x.take (a.bytes - (a.text.length + 1) + 1 - 1)).map (some : Byte → Cell Byte) ++ [some 0#8] with
  | nil => simp at hy
  | cons c0 y =>
    rw [hy] at e hl
    have R1 := R.rep.setSize (ys := a.text ++ [c0])
      (rest := y ++ M.drop (min x.length (a.bytes - (a.text.length + 1) + 1 - 1) + 1)) (n := t.s.v.size)
      (by rw [hM]; simp at hl ⊢; omega) (by have := R.rep.fits; simpa using this)
      (by simpa using hlen) (by rw [R.size]; simp)
    have hassoc : a.text ++ c0 :: y ++ M.drop (min x.length (a.bytes - (a.text.length + 1) + 1 - 1) + 1) =
        a.text ++ [c0] ++ (y ++ M.drop (min x.length (a.bytes - (a.text.length + 1) + 1 - 1) + 1)) := by simp
    rw [hassoc] at e
    exact ⟨_, c0, _, _, e, R1⟩

/-- The formatted text needs more storage. -/
theorem format_grows {P : Params} {t : Str} {a : SState} {b : Block Byte} {sl : List (Cell Byte)}
    (R : SRep P t a b sl) {fmt : Fmt} {x : List Byte} (hx : fmt 0 = .text x) (hx1 : fmt 1 = .text x)
    (h : a.bytes < a.text.length + x.length + 1) (hf : SFits (a.text.length + x.length + 1))
    (hx31 : x.length < 2147483648) (hd : P.allocator ≠ none) (hg : 2 ≤ P.growth) :
    SRes P (strAppendFormat t fmt) stSuccess
      ⟨a.text ++ x.map some, (a.text.length + x.length + 1) * P.growth⟩ := by
  have hf' := hf
  unfold SFits at hf'
  have hlen := R.rep.len
  simp only [List.length_append, List.length_singleton] at hlen
  have hg255 := R.rep.growth255
  have hmul1 : (a.text.length + x.length + 1) * P.growth ≤ (a.text.length + x.length + 1) * 255 :=
    Nat.mul_le_mul_left _ hg255
  have hmul2 : (a.text.length + x.length + 1) * 2 ≤ (a.text.length + x.length + 1) * P.growth :=
    Nat.mul_le_mul_left _ hg
  obtain ⟨v, c0, b1, sl1, e, R1⟩ := format_first R (by omega) (fmt 0)
  have hcap : v.cap = a.bytes := R1.cap
  have hsize : v.size = a.text.length + 1 := by rw [R1.size]; simp
  unfold strAppendFormat
  simp only
  rw [e, Out.ret_bind', hx]
  simp only [hcap, hsize, R.size]
  rw [if_pos (show x.length ≤ 0x7fffffff by omega), if_neg (by omega), sub64_eq (by omega) (by omega), toI32_eq (by omega),
    if_neg (by omega), Int.toNat_natCast, add64_eq (by omega),
    show sub64 (a.text.length + 1 + x.length) 1 = a.text.length + x.length by
      rw [sub64_eq (by omega) (by omega)]; omega]
  have hgrow := (grow_any (t := ⟨⟨v, t.s.w⟩, t.fixed⟩) R1 R.one R.nod R.fixed
    (n := a.text.length + x.length) (by omega) (by omega) (by simpa using hf)).1 hd
  obtain ⟨junk, hjl, t2, b2, sl2, e2, R2⟩ := hgrow
  rw [e2, Out.ret_bind']
  simp only [failed_success, Bool.false_eq_true, if_false]
  have hcap2 : t2.s.v.cap = (a.text.length + x.length + 1) * P.growth := R2.rep.cap
  have hsize2 : t2.s.v.size = a.text.length + x.length + 1 := by
    rw [R2.size]; simp only [List.length_append]; omega
  generalize hC : (a.text.length + x.length + 1) * P.growth = C at *
  obtain ⟨M, hM, hMl⟩ := R2.tail
  rw [hcap2, hsize2, sub64_one (by omega), sub64_eq (by omega) (by omega), add64_eq (by omega)]
  obtain ⟨x', hx', e3⟩ := vsnprintf_ok R2.rep.data hM rfl (n := C - (a.text.length + x.length + 1) + 1)
    (by omega) (by omega) (fmt 1)
  have : x' = x := by rw [hx1] at hx'; rcases hx' with h | h <;> simp at h; exact h.symm
  subst this
  rw [e3, Out.ret_bind', hx1]
  simp only
  rw [if_pos (show x'.length ≤ 0x7fffffff by omega), if_neg (by omega)]
  have htake : x'.take (C - (a.text.length + x'.length + 1) + 1 - 1) = x' :=
    List.take_of_length_le (by omega)
  rw [htake]
  have R3 := R2.rep.setSize (ys := a.text ++ x'.map some ++ [some 0#8])
    (rest := M.drop (min x'.length (C - (a.text.length + x'.length + 1) + 1 - 1) + 1))
    (n := t2.s.v.size)
    (by rw [hM]; simp; omega) ((fits_iff R2.one _).2 (hf.mono (by simp; omega)))
    (by simp only [List.length_append, List.length_map, List.length_singleton]; omega)
    (by rw [hsize2]; simp; omega)
  rw [← List.append_assoc]
  exact ⟨_, _, _, rfl, ⟨R3, R2.one, R2.nod, R2.fixed⟩⟩

/-- The calls that report a failure. -/
theorem format_fails {P : Params} {t : Str} {a : SState} {b : Block Byte} {sl : List (Cell Byte)}
    (R : SRep P t a b sl) {fmt : Fmt} (hb : a.bytes < 18446744073709551616) {st : Status}
    (hcase : (∃ x, fmt 0 = .error x ∧ st = stFailed) ∨
      (∃ x, fmt 0 = .text x ∧ x.length < 2147483648 ∧ P.allocator = none ∧ st = stInsufficient ∧
        a.bytes < a.text.length + x.length + 1 ∧ SFits (a.text.length + x.length + 1))) :
    ∃ t' c0 b' sl', strAppendFormat t fmt = .ret (st, t') ∧
      Rep P t'.s ⟨a.text ++ [c0], a.bytes, []⟩ b' sl' := by
  have hlen := R.rep.len
  simp only [List.length_append, List.length_singleton] at hlen
  obtain ⟨v, c0, b1, sl1, e, R1⟩ := format_first R hb (fmt 0)
  have hcap : v.cap = a.bytes := R1.cap
  have hsize : v.size = a.text.length + 1 := by rw [R1.size]; simp
  unfold strAppendFormat
  simp only
  rw [e, Out.ret_bind']
  rcases hcase with ⟨x, hx, hst⟩ | ⟨x, hx, hx31, hd, hst, h, hf⟩
  · rw [hx, hst]
    simp only
    rw [if_pos (by omega)]
    exact ⟨_, c0, b1, sl1, rfl, R1⟩
  · have hf' := hf
    unfold SFits at hf'
    rw [hx, hst]
    simp only [hcap, hsize, R.size]
    rw [if_pos (show x.length ≤ 0x7fffffff by omega), if_neg (by omega), sub64_eq (by omega) (by omega), toI32_eq (by omega),
      if_neg (by omega), Int.toNat_natCast, add64_eq (by omega),
      show sub64 (a.text.length + 1 + x.length) 1 = a.text.length + x.length by
        rw [sub64_eq (by omega) (by omega)]; omega]
    have hgrow := (grow_any (t := ⟨⟨v, t.s.w⟩, t.fixed⟩) R1 R.one R.nod R.fixed
      (n := a.text.length + x.length) (by omega) (by omega) (by simpa using hf)).2 hd
    obtain ⟨s', b', sl', e2, R2⟩ := hgrow
    rw [e2, Out.ret_bind']
    simp only [failed_insufficient, if_true]
    exact ⟨_, c0, b', sl', rfl, R2⟩

/-- What is observable of a string whose terminator may be gone. -/
theorem unterminated_obs {P : Params} {t : Str} {text : List (Cell Byte)} {c0 : Cell Byte} {c : Nat}
    {b : Block Byte} {sl : List (Cell Byte)} (R : Rep P t.s ⟨text ++ [c0], c, []⟩ b sl)
    (hs : text.length + 1 < 18446744073709551616) :
    textOf t = text ∧ strGetSize t = text.length ∧ t.s.v.cap = c := by
  have h1 : strGetSize t = text.length := by
    unfold strGetSize
    rw [R.size]
    simp only [List.length_append, List.length_singleton]
    exact sub64_one hs
  refine ⟨?_, h1, R.cap⟩
  unfold textOf storage
  rw [h1, R.data]
  simp only
  rw [R.cells, List.append_assoc, List.take_left]


/-! ## Observations -/

theorem num_obs {P : Params} {res : Out (Status × Str)} {a : SState} {x : List Byte}
    (h : NumRes P res a (x.map some)) :
    ((P.allocator = none → a.text.length + x.length + 1 ≤ a.bytes) →
      ∃ t', res = .ret (stSuccess, t') ∧ textOf t' = a.text ++ x.map some ∧ Terminated t' ∧
        (a.text.length + x.length + 1 ≤ a.bytes → t'.s.v.cap = a.bytes)) ∧
    (P.allocator = none → a.bytes < a.text.length + x.length + 1 →
      ∃ t', res = .ret (stInsufficient, t') ∧ textOf t' = a.text ∧ strGetSize t' = a.text.length ∧
        Terminated t' ∧ t'.s.v.cap = a.bytes) := by
  obtain ⟨h1, h2, h3⟩ := h
  rw [List.length_map] at h1 h2 h3
  refine ⟨fun hroom => ?_, fun hd hlt => ?_⟩
  · by_cases hle : a.text.length + x.length + 1 ≤ a.bytes
    · obtain ⟨t', b', sl', e, R⟩ := h1 hle
      exact ⟨t', e, R.textOf, R.terminated, fun _ => R.rep.cap⟩
    · have hd : P.allocator ≠ none := fun hd => hle (hroom hd)
      obtain ⟨c, hc, _, t', b', sl', e, R⟩ := h3 (by omega) hd
      exact ⟨t', e, R.textOf, R.terminated, fun h => absurd h hle⟩
  · obtain ⟨t', b', sl', e, R⟩ := h2 hlt hd
    exact ⟨t', e, R.textOf, R.getSize, R.terminated, R.rep.cap⟩

theorem app_obs {P : Params} {res : Out (Status × Str)} {a : SState} {x : List Byte}
    (h : AppRes P res a (x.map some)) :
    ((P.allocator = none → a.text.length + x.length + 1 ≤ a.bytes) →
      ∃ t', res = .ret (stSuccess, t') ∧ textOf t' = a.text ++ x.map some ∧ Terminated t') ∧
    (P.allocator = none → a.bytes < a.text.length + x.length + 1 →
      ∃ t' y, y <+: x ∧ res = .ret (stInsufficient, t') ∧ textOf t' = a.text ++ y.map some ∧
        Terminated t' ∧ t'.s.v.cap = a.bytes) := by
  obtain ⟨h1, h2, h3⟩ := h
  rw [List.length_map] at h1 h2
  refine ⟨fun hroom => ?_, fun hd hlt => ?_⟩
  · by_cases hd : P.allocator = none
    · obtain ⟨t', b', sl', e, R⟩ := h1 hd (hroom hd)
      exact ⟨t', e, R.textOf, R.terminated⟩
    · obtain ⟨c, _, t', b', sl', e, R⟩ := h3 hd
      exact ⟨t', e, R.textOf, R.terminated⟩
  · obtain ⟨y, hy, t', b', sl', e, R⟩ := h2 hd hlt
    obtain ⟨r, hr⟩ := hy
    obtain ⟨z, z', hz, rfl, _⟩ := List.map_eq_append_iff.1 hr.symm
    exact ⟨t', z, ⟨z', hz.symm⟩, e, R.textOf, R.terminated, R.rep.cap⟩

theorem numeral_ne_nil (base : Nat) (upper : Bool) (n : Nat) : numeral base upper n ≠ [] := by
  unfold numeral
  simp [digits_ne_nil]

theorem digitChar_zero (upper : Bool) : ∀ d, d < 16 → digitChar upper d = 48#8 → d = 0 := by
  cases upper <;> decide +kernel

theorem numeral_head {base : Nat} (hb : 2 ≤ base) (hb' : base ≤ 16) (upper : Bool) {n : Nat} (hn : n ≠ 0) :
    (numeral base upper n).head? ≠ some 48#8 := by
  unfold numeral
  rw [List.head?_map]
  have h1 := digits_head hb n hn
  have h2 := digits_bound hb n
  cases hd : digits base n with
  | nil => simp
  | cons d ds =>
    rw [hd] at h1 h2
    simp only [List.head?_cons, Option.map_some, ne_eq, Option.some.injEq] at h1 ⊢
    intro h
    exact h1 (digitChar_zero upper d (by have := h2 d (by simp); omega) h)

end Zy
