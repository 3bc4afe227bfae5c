import Verif.Lemmas.StringWord
import Verif.Lemmas.Targets
import Verif.Model.FormatWord

/-!
# Lemmas: formatting with another width of `size_t`
-/

namespace Zy

open Spec

section
variable {m : Nat} {P : Params} {t : Str} {a : SState} {b : Block Byte} {sl : List (Cell Byte)}

theorem strResizeW_eq (R : SRepW m P t a b sl) {n : Nat} (h : (n + 1) * 255 < m) :
    strResizeW m t n = strResize t n := opStrW_eq R (.resize n) h

/-- A number writes at most 20 characters, whatever the loop does. -/
theorem decWithW_eq (R : SRepW m P t a b sl) {maxchars value padding : Nat} (hc : maxchars ≤ 20)
    (hp : padding ≤ 255) (h : (a.text.length + 300) * 255 < m) :
    strAppendDecWithW m maxchars t value padding = strAppendDecWith maxchars t value padding := by
  have hw := R.word
  have hsz := R.srep.size
  unfold strAppendDecWithW strAppendDecWith
  refine bind_congr_ret fun r _ => ?_
  simp only
  refine bind_congr_ret fun q _ => ?_
  generalize hN : maxchars - q.2 - (if r.2.2 < 10 then 1 else 0) = N
  have hN20 : N ≤ 20 := by omega
  have hT : max N padding ≤ 255 := by omega
  have e1 : addW m t.s.v.size (max N padding) = t.s.v.size + max N padding := by
    rw [addW_eq hw (by omega), add64_eq (by omega)]
  have e1' : add64 t.s.v.size (max N padding) = t.s.v.size + max N padding := add64_eq (by omega)
  have e2 : subW m (t.s.v.size + max N padding) 1 = a.text.length + max N padding := by
    rw [subW_nat (by omega) (by omega)]; omega
  have e2' : sub64 (t.s.v.size + max N padding) 1 = a.text.length + max N padding := by
    rw [sub64_eq (by omega) (by omega)]; omega
  have e3 : subW m t.s.v.size 1 = sub64 t.s.v.size 1 := subW_eq hw (by omega) (by omega)
  rw [e1, e1', e2, e2', strResizeW_eq R (mul255_lt h (by omega)), e3]
  clear e1 e1' e2 e2' e3
  refine bind_congr_ret fun r' _ => ?_
  split
  · rfl
  · refine bind_congr_ret fun v _ => ?_
    generalize hO : (if padding > N then padding - N else 0) = O
    have hO255 : O ≤ 255 := by rw [← hO]; split <;> omega
    have e4 : subW m (addW m t.s.v.size O) 1 = sub64 (add64 t.s.v.size O) 1 := by
      rw [addW_eq hw (by omega), add64_eq (by omega), subW_eq hw (by omega) (by omega)]
    rw [e4]
    clear e4
    refine bind_congr_ret fun v' _ => ?_
    rw [nullTerminateW_eq hw (by show 1 ≤ t.s.v.size + max N padding; omega)
      (by show t.s.v.size + max N padding < m; omega)]

theorem putHex_n {upper : Bool} {buffer : Option Nat} {n v : Nat} {q : Str × Nat}
    (h : putHex upper t buffer n v = .ret q) : q.2 = (n + 1) % 256 := by
  unfold putHex at h
  split at h
  · cases h
  · split at h
    · cases h
    · rename_i c _ p _
      cases hp : strPoke t.s.v (c + n) (some p) with
      | ub w => rw [hp] at h; cases h
      | ret vec => rw [hp] at h; injection h with h; rw [← h]

/-- Behind the first digit the loop does not compute with sizes. -/
theorem hexLoopW_tail (m : Nat) (upper : Bool) (value len padding remaining : Nat) : ∀ (i : Nat) (t : Str) (n : Nat)
    (buffer : Option Nat), 1 ≤ n → n + i ≤ 255 →
    hexLoopW m upper value len padding remaining i t n buffer =
      hexLoop upper value len padding remaining i t n buffer := by
  intro i
  induction i with
  | zero => intros; rfl
  | succ i ih =>
    intro t n buffer h1 h
    simp only [hexLoopW, hexLoop]
    rw [if_neg (by omega), if_neg (by omega)]
    refine bind_congr_ret fun q hq => ?_
    have hn := putHex_n hq
    rw [Nat.mod_eq_of_lt (by omega)] at hn
    exact ih _ _ _ (by omega) (by omega)

/-- With `2^64` values of `size_t` the loop is that of the 64-bit model. -/
theorem hexLoopW_64 (upper : Bool) (value len padding remaining : Nat) (i : Nat) (t : Str) (n : Nat)
    (buffer : Option Nat) : hexLoopW 18446744073709551616 upper value len padding remaining i t n buffer =
      hexLoop upper value len padding remaining i t n buffer := by
  induction i generalizing t n buffer with
  | zero => rfl
  | succ i ih => simp only [hexLoopW, hexLoop, ih]; rfl

/-- The loop returns an 8-bit count. -/
theorem hexLoop_n {upper : Bool} {value len padding remaining : Nat} : ∀ (i : Nat) {t : Str} {n : Nat}
    {buffer : Option Nat} {r : Status × Str × Nat}, n ≤ 255 →
    hexLoop upper value len padding remaining i t n buffer = .ret r → r.2.2 ≤ 255 := by
  intro i
  induction i with
  | zero =>
    intro t n buffer r hn h
    simp only [hexLoop] at h
    injection h with h
    rw [← h]
    exact hn
  | succ i ih =>
    intro t n buffer r hn h
    simp only [hexLoop] at h
    have put : ∀ {t : Str} {buf : Option Nat} {k v : Nat},
        ((putHex upper t buf k v).bind fun q =>
          hexLoop upper value len padding remaining i q.1 q.2 buf) = .ret r → r.2.2 ≤ 255 := by
      intro t buf k v h
      cases hq : putHex upper t buf k v with
      | ub w => rw [hq] at h; cases h
      | ret q =>
        rw [hq, Out.ret_bind'] at h
        have := putHex_n hq
        exact ih (by omega) h
    split at h
    · split at h
      · exact ih hn h
      · split at h <;> (
          revert h
          first
          | (cases hr : strResize t (add64 t.s.v.size i) with
            | ub w => intro h; cases h
            | ret r' =>
              rw [Out.ret_bind']
              intro h
              split at h
              · injection h with h; rw [← h]; exact hn
              · split at h
                · revert h
                  cases hv : vecMemset r'.2.s.v (sub64 len 1) 48#8 (padding - i - 1) with
                  | ub w => intro h; cases h
                  | ret vec => rw [Out.ret_bind']; intro h; exact put h
                · rw [Out.ret_bind'] at h; exact put h)
          | (rw [Out.ret_bind']
             intro h
             simp only [failed_success, Bool.false_eq_true, if_false] at h
             split at h
             · revert h
               cases hv : vecMemset t.s.v (sub64 len 1) 48#8 (padding - i - 1) with
               | ub w => intro h; cases h
               | ret vec => rw [Out.ret_bind']; intro h; exact put h
             · rw [Out.ret_bind'] at h; exact put h))
    · exact put h

theorem hexLoopW_eq (R : SRepW m P t a b sl) {upper : Bool} {value len padding remaining : Nat}
    (hp : padding ≤ 255) (hl : 1 ≤ len) (hlm : len < m) : ∀ (i : Nat), i ≤ 16 →
    (a.text.length + 1 + i) * 255 < m → ∀ buffer,
    hexLoopW m upper value len padding remaining i t 0 buffer =
      hexLoop upper value len padding remaining i t 0 buffer := by
  have hw := R.word
  have hsz := R.srep.size
  intro i
  induction i with
  | zero => intros; rfl
  | succ i ih =>
    intro hi h buffer
    simp only [hexLoopW, hexLoop, if_true]
    have e1 : addW m t.s.v.size i = t.s.v.size + i := by
      rw [addW_eq hw (by omega), add64_eq (by omega)]
    have e1' : add64 t.s.v.size i = t.s.v.size + i := add64_eq (by omega)
    have e3 : subW m len 1 = sub64 len 1 := subW_eq hw hl hlm
    rw [e1, e1', e3, strResizeW_eq R (mul255_lt h (by omega))]
    clear e1 e1' e3
    split
    · exact ih (by omega) (mul255_lt h (by omega)) buffer
    · refine bind_congr_ret fun r _ => ?_
      split
      · rfl
      · refine bind_congr_ret fun vec _ => ?_
        refine bind_congr_ret fun q hq => ?_
        have hn := putHex_n hq
        refine hexLoopW_tail _ _ _ _ _ _ _ _ _ _ ?_ ?_
        · split at hn <;> omega
        · split at hn <;> omega

theorem hexFinishW_eq (hm : m ≤ 18446744073709551616) {len n : Nat} (h1 : 1 ≤ len) (h : len + n < m) :
    hexFinishW m t len n = hexFinish t len n := by
  unfold hexFinishW hexFinish
  have e : add64 len n = len + n := add64_eq (by omega)
  rw [addW_eq hm h, e]
  clear e
  rw [nullTerminateW_eq hm (by show 1 ≤ len + n; omega) (by show len + n < m; exact h)]

/-- What a resize leaves. -/
theorem SRepW.resized (R : SRepW m P t a b sl) {n : Nat} (h : (n + 1) * 255 < m) {r : Status × Str}
    (hr : strResize t n = .ret r) :
    ∃ a' b' sl', SRepW m P r.2 a' b' sl' ∧ a'.text.length ≤ max a.text.length n := by
  obtain ⟨junk, st, t', a', b', sl', hj, hstep, hop, R'⟩ := R.step (.resize n) h
  rw [opStrW_eq R (.resize n) h] at hop
  have hop' : strResize t n = .ret (st, t') := hop
  rw [hop'] at hr
  injection hr with hr
  subst hr
  refine ⟨a', b', sl', R', ?_⟩
  have h2 : a' = (sstep P junk a (SOp.resize n)).2 := by rw [hstep]
  rw [h2]
  simp only [sjunkLen] at hj
  simp only [sstep]
  split
  · exact Nat.le_max_left _ _
  · split
    · simp; omega
    · split
      · simp; omega
      · simp; omega

theorem hexWithW_eq (R : SRepW m P t a b sl) {nibbles value padding : Nat} (h16 : nibbles ≤ 16)
    (hp : padding ≤ 255) (h : (a.text.length + 300) * 255 < m) (hb : a.bytes < m) (upper : Bool) :
    strAppendHexWithW m nibbles t value padding upper = strAppendHexWith nibbles t value padding upper := by
  have hw := R.word
  have hsz := R.srep.size
  have hcap : t.s.v.cap = a.bytes := R.srep.rep.cap
  have hlen := R.srep.rep.len
  simp only [List.length_append, List.length_singleton] at hlen
  unfold strAppendHexWithW strAppendHexWith
  simp only
  have e1 : subW m t.s.v.cap t.s.v.size = sub64 t.s.v.cap t.s.v.size := subW_eq hw (by omega) (by omega)
  have e2 : subW m (addW m t.s.v.size padding) 1 = a.text.length + padding := by
    rw [addW_eq hw (by omega), add64_eq (by omega), subW_nat (by omega) (by omega)]; omega
  have e2' : sub64 (add64 t.s.v.size padding) 1 = a.text.length + padding := by
    rw [add64_eq (by omega), sub64_eq (by omega) (by omega)]; omega
  have e3 : subW m t.s.v.size 1 = sub64 t.s.v.size 1 := subW_eq hw (by omega) (by omega)
  rw [e1, e2, e2', e3, strResizeW_eq R (mul255_lt h (by omega))]
  clear e1 e2 e2' e3
  refine bind_congr_ret fun r hr => ?_
  have hR : ∃ a' b' sl', SRepW m P r.2 a' b' sl' ∧ a'.text.length ≤ a.text.length + 255 := by
    split at hr
    · obtain ⟨a', b', sl', R', hl⟩ := R.resized (mul255_lt h (by omega)) hr
      exact ⟨a', b', sl', R', by omega⟩
    · injection hr with hr
      subst hr
      exact ⟨a, b, sl, R, by omega⟩
  obtain ⟨a', b', sl', R', hl⟩ := hR
  have hsz' := R'.srep.size
  clear hr
  split
  · rfl
  · split
    · generalize hN : (if padding ≠ 0 then padding else 1) = N
      have hN' : N ≤ 255 ∧ 1 ≤ N := by rw [← hN]; split <;> omega
      have hres : ∀ q : Nat, (if (if q < padding then padding else q) < N then
            strResizeW m r.2 (subW m (addW m r.2.s.v.size N) 1) else .ret (stSuccess, r.2)) =
          (if (if q < padding then padding else q) < N then
            strResize r.2 (sub64 (add64 r.2.s.v.size N) 1) else .ret (stSuccess, r.2)) := by
        intro q
        by_cases hp0 : padding = 0
        · have hN1 : N = 1 := by rw [← hN, if_neg (by omega)]
          have e2 : subW m (addW m r.2.s.v.size N) 1 = a'.text.length + N := by
            rw [addW_eq hw (by omega), add64_eq (by omega), subW_nat (by omega) (by omega)]; omega
          have e2' : sub64 (add64 r.2.s.v.size N) 1 = a'.text.length + N := by
            rw [add64_eq (by omega), sub64_eq (by omega) (by omega)]; omega
          rw [e2, e2', strResizeW_eq R' (mul255_lt h (by clear e2 e2'; omega))]
        · have hN1 : N = padding := by rw [← hN, if_pos hp0]
          have : ¬ (if q < padding then padding else q) < N := by split <;> omega
          rw [if_neg this, if_neg this]
      rw [hres]
      refine bind_congr_ret fun r' _ => ?_
      split
      · rfl
      · refine bind_congr_ret fun v _ => ?_
        exact hexFinishW_eq hw (by omega) (by omega)
    · rw [hexLoopW_eq R' hp (by omega) (by omega) _ h16 (mul255_lt h (by omega))]
      refine bind_congr_ret fun r' hr' => ?_
      have hn := hexLoop_n _ (Nat.zero_le _) hr'
      split
      · rfl
      · exact hexFinishW_eq hw (by omega) (by omega)

theorem decUW_eq (R : SRepW m P t a b sl) (regs64 : Bool) {value padding : Nat}
    (hv : value < 18446744073709551616) (hp : padding ≤ 255) (h : (a.text.length + 300) * 255 < m) :
    strAppendDecUW m regs64 t value padding = strAppendDecU t value padding := by
  unfold strAppendDecUW
  rw [decWithW_eq R (by decide) hp h, decWithW_eq R (by decide) hp h]
  cases regs64 with
  | true => rfl
  | false =>
    simp only [Bool.false_eq_true, if_false]
    split
    · rfl
    · rename_i hz
      have h' := high_zero hv (by simpa using hz)
      rw [Nat.mod_eq_of_lt h']
      exact decWith_same t padding (by omega)

theorem hexUW_eq (R : SRepW m P t a b sl) (regs64 : Bool) {value padding : Nat}
    (hv : value < 18446744073709551616) (hp : padding ≤ 255) (h : (a.text.length + 300) * 255 < m)
    (hb : a.bytes < m) (upper : Bool) :
    strAppendHexUW m regs64 t value padding upper = strAppendHexU t value padding upper := by
  unfold strAppendHexUW strAppendHexU64W
  rw [hexWithW_eq R (by split <;> omega) hp h hb, hexWithW_eq R (by decide) hp h hb]
  cases regs64 with
  | true => rfl
  | false =>
    simp only [Bool.false_eq_true, if_false]
    split
    · rename_i hz
      unfold strAppendHexU strAppendHexU64
      rw [if_pos hz]
    · rename_i hz
      have h' := high_zero hv (by simpa using hz)
      unfold strAppendHexU strAppendHexU64
      rw [Nat.mod_eq_of_lt h', if_neg hz]

/-! ## Sign and prefix -/

theorem trim_lt (hg : P.growth ≤ 255) {c n : Nat} (hc : c < m) (h : n * 255 < m) (_ : 1 < m) : trim P c n < m := by
  unfold trim
  have : n * P.growth ≤ n * 255 := Nat.mul_le_mul_left _ hg
  split
  · omega
  · exact hc

theorem room_lt (hg : P.growth ≤ 255) {c n c' : Nat} (hc : c < m) (h : n * 255 < m) (hr : room P c n = some c') :
    c' < m := by
  unfold room at hr
  have : n * P.growth ≤ n * 255 := Nat.mul_le_mul_left _ hg
  split at hr
  · injection hr with hr; omega
  · split at hr
    · injection hr with hr; omega
    · cases hr

theorem appendText_bytes (hg : P.growth ≤ 255) {x : List (Cell Byte)} (hb : a.bytes < m)
    (h : (a.text.length + x.length + 1) * 255 < m) (h1 : 1 < m) : (appendText P a x).2.bytes < m := by
  unfold appendText
  split
  · exact hb
  · split
    · exact hb
    · rename_i c hc
      unfold extend at hc
      split at hc
      · injection hc with hc
        rw [← hc]
        exact trim_lt hg hb h h1
      · exact room_lt hg hb h hc

/-- What appending a view leaves. -/
theorem SRepW.appended (R : SRepW m P t a b sl) {v : View} {x : List Byte} (hv : Shows v x)
    (hb : a.bytes < m) (h : (a.text.length + x.length + 1) * 255 < m) {r : Status × Str}
    (hr : strAppend t v = .ret r) :
    ∃ a' b' sl', SRepW m P r.2 a' b' sl' ∧ a'.text.length ≤ a.text.length + x.length ∧ a'.bytes < m := by
  have hw := R.word
  obtain ⟨h1, rest, h2⟩ := hv
  obtain ⟨mem, size⟩ := v
  subst h1 h2
  obtain ⟨t', b', sl', e, R'⟩ := append_res R.srep (x.map some) rest
    (by unfold SFits; rw [List.length_map]; omega)
  rw [List.length_map] at e
  rw [e] at hr
  injection hr with hr
  subst hr
  have hl := appendText_len P a (x.map some)
  rw [List.length_map] at hl
  refine ⟨_, b', sl', ⟨R', hw, ?_⟩, hl, ?_⟩
  · exact mul255_lt h (by omega)
  · exact appendText_bytes R.srep.rep.growth255 hb (by rw [List.length_map]; exact h) (by omega)

theorem checkAppendW_eq (R : SRepW m P t a b sl) {v : View} {x : List Byte} (hv : Shows v x)
    (hb : a.bytes < m) (h : (a.text.length + x.length + 1) * 255 < m) {k k' : Str → Out (Status × Str)}
    (hk : ∀ t' a' b' sl', SRepW m P t' a' b' sl' → a'.text.length ≤ a.text.length + x.length → a'.bytes < m →
      k t' = k' t') : checkAppendW m t v k = checkAppend t v k' := by
  unfold checkAppendW checkAppend
  have h1 := hv.1
  rw [appendW_eq R v (by omega) (by rw [h1]; exact h)]
  refine bind_congr_ret fun r hr => ?_
  split
  · rfl
  · obtain ⟨a', b', sl', R', hl, hb'⟩ := R.appended hv hb h hr
    exact hk _ _ _ _ R' hl hb'

theorem checkPrefixW_eq (R : SRepW m P t a b sl) {pre : Option View} {x : List Byte} (hv : PrefixShows pre x)
    (hb : a.bytes < m) (h : (a.text.length + x.length + 1) * 255 < m) {k k' : Str → Out (Status × Str)}
    (hk : ∀ t' a' b' sl', SRepW m P t' a' b' sl' → a'.text.length ≤ a.text.length + x.length → a'.bytes < m →
      k t' = k' t') : checkPrefixW m t pre k = checkPrefix t pre k' := by
  cases pre with
  | none => exact hk _ _ _ _ R (by omega) hb
  | some v => exact checkAppendW_eq R hv hb h hk

theorem signedW_eq (R : SRepW m P t a b sl) {number number' : Str → Nat → Out (Status × Str)} (value : BitVec 64)
    (forceSign : Bool) {pre : Option View} {px : List Byte} (hpre : PrefixShows pre px)
    (hb : a.bytes < m) (h : (a.text.length + px.length + 301) * 255 < m)
    (hk : ∀ t' a' b' sl' n, SRepW m P t' a' b' sl' → a'.text.length ≤ a.text.length + px.length + 1 →
      a'.bytes < m → n < 18446744073709551616 → number t' n = number' t' n) :
    strAppendSignedW m number t value forceSign pre = strAppendSigned number' t value forceSign pre := by
  unfold strAppendSignedW strAppendSigned
  have hsub : Shows viewSub [45#8] := ⟨rfl, by decide⟩
  have hadd : Shows viewAdd [43#8] := ⟨rfl, by decide⟩
  have hs1 : (a.text.length + [45#8].length + 1) * 255 < m := mul255_lt h (by simp; omega)
  have ha1 : (a.text.length + [43#8].length + 1) * 255 < m := mul255_lt h (by simp; omega)
  split
  · refine checkAppendW_eq R hsub hb hs1 fun t1 a1 b1 sl1 R1 hl1 hb1 => ?_
    simp only [List.length_singleton] at hl1
    refine checkPrefixW_eq R1 hpre hb1 (mul255_lt h (by omega)) fun t2 a2 b2 sl2 R2 hl2 hb2 => ?_
    refine bind_congr_ret fun n _ => ?_
    exact hk _ _ _ _ _ R2 (by omega) hb2 n.isLt
  · split
    · refine checkAppendW_eq R hadd hb ha1 fun t1 a1 b1 sl1 R1 hl1 hb1 => ?_
      simp only [List.length_singleton] at hl1
      refine checkPrefixW_eq R1 hpre hb1 (mul255_lt h (by omega)) fun t2 a2 b2 sl2 R2 hl2 hb2 => ?_
      exact hk _ _ _ _ _ R2 (by omega) hb2 value.isLt
    · refine checkPrefixW_eq R hpre hb (mul255_lt h (by omega)) fun t2 a2 b2 sl2 R2 hl2 hb2 => ?_
      exact hk _ _ _ _ _ R2 (by omega) hb2 value.isLt

theorem decSW_eq (R : SRepW m P t a b sl) (regs64 : Bool) (value : BitVec 64) {padding : Nat}
    (hp : padding ≤ 255) (forceSign : Bool) {pre : Option View} {px : List Byte} (hpre : PrefixShows pre px)
    (hb : a.bytes < m) (h : (a.text.length + px.length + 301) * 255 < m) :
    strAppendDecSW m regs64 t value padding forceSign pre = strAppendDecS t value padding forceSign pre :=
  signedW_eq R value forceSign hpre hb h fun _ _ _ _ _ R' hl _ hn =>
    decUW_eq R' regs64 hn hp (mul255_lt h (by omega))

theorem hexSW_eq (R : SRepW m P t a b sl) (regs64 : Bool) (value : BitVec 64) {padding : Nat}
    (hp : padding ≤ 255) (upper forceSign : Bool) {pre : Option View} {px : List Byte}
    (hpre : PrefixShows pre px) (hb : a.bytes < m) (h : (a.text.length + px.length + 301) * 255 < m) :
    strAppendHexSW m regs64 t value padding upper forceSign pre =
      strAppendHexS t value padding upper forceSign pre :=
  signedW_eq R value forceSign hpre hb h fun _ _ _ _ _ R' hl hb' hn =>
    hexUW_eq R' regs64 hn hp (mul255_lt h (by omega)) hb' upper

/-! ## printf-style append -/

/-- A resize of a string whose terminator may be gone. -/
theorem resizeW_any {s : VS Byte} {fx : Bool} {pre : List (Cell Byte)} {c0 : Cell Byte} {c : Nat}
    (R : RepW m P s ⟨pre ++ [c0], c, []⟩ b sl) (one : P.esz = 1) {n : Nat} (h : (n + 1) * 255 < m) (hc : c < m) :
    strResizeW m ⟨s, fx⟩ n = strResize ⟨s, fx⟩ n ∧
    ∀ r, strResize ⟨s, fx⟩ n = .ret r → 1 ≤ r.2.s.v.size ∧ r.2.s.v.size ≤ r.2.s.v.cap ∧ r.2.s.v.cap < m := by
  have hw := R.word
  have hd : InDomainW m P ⟨pre ++ [c0], c, []⟩ (VOp.resize (n + 1) none) := (fitsW_one one).2 h
  obtain ⟨junk, st, s1, a1, b1, sl1, hj, hstep, hop, R1⟩ := R.step (.resize (n + 1) none) hd
  rw [opW_eq R _ hd] at hop
  have hop' : vecResize s (n + 1) = .ret (st, s1) := hop
  have e : vecResizeW m s (n + 1) = vecResize s (n + 1) := opW_eq R (.resize (n + 1) none) hd
  have hl := (fitsW_one one).1 R1.fits
  have h2 : a1 = (step P junk ⟨pre ++ [c0], c, []⟩ (VOp.resize (n + 1) none)).2 := by rw [hstep]
  have hj : junk.length = n + 1 - (pre ++ [c0]).length := hj
  have hpos : 1 ≤ a1.elems.length ∧ a1.cap < m := by
    rw [h2]
    simp only [step]
    have ht : trim P c (n + 1) < m := trim_lt R.rep.growth255 hc h (by omega)
    split
    · exact ⟨by simp, hc⟩
    · split
      · exact ⟨by simp, hc⟩
      · rename_i c' hr
        have hc' : c' < m := room_lt R.rep.growth255 hc h hr
        split
        · exact ⟨by simp, ht⟩
        · refine ⟨by simp; omega, ?_⟩
          show (if n + 1 ≤ c then trim P c (n + 1) else c') < m
          split
          · exact ht
          · exact hc'
  have e1 : addW m n 1 = n + 1 := by rw [addW_eq hw (by omega), add64_eq (by omega)]
  have e1' : add64 n 1 = n + 1 := add64_eq (by omega)
  have hsz := R1.rep.size
  unfold strResizeW strResize
  simp only
  rw [e1, e1', e, hop', Out.ret_bind', Out.ret_bind']
  clear e1 e1'
  refine ⟨checkTerminateW_eq hw (by show 1 ≤ s1.v.size; omega) (by show s1.v.size * 255 < m; rw [hsz]; exact hl), ?_⟩
  intro r hr
  have hlen := R1.rep.len
  have hcap := R1.rep.cap
  have key : r.2.s.v.size = s1.v.size ∧ r.2.s.v.cap = s1.v.cap := by
    unfold checkTerminate at hr
    split at hr
    · injection hr with hr; subst hr; exact ⟨rfl, rfl⟩
    · cases hv : nullTerminate { (⟨s, fx⟩ : Str) with s := s1 } with
      | ub w => rw [hv] at hr; cases hr
      | ret t' =>
        rw [hv, Out.ret_bind'] at hr
        injection hr with hr
        subst hr
        unfold nullTerminate at hv
        cases hp : strPoke s1.v (sub64 s1.v.size 1) (some 0#8) with
        | ub w => rw [hp] at hv; cases hv
        | ret v =>
          rw [hp, Out.ret_bind'] at hv
          injection hv with hv
          subst hv
          unfold strPoke withData at hp
          split at hp
          · cases hp
          · simp only at hp
            split at hp
            · injection hp with hp; subst hp; exact ⟨rfl, rfl⟩
            · cases hp
  rw [key.1, key.2, hsz, hcap]
  exact ⟨hpos.1, hlen, hpos.2⟩

theorem formatW_eq (R : SRepW m P t a b sl) {fmt : Fmt} (hb : a.bytes < m)
    (h : ∀ x, fmt 0 = .text x → (a.text.length + x.length + 1) * 255 < m) :
    strAppendFormatW m t fmt = strAppendFormat t fmt := by
  have hw := R.word
  have hsz := R.srep.size
  have hlt := R.lt
  have hcap : t.s.v.cap = a.bytes := R.srep.rep.cap
  have hlen := R.srep.rep.len
  simp only [List.length_append, List.length_singleton] at hlen
  obtain ⟨v, c0, b1, sl1, e, R1⟩ := format_first R.srep (by omega) (fmt 0)
  have hcap1 : v.cap = a.bytes := R1.cap
  have hsize1 : v.size = a.text.length + 1 := by rw [R1.size]; simp
  have RW1 : RepW m P ⟨v, t.s.w⟩ ⟨a.text ++ [c0], a.bytes, []⟩ b1 sl1 :=
    ⟨R1, hw, by rw [R.srep.one]; omega, by rw [fitsW_one R.srep.one]; simpa using hlt⟩
  have e1 : subW m t.s.v.size 1 = sub64 t.s.v.size 1 := subW_eq hw (by omega) (by omega)
  have e2 : addW m (subW m t.s.v.cap t.s.v.size) 1 = add64 (sub64 t.s.v.cap t.s.v.size) 1 := by
    rw [subW_eq hw (by omega) (by omega), sub64_eq (by omega) (by omega), addW_eq hw (by omega)]
  have e3 : subW m v.cap t.s.v.size = sub64 v.cap t.s.v.size := subW_eq hw (by omega) (by omega)
  unfold strAppendFormatW strAppendFormat
  simp only
  rw [e1, e2, e, Out.ret_bind', Out.ret_bind']
  simp only
  rw [e3]
  clear e e1 e2 e3
  cases hf : fmt 0 with
  | error x => simp
  | text x =>
    have hx := h x hf
    simp only
    by_cases hx31 : x.length ≤ 0x7fffffff
    · rw [if_pos hx31, if_neg (by omega : ¬ ((x.length : Int) < 0)), if_neg (by omega : ¬ ((x.length : Int) < 0)),
        Int.toNat_natCast]
      have e4 : addW m t.s.v.size x.length = add64 t.s.v.size x.length := addW_eq hw (by omega)
      have e5 : subW m (addW m v.size x.length) 1 = a.text.length + x.length := by
        rw [addW_eq hw (by omega), add64_eq (by omega), subW_nat (by omega) (by omega)]; omega
      have e5' : sub64 (add64 v.size x.length) 1 = a.text.length + x.length := by
        rw [add64_eq (by omega), sub64_eq (by omega) (by omega)]; omega
      obtain ⟨e6, hr⟩ := resizeW_any (fx := t.fixed) RW1 R.srep.one (n := a.text.length + x.length) hx hb
      rw [e4, e5, e5', e6]
      clear e4 e5 e5' e6
      split
      · rfl
      · refine bind_congr_ret fun r hr' => ?_
        obtain ⟨h0, h1, h2⟩ := hr r hr'
        have e7 : addW m (subW m r.2.s.v.cap r.2.s.v.size) 1 = add64 (sub64 r.2.s.v.cap r.2.s.v.size) 1 := by
          rw [subW_eq hw h1 h2, sub64_eq h1 (by omega), addW_eq hw (by omega)]
        rw [e7]
    · rw [if_neg hx31]
      simp

/-! ## The text afterwards -/

theorem NumRes.grown {res : Out (Status × Str)} {x : List (Cell Byte)} {r : Status × Str}
    (h : NumRes P res a x) (hr : res = .ret r) :
    ∃ a' b' sl', SRep P r.2 a' b' sl' ∧ a'.text.length ≤ a.text.length + x.length := by
  obtain ⟨h1, h2, h3⟩ := h
  subst hr
  have key : ∀ {st : Status} {a' : SState}, SRes P (.ret r) st a' → a'.text.length ≤ a.text.length + x.length →
      ∃ a' b' sl', SRep P r.2 a' b' sl' ∧ a'.text.length ≤ a.text.length + x.length := by
    intro st a' hs hl
    obtain ⟨t', b', sl', e, R⟩ := hs
    injection e with e
    subst e
    exact ⟨a', b', sl', R, hl⟩
  by_cases hle : a.text.length + x.length + 1 ≤ a.bytes
  · exact key (h1 hle) (by simp)
  · by_cases hd : P.allocator = none
    · exact key (h2 (by omega) hd) (by omega)
    · obtain ⟨c, _, _, hs⟩ := h3 (by omega) hd
      exact key hs (by simp)

theorem AppRes.grown {res : Out (Status × Str)} {x : List (Cell Byte)} {r : Status × Str}
    (h : AppRes P res a x) (hr : res = .ret r) :
    ∃ a' b' sl', SRep P r.2 a' b' sl' ∧ a'.text.length ≤ a.text.length + x.length := by
  obtain ⟨h1, h2, h3⟩ := h
  subst hr
  have key : ∀ {st : Status} {a' : SState}, SRes P (.ret r) st a' → a'.text.length ≤ a.text.length + x.length →
      ∃ a' b' sl', SRep P r.2 a' b' sl' ∧ a'.text.length ≤ a.text.length + x.length := by
    intro st a' hs hl
    obtain ⟨t', b', sl', e, R⟩ := hs
    injection e with e
    subst e
    exact ⟨a', b', sl', R, hl⟩
  by_cases hd : P.allocator = none
  · by_cases hle : a.text.length + x.length + 1 ≤ a.bytes
    · exact key (h1 hd hle) (by simp)
    · obtain ⟨y, hy, hs⟩ := h2 hd (by omega)
      have := hy.length_le
      exact key hs (by simp; omega)
  · obtain ⟨c, _, hs⟩ := h3 hd
    exact key hs (by simp)

theorem padded_length {base padding value : Nat} (upper : Bool) (hb : 2 ≤ base) (hp : padding ≤ 255)
    (hv : value < base ^ 64) : (padded padding (numeral base upper value)).length ≤ 255 := by
  have := digits_length hb 63 value hv
  unfold padded numeral
  simp only [List.length_append, List.length_replicate, List.length_map]
  omega

theorem signPrefix_length (v : Int) (f : Bool) (px : List Byte) :
    (signPrefix v f px).length ≤ px.length + 1 := by
  unfold signPrefix
  split
  · simp
  · split <;> simp

theorem natAbs_lt (v : BitVec 64) : v.toInt.natAbs < 18446744073709551616 := by
  have h1 := BitVec.toInt_lt (x := v)
  have h2 := BitVec.le_toInt (x := v)
  simp only [Nat.add_one_sub_one, Int.reducePow] at h1 h2
  omega

end

end Zy
