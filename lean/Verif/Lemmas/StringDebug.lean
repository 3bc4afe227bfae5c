import Verif.Spec.StringDebug
import Verif.Lemmas.VectorDebug
import Verif.Lemmas.StringReach
import Verif.Lemmas.Format

/-!
# Lemmas: the string functions with assertions
-/

namespace Zy

open Spec

/-! ## Steps that keep a vector usable -/

theorem bind_bind {α β γ : Type} (x : Out α) (f : α → Out β) (g : β → Out γ) :
    (x.bind f).bind g = x.bind fun a => (f a).bind g := by
  cases x <;> rfl

/-- `v'` differs from `v` in its memory and its size only. -/
structure SameFrame (v v' : Vec Byte) : Prop where
  esz : v'.esz = v.esz
  cap : v'.cap = v.cap
  growth : v'.growth = v.growth
  data : v'.data.isSome

theorem SameFrame.usable {v v' : Vec Byte} {w w' : World Byte} (f : SameFrame v v')
    (h : Usable (⟨v, w⟩ : VS Byte)) : Usable (⟨v', w'⟩ : VS Byte) :=
  ⟨by have := h.esz; simpa [f.esz] using this, f.data, by have := h.cap; simpa [f.cap] using this,
    by have := h.growth; simpa [f.growth] using this, by have := h.growth255; simpa [f.growth] using this⟩

theorem strPoke_frame {v v' : Vec Byte} {i : Nat} {c : Cell Byte} (e : strPoke v i c = .ret v') :
    SameFrame v v' := by
  unfold strPoke withData at e
  split at e
  · cases e
  simp only at e
  split at e
  · cases e; exact ⟨rfl, rfl, rfl, rfl⟩
  · cases e

theorem vecMemcpy_frame {v v' : Vec Byte} {i n : Nat} {x : Src Byte} (e : vecMemcpy v i x n = .ret v') :
    SameFrame v v' := by
  unfold vecMemcpy withData at e
  split at e
  · cases e
  obtain ⟨b', _, e⟩ := bind_ret e
  cases e
  exact ⟨rfl, rfl, rfl, rfl⟩

theorem vecMemset_frame {v v' : Vec Byte} {i n : Nat} {c : Byte} (e : vecMemset v i c n = .ret v') :
    SameFrame v v' := by
  unfold vecMemset withData at e
  split at e
  · cases e
  obtain ⟨b', _, e⟩ := bind_ret e
  cases e
  exact ⟨rfl, rfl, rfl, rfl⟩

theorem nullTerminate_usable {t t' : Str} (h : Usable t.s) (e : nullTerminate t = .ret t') :
    Usable t'.s := by
  unfold nullTerminate at e
  obtain ⟨v, e1, e⟩ := bind_ret e
  cases e
  exact (strPoke_frame e1).usable h

theorem checkTerminate_usable {t : Str} {r : Status × VS Byte} {q : Status × Str} (h : Usable r.2)
    (e : checkTerminate t r = .ret q) : Usable q.2.s := by
  unfold checkTerminate at e
  split at e
  · cases e; exact h
  · obtain ⟨t', e1, e⟩ := bind_ret e
    cases e
    exact nullTerminate_usable (t := { t with s := r.2 }) h e1

theorem strStart_frame {v v' : Vec Byte} (e : strStart v = .ret v') : SameFrame v v' := by
  unfold strStart at e
  obtain ⟨u, e1, e⟩ := bind_ret e
  cases e
  have := strPoke_frame e1
  exact ⟨this.esz, this.cap, this.growth, this.data⟩

theorem vecDeleteRange_stays {s : VS Byte} (h : Usable s) {i n : Nat} {r : Status × VS Byte}
    (e : vecDeleteRange s i n = .ret r) : Usable r.2 := by
  unfold vecDeleteRange at e
  split at e
  · cases e; exact h
  split at e
  · cases e; exact h
  obtain ⟨s1, e1, e⟩ := bind_ret e
  obtain ⟨s2, e2, e⟩ := bind_ret e
  have h1 := h.of_v (runDtors_v e1)
  have h2 : Usable s2 := by
    split at e2
    · exact (shiftLeft_usable h1 e2).1
    · cases e2; exact h1
  exact (shrinkAfter_usable (h2.resized _) e).1

/-! ## The functions agree -/

theorem strResizeD_eq {t : Str} (h : Usable t.s) (n : Nat) : strResizeD t n = strResize t n := by
  unfold strResizeD strResize
  rw [vecResizeExD_eq h]
  rfl

theorem strResize_usable {t : Str} (h : Usable t.s) {n : Nat} {r : Status × Str}
    (e : strResize t n = .ret r) : Usable r.2.s := by
  unfold strResize at e
  obtain ⟨q, e1, e⟩ := bind_ret e
  exact checkTerminate_usable (vecResizeEx_usable h e1).1 e

theorem strAppendSrcD_eq {t : Str} (h : Usable t.s) (x : Src Byte) (n : Nat) :
    strAppendSrcD t x n = strAppendSrc t x n := by
  unfold strAppendSrcD strAppendSrc
  simp only [vecResizeExD_eq h]
  rfl

theorem strAppendSrc_usable {t : Str} (h : Usable t.s) {x : Src Byte} {n : Nat} {r : Status × Str}
    (e : strAppendSrc t x n = .ret r) : Usable r.2.s := by
  unfold strAppendSrc at e
  split at e
  · cases e; exact h
  obtain ⟨q, e1, e⟩ := bind_ret e
  have h1 := (vecResizeEx_usable h e1).1
  split at e
  · cases e; exact h1
  obtain ⟨v, e2, e⟩ := bind_ret e
  obtain ⟨t', e3, e⟩ := bind_ret e
  cases e
  exact nullTerminate_usable (t := { t with s := { q.2 with v := v } })
    ((vecMemcpy_frame e2).usable h1) e3

theorem strAppendExSrcD_eq {t : Str} (h : Usable t.s) (x : Src Byte) (n i c : Nat) :
    strAppendExSrcD t x n i c = strAppendExSrc t x n i c := by
  unfold strAppendExSrcD strAppendExSrc
  simp only [vecResizeExD_eq h]
  rfl

theorem strAppendExSrc_usable {t : Str} (h : Usable t.s) {x : Src Byte} {n i c : Nat} {r : Status × Str}
    (e : strAppendExSrc t x n i c = .ret r) : Usable r.2.s := by
  unfold strAppendExSrc at e
  split at e
  · cases e; exact h
  split at e
  · cases e; exact h
  obtain ⟨q, e1, e⟩ := bind_ret e
  have h1 := (vecResizeEx_usable h e1).1
  split at e
  · cases e; exact h1
  obtain ⟨v, e2, e⟩ := bind_ret e
  obtain ⟨t', e3, e⟩ := bind_ret e
  cases e
  exact nullTerminate_usable (t := { t with s := { q.2 with v := v } })
    ((vecMemcpy_frame e2).usable h1) e3

theorem caseLoop_frame (f : Byte → Byte) : ∀ (n : Nat) {v v' : Vec Byte} {i : Nat}, v.data.isSome →
    caseLoop f v i n = .ret v' → SameFrame v v'
  | 0, v, v', i, hd, e => by cases e; exact ⟨rfl, rfl, rfl, hd⟩
  | n + 1, v, v', i, hd, e => by
    unfold caseLoop at e
    unfold withData at e
    split at e
    · cases e
    obtain ⟨c, _, e⟩ := bind_ret e
    obtain ⟨u, e1, e⟩ := bind_ret e
    have h1 := strPoke_frame e1
    have h2 := caseLoop_frame f n h1.data e
    exact ⟨h2.esz.trans h1.esz, h2.cap.trans h1.cap, h2.growth.trans h1.growth, h2.data⟩

theorem strOpD_eq {t : Str} (h : Usable t.s) {op : SOp} (hop : isInsertion op = false) :
    strOpD t op = strOp t op := by
  cases op with
  | append x => exact strAppendSrcD_eq h _ _
  | appendEx x j n => exact strAppendExSrcD_eq h _ _ _ _
  | insert i x => cases hop
  | insertEx i x j n => cases hop
  | delete i n =>
    show strDeleteD t i n = strDelete t i n
    unfold strDeleteD strDelete
    rw [vecDeleteRangeD_eq h]
  | truncate i =>
    show strTruncateD t i = strTruncate t i
    unfold strTruncateD strTruncate
    rw [vecDeleteRangeD_eq h]
  | clear =>
    show strClearD t = strClear t
    unfold strClearD strClear
    rw [vecResizeExD_eq h]
    refine bind_same fun r e => ?_
    split
    · rfl
    have := (vecResizeEx_usable h e).1.cap
    rw [assertThat, if_pos (by simpa using this)]
  | setChar i c =>
    show strSetCharD t i c = strSetChar t i c
    unfold strSetCharD strSetChar
    rw [vecSetD_eq h]
  | lower i n => rfl
  | upper i n => rfl
  | resize n => exact strResizeD_eq h n
  | reserve c =>
    show strReserveD t c = strReserve t c
    unfold strReserveD strReserve
    rw [vecReserveD_eq h]
  | shrinkToFit =>
    show strShrinkToFitD t = strShrinkToFit t
    unfold strShrinkToFitD strShrinkToFit
    rw [vecShrinkToFitD_eq h]

theorem strCaseEx_usable {f : Byte → Byte} {t : Str} (h : Usable t.s) {i n : Nat} {r : Status × Str}
    (e : strCaseEx f t i n = .ret r) : Usable r.2.s := by
  unfold strCaseEx at e
  split at e
  · cases e; exact h
  obtain ⟨v, e1, e⟩ := bind_ret e
  cases e
  exact (caseLoop_frame f _ h.data e1).usable h

theorem strOp_usable {t : Str} (h : Usable t.s) {op : SOp} (hop : isInsertion op = false)
    {r : Status × Str} (e : strOp t op = .ret r) : Usable r.2.s := by
  cases op with
  | append x =>
    simp only [strOp, strAppend] at e
    exact strAppendSrc_usable h e
  | appendEx x j n =>
    simp only [strOp, strAppendEx] at e
    exact strAppendExSrc_usable h e
  | insert i x => cases hop
  | insertEx i x j n => cases hop
  | delete i n =>
    simp only [strOp, strDelete] at e
    split at e
    · cases e; exact h
    obtain ⟨q, e1, e⟩ := bind_ret e
    exact checkTerminate_usable (vecDeleteRange_stays h e1) e
  | truncate i =>
    simp only [strOp, strTruncate] at e
    split at e
    · cases e; exact h
    obtain ⟨q, e1, e⟩ := bind_ret e
    exact checkTerminate_usable (vecDeleteRange_stays h e1) e
  | clear =>
    simp only [strOp, strClear] at e
    obtain ⟨q, e1, e⟩ := bind_ret e
    have h1 := (vecResizeEx_usable h e1).1
    split at e
    · cases e; exact h1
    obtain ⟨v, e2, e⟩ := bind_ret e
    cases e
    exact (strStart_frame e2).usable h1
  | setChar i c =>
    simp only [strOp, strSetChar] at e
    split at e
    · cases e; exact h
    obtain ⟨q, e1, e⟩ := bind_ret e
    cases e
    exact (vecSet_usable h e1).1
  | lower i n => exact strCaseEx_usable h e
  | upper i n => exact strCaseEx_usable h e
  | resize n => exact strResize_usable h e
  | reserve c =>
    simp only [strOp, strReserve] at e
    obtain ⟨q, e1, e⟩ := bind_ret e
    cases e
    exact (vecReserve_usable h e1).1
  | shrinkToFit =>
    simp only [strOp, strShrinkToFit] at e
    obtain ⟨q, e1, e⟩ := bind_ret e
    cases e
    exact (reallocate_usable h e1).1

/-! ## Numbers -/

theorem strAppendDecWithD_eq {t : Str} (h : Usable t.s) (m value padding : Nat) :
    strAppendDecWithD m t value padding = strAppendDecWith m t value padding := by
  unfold strAppendDecWithD strAppendDecWith
  simp only [strResizeD_eq h]

theorem strAppendDecWith_usable {t : Str} (h : Usable t.s) {m value padding : Nat} {r : Status × Str}
    (e : strAppendDecWith m t value padding = .ret r) : Usable r.2.s := by
  unfold strAppendDecWith at e
  obtain ⟨r1, _, e⟩ := bind_ret e
  simp only at e
  obtain ⟨q, _, e⟩ := bind_ret e
  generalize (if r1.2.2 < 10 then 1 else 0) = z at e
  obtain ⟨r2, e2, e⟩ := bind_ret e
  have h2 : Usable r2.2.s := by
    split at e2
    · exact strResize_usable h e2
    · cases e2; exact h
  split at e
  · cases e; exact h2
  obtain ⟨v1, e3, e⟩ := bind_ret e
  have f3 : SameFrame r2.2.s.v v1 := by
    split at e3
    · exact vecMemset_frame e3
    · cases e3; exact ⟨rfl, rfl, rfl, h2.data⟩
  obtain ⟨v2, e4, e⟩ := bind_ret e
  have f4 := vecMemcpy_frame e4
  obtain ⟨t', e5, e⟩ := bind_ret e
  cases e
  refine nullTerminate_usable ?_ e5
  exact SameFrame.usable (v := v2) (w := r2.2.s.w) ⟨rfl, rfl, rfl, f4.data⟩ (f4.usable (f3.usable (w' := r2.2.s.w) h2))

theorem putHex_usable {u : Bool} {t : Str} (h : Usable t.s) {b : Option Nat} {n v : Nat} {r : Str × Nat}
    (e : putHex u t b n v = .ret r) : Usable r.1.s := by
  unfold putHex at e
  split at e
  · cases e
  split at e
  · cases e
  obtain ⟨v, e1, e⟩ := bind_ret e
  cases e
  exact (strPoke_frame e1).usable h

theorem hexLoopD_eq (u : Bool) (value len padding remaining : Nat) : ∀ (i : Nat) {t : Str} {n : Nat}
    {b : Option Nat}, Usable t.s → (n ≠ 0 → b.isSome) →
    hexLoopD u value len padding remaining i t n b = hexLoop u value len padding remaining i t n b ∧
    ∀ r, hexLoop u value len padding remaining i t n b = .ret r → Usable r.2.1.s
  | 0, t, n, b, h, hb => ⟨rfl, fun r e => by cases e; exact h⟩
  | i + 1, t, n, b, h, hb => by
    unfold hexLoopD hexLoop
    simp only
    by_cases hn : n = 0
    · rw [if_pos hn, if_pos hn]
      by_cases hv : (value >>> (i * 4)) &&& 0x0F = 0
      · rw [if_pos hv, if_pos hv]
        exact hexLoopD_eq u value len padding remaining i h hb
      · rw [if_neg hv, if_neg hv]
        constructor
        · rw [strResizeD_eq h]
          refine bind_same fun r e => ?_
          have h1 : Usable r.2.s := by
            split at e
            · exact strResize_usable h e
            · cases e; exact h
          split
          · rfl
          refine bind_same fun v e2 => ?_
          have h2 : Usable (⟨v, r.2.s.w⟩ : VS Byte) := by
            split at e2
            · exact (vecMemset_frame e2).usable h1
            · cases e2; exact h1
          refine bind_same fun q e3 => ?_
          exact (hexLoopD_eq u value len padding remaining i (putHex_usable
            (t := { r.2 with s := { r.2.s with v := v } }) h2 e3) fun _ => rfl).1
        · intro r' e'
          obtain ⟨r, e, e'⟩ := bind_ret e'
          have h1 : Usable r.2.s := by
            split at e
            · exact strResize_usable h e
            · cases e; exact h
          split at e'
          · cases e'; exact h1
          obtain ⟨v, e2, e'⟩ := bind_ret e'
          have h2 : Usable (⟨v, r.2.s.w⟩ : VS Byte) := by
            split at e2
            · exact (vecMemset_frame e2).usable h1
            · cases e2; exact h1
          obtain ⟨q, e3, e'⟩ := bind_ret e'
          exact (hexLoopD_eq u value len padding remaining i (putHex_usable
            (t := { r.2 with s := { r.2.s with v := v } }) h2 e3) fun _ => rfl).2 _ e'
    · rw [if_neg hn, if_neg hn, assertThat, if_pos (hb hn)]
      constructor
      · refine bind_same fun q e => ?_
        exact (hexLoopD_eq u value len padding remaining i (putHex_usable h e) fun _ => hb hn).1
      · intro r' e'
        obtain ⟨q, e, e'⟩ := bind_ret e'
        exact (hexLoopD_eq u value len padding remaining i (putHex_usable h e) fun _ => hb hn).2 _ e'

theorem resizeIf_usable {p : Prop} [Decidable p] {t : Str} {n : Nat} (h : Usable t.s)
    {q : Status × Str} (e : (if p then strResize t n else .ret (stSuccess, t)) = .ret q) :
    Usable q.2.s := by
  split at e
  · exact strResize_usable h e
  · cases e; exact h

theorem hexFinish_usable {t : Str} (h : Usable t.s) {len n : Nat} {r : Status × Str}
    (e : hexFinish t len n = .ret r) : Usable r.2.s := by
  unfold hexFinish at e
  obtain ⟨t', e1, e⟩ := bind_ret e
  cases e
  exact nullTerminate_usable (t := { t with s := { t.s with v := { t.s.v with size := add64 len n } } })
    (h.resized (add64 len n)) e1

theorem strAppendHexWithD_eq {t : Str} (h : Usable t.s) (k value padding : Nat) (u : Bool) :
    strAppendHexWithD k t value padding u = strAppendHexWith k t value padding u := by
  unfold strAppendHexWithD strAppendHexWith
  simp only
  rw [strResizeD_eq h]
  refine bind_same fun r e => ?_
  have h1 : Usable r.2.s := by
    split at e
    · exact strResize_usable h e
    · cases e; exact h
  split
  · rfl
  by_cases hv : value = 0
  · rw [if_pos hv, if_pos hv, strResizeD_eq h1]
  · rw [if_neg hv, if_neg hv, (hexLoopD_eq u value _ padding _ k h1 (fun hn => absurd rfl hn)).1]

theorem strAppendHexWith_usable {t : Str} (h : Usable t.s) {k value padding : Nat} {u : Bool}
    {r' : Status × Str} (e' : strAppendHexWith k t value padding u = .ret r') : Usable r'.2.s := by
  unfold strAppendHexWith at e'
  simp only at e'
  obtain ⟨r, e, e'⟩ := bind_ret e'
  have h1 : Usable r.2.s := by
    split at e
    · exact strResize_usable h e
    · cases e; exact h
  split at e'
  · cases e'; exact h1
  by_cases hv : value = 0
  · rw [if_pos hv] at e'
    obtain ⟨q, e1, e'⟩ := bind_ret e'
    have h2 : Usable q.2.s := resizeIf_usable h1 e1
    split at e'
    · cases e'; exact h2
    obtain ⟨v, e2, e'⟩ := bind_ret e'
    exact hexFinish_usable (t := { q.2 with s := { q.2.s with v := v } })
      ((vecMemset_frame e2).usable h2) e'
  · rw [if_neg hv] at e'
    obtain ⟨q, e1, e'⟩ := bind_ret e'
    have h2 := (hexLoopD_eq u value _ padding _ k h1 (fun hn => absurd rfl hn)).2 _ e1
    split at e'
    · cases e'; exact h2
    · exact hexFinish_usable h2 e'

theorem checkAppendD_eq {t : Str} (h : Usable t.s) (v : View) {k k' : Str → Out (Status × Str)}
    (hk : ∀ t', Usable t'.s → k t' = k' t') : checkAppendD t v k = checkAppend t v k' := by
  unfold checkAppendD checkAppend
  rw [strAppendSrcD_eq h]
  refine bind_same fun r e => ?_
  split
  · rfl
  · exact hk _ (strAppendSrc_usable h e)

theorem checkAppend_usable {t : Str} (h : Usable t.s) {v : View} {k : Str → Out (Status × Str)}
    (hk : ∀ t', Usable t'.s → ∀ r, k t' = .ret r → Usable r.2.s) {r : Status × Str}
    (e : checkAppend t v k = .ret r) : Usable r.2.s := by
  unfold checkAppend at e
  obtain ⟨q, e1, e⟩ := bind_ret e
  have h1 := strAppendSrc_usable h e1
  split at e
  · cases e; exact h1
  · exact hk _ h1 _ e

theorem checkPrefixD_eq {t : Str} (h : Usable t.s) (v : Option View) {k k' : Str → Out (Status × Str)}
    (hk : ∀ t', Usable t'.s → k t' = k' t') : checkPrefixD t v k = checkPrefix t v k' := by
  cases v with
  | none => exact hk _ h
  | some v => exact checkAppendD_eq h v hk

theorem checkPrefix_usable {t : Str} (h : Usable t.s) {v : Option View} {k : Str → Out (Status × Str)}
    (hk : ∀ t', Usable t'.s → ∀ r, k t' = .ret r → Usable r.2.s) {r : Status × Str}
    (e : checkPrefix t v k = .ret r) : Usable r.2.s := by
  cases v with
  | none => exact hk _ h _ e
  | some v => exact checkAppend_usable h hk e

theorem strAppendSignedD_eq {t : Str} (h : Usable t.s) {f g : Str → Nat → Out (Status × Str)}
    (hfg : ∀ t', Usable t'.s → ∀ m, f t' m = g t' m) (value : BitVec 64) (sign : Bool)
    (pre : Option View) : strAppendSignedD f t value sign pre = strAppendSigned g t value sign pre := by
  unfold strAppendSignedD strAppendSigned
  by_cases hv : value.toInt < 0
  · rw [if_pos hv, if_pos hv]
    refine checkAppendD_eq h _ fun t1 h1 => checkPrefixD_eq h1 _ fun t2 h2 => ?_
    exact bind_same fun m _ => hfg _ h2 _
  · rw [if_neg hv, if_neg hv]
    cases sign
    rotate_left
    · rw [if_pos rfl, if_pos rfl, assertThat, if_pos (decide_eq_true (Int.not_lt.mp hv))]
      exact checkAppendD_eq h _ fun t1 h1 => checkPrefixD_eq h1 _ fun t2 h2 => hfg _ h2 _
    · exact checkPrefixD_eq h _ fun t2 h2 => hfg _ h2 _

theorem strAppendSigned_usable {t : Str} (h : Usable t.s) {g : Str → Nat → Out (Status × Str)}
    (hg : ∀ t', Usable t'.s → ∀ m r, g t' m = .ret r → Usable r.2.s) {value : BitVec 64} {sign : Bool}
    {pre : Option View} {r : Status × Str} (e : strAppendSigned g t value sign pre = .ret r) :
    Usable r.2.s := by
  unfold strAppendSigned at e
  split at e
  · refine checkAppend_usable h (fun t1 h1 r1 e1 => checkPrefix_usable h1 (fun t2 h2 r2 e2 => ?_) e1) e
    obtain ⟨m, _, e2⟩ := bind_ret e2
    exact hg _ h2 _ _ e2
  · split at e
    · exact checkAppend_usable h (fun t1 h1 r1 e1 =>
        checkPrefix_usable h1 (fun t2 h2 r2 e2 => hg _ h2 _ _ e2) e1) e
    · exact checkPrefix_usable h (fun t2 h2 r2 e2 => hg _ h2 _ _ e2) e

/-! ## printf-style append -/

theorem vsnprintf_frame {v v' : Vec Byte} {d n : Nat} {f : FmtRes} {w : Int} (hd : v.data.isSome)
    (e : vsnprintf v d n f = .ret (w, v')) : SameFrame v v' := by
  have key : ∀ x : List Byte, ∀ u, (if n = 0 then Out.ret v else
      withData v.data fun b =>
      (writeRange b.cells d ((x.take (n - 1)).map some ++ [some 0#8])).bind fun cs =>
      .ret { v with data := some { b with cells := cs } }) = .ret u → SameFrame v u := by
    intro x u e
    split at e
    · cases e; exact ⟨rfl, rfl, rfl, hd⟩
    unfold withData at e
    split at e
    · cases e
    obtain ⟨cs, _, e⟩ := bind_ret e
    cases e
    exact ⟨rfl, rfl, rfl, rfl⟩
  unfold vsnprintf at e
  cases f with
  | error x =>
    obtain ⟨u, e1, e⟩ := bind_ret e
    cases e
    exact key x _ e1
  | text x =>
    obtain ⟨u, e1, e⟩ := bind_ret e
    cases e
    exact key x _ e1

/-- The number a formatting call returns. -/
def fmtLen : FmtRes → Int
  | .error _ => -1
  | .text x => if x.length ≤ 0x7fffffff then (x.length : Int) else -1

theorem vsnprintf_len {v v' : Vec Byte} {d n : Nat} {f : FmtRes} {w : Int}
    (e : vsnprintf v d n f = .ret (w, v')) :
    w = fmtLen f := by
  unfold vsnprintf at e
  cases f with
  | error x =>
    obtain ⟨u, e1, e⟩ := bind_ret e
    cases e
    rfl
  | text x =>
    obtain ⟨u, e1, e⟩ := bind_ret e
    cases e
    rfl

theorem strAppendFormat_usable {t : Str} (h : Usable t.s) {fmt : Fmt} {r : Status × Str}
    (e : strAppendFormat t fmt = .ret r) : Usable r.2.s := by
  unfold strAppendFormat at e
  simp only at e
  obtain ⟨q, e1, e⟩ := bind_ret e
  have f1 := vsnprintf_frame h.data e1
  split at e
  · cases e; exact f1.usable h
  split at e
  · cases e; exact Usable.resized (s := ⟨q.2, t.s.w⟩) (f1.usable h) _
  obtain ⟨q2, e2, e⟩ := bind_ret e
  have h2 := strResize_usable (t := { t with s := { t.s with v := q.2 } }) (f1.usable h) e2
  split at e
  · cases e; exact h2
  obtain ⟨q3, e3, e⟩ := bind_ret e
  have f3 := vsnprintf_frame h2.data e3
  split at e <;> (cases e; exact f3.usable h2)

/-! ## Constructors -/

theorem strInitExD_eq (w : World Byte) (c : Nat) (al : Option Nat) (g th : Nat) :
    strInitExD w c al g th = strInitEx w c al g th := by
  unfold strInitExD strInitEx
  simp only
  split
  · rfl
  split
  · rename_i hd
    rw [hd]
  rename_i v hd
  rw [hd]
  have : add64 (max 32 c) 1 ≤ v.cap ∧ v.esz = 1 := by
    unfold vecInitEx at hd
    split at hd
    · cases hd
    · split at hd
      · cases hd
      · cases hd
        exact ⟨Nat.le_max_right _ _, rfl⟩
  simp [assertThat, this]

theorem strInitEx_made {w w' : World Byte} {c a g th : Nat} (hg : g ≤ 255) {st : Status} {t : Str}
    (e : strInitEx w c (some a) g th = .ret (st, some t, w')) :
    Usable t.s ∧ t.s.v.cap = max 1 (add64 (max 32 c) 1) := by
  unfold strInitEx at e
  simp only at e
  split at e
  · cases e
  rename_i hf
  split at e
  · cases e
  rename_i v hd
  obtain ⟨v', e1, e⟩ := bind_ret e
  cases e
  have f := strStart_frame e1
  generalize hr : vecInitEx w 1 (add64 (max 32 c) 1) false (some a) g th = r at hf hd
  obtain ⟨st, o, w2⟩ := r
  simp only at hd hf
  subst hd
  obtain ⟨h1, h2⟩ := init_usable hg hr (by simpa using hf)
  refine ⟨f.usable h1, ?_⟩
  show v'.cap = _
  rw [f.cap]
  unfold vecInitEx at hr
  simp only at hr
  split at hr
  · cases hr
  · cases hr; rfl

theorem strInitBufferD_eq (w : World Byte) (b : Option (Block Byte)) (c : Nat) :
    strInitBufferD w b c = strInitBuffer w b c := by
  unfold strInitBufferD strInitBuffer
  simp only
  split
  · rfl
  split
  · rfl
  split
  · rename_i hd
    rw [hd]
  rename_i v hd
  rw [hd]
  have : v.cap = c ∧ v.esz = 1 := by
    unfold vecInitBuffer at hd
    split at hd
    · cases hd
    · split at hd
      · cases hd
      · cases hd
        exact ⟨rfl, rfl⟩
  simp [assertThat, this]

theorem strInitBuffer_made {w : World Byte} {b : Option (Block Byte)} {c : Nat} {st : Status} {t : Str}
    (e : strInitBuffer w b c = .ret (st, some t)) : Usable t.s ∧ t.s.v.cap = c := by
  unfold strInitBuffer at e
  split at e
  · cases e
  simp only at e
  split at e
  · cases e
  split at e
  · cases e
  rename_i v hd
  obtain ⟨v', e1, e⟩ := bind_ret e
  cases e
  have f := strStart_frame e1
  generalize hr : vecInitBuffer 1 b c false = r at hd
  obtain ⟨st, o⟩ := r
  simp only at hd
  subst hd
  obtain ⟨h1, h2⟩ := initBuffer_usable (w := w) hr
  refine ⟨f.usable h1, ?_⟩
  show v'.cap = _
  rw [f.cap]
  unfold vecInitBuffer at hr
  split at hr
  · cases hr
  split at hr
  · cases hr
  · cases hr; rfl

theorem dupInto_usable {t t' : Str} {v : View} (h : Usable t.s) (e : dupInto t v = .ret t') :
    Usable t'.s := by
  unfold dupInto at e
  obtain ⟨u, e1, e⟩ := bind_ret e
  refine nullTerminate_usable ?_ e
  exact Usable.resized (s := ⟨u, t.s.w⟩) ((vecMemcpy_frame e1).usable h) _

theorem concatInto_usable {t t' : Str} {v1 v2 : View} (h : Usable t.s)
    (e : concatInto t v1 v2 = .ret t') : Usable t'.s := by
  unfold concatInto at e
  obtain ⟨u, e1, e⟩ := bind_ret e
  obtain ⟨u2, e2, e⟩ := bind_ret e
  refine nullTerminate_usable ?_ e
  exact Usable.resized (s := ⟨u2, t.s.w⟩)
    ((vecMemcpy_frame e2).usable (w := t.s.w) ((vecMemcpy_frame e1).usable h)) _

/-- Every string of `SUsed` is usable. -/
theorem SUsed.usable {t : Str} (h : SUsed t) : Usable t.s := by
  induction h with
  | init hg h => exact (strInitEx_made hg h).1
  | initBuffer h => exact (strInitBuffer_made h).1
  | dup hg h =>
    unfold strDuplicateEx at h
    split at h
    · cases h
    obtain ⟨r, e1, h⟩ := bind_ret h
    obtain ⟨st, o, w2⟩ := r
    split at h
    · rename_i hf
      cases h
      exact (strInitEx_made hg e1).1
    split at h
    · rename_i hd
      cases h
      cases hd
    · rename_i t1 hd
      simp only at hd
      subst hd
      obtain ⟨t2, e2, h⟩ := bind_ret h
      cases h
      exact dupInto_usable (strInitEx_made hg e1).1 e2
  | dupBuffer h =>
    unfold strDuplicateBuffer at h
    split at h
    · cases h
    split at h
    · cases h
    obtain ⟨r, e1, h⟩ := bind_ret h
    obtain ⟨st, o⟩ := r
    split at h
    · cases h
      exact (strInitBuffer_made e1).1
    split at h
    · rename_i hd
      cases h
      cases hd
    · rename_i t1 hd
      simp only at hd
      subst hd
      obtain ⟨t2, e2, h⟩ := bind_ret h
      cases h
      exact dupInto_usable (strInitBuffer_made e1).1 e2
  | concat hg h =>
    unfold strConcatEx at h
    split at h
    · cases h
    obtain ⟨r, e1, h⟩ := bind_ret h
    obtain ⟨st, o, w2⟩ := r
    split at h
    · cases h
      exact (strInitEx_made hg e1).1
    split at h
    · rename_i hd
      cases h
      cases hd
    · rename_i t1 hd
      simp only at hd
      subst hd
      obtain ⟨t2, e2, h⟩ := bind_ret h
      cases h
      exact concatInto_usable (strInitEx_made hg e1).1 e2
  | concatBuffer h =>
    unfold strConcatBuffer at h
    split at h
    · cases h
    split at h
    · cases h
    obtain ⟨r, e1, h⟩ := bind_ret h
    obtain ⟨st, o⟩ := r
    split at h
    · cases h
      exact (strInitBuffer_made e1).1
    split at h
    · rename_i hd
      cases h
      cases hd
    · rename_i t1 hd
      simp only at hd
      subst hd
      obtain ⟨t2, e2, h⟩ := bind_ret h
      cases h
      exact concatInto_usable (strInitBuffer_made e1).1 e2
  | step h hop hs ih => exact strOp_usable ih hop hs
  | decU h hs ih => exact strAppendDecWith_usable ih hs
  | hexU h hs ih => exact strAppendHexWith_usable ih hs
  | decS h hs ih =>
    exact strAppendSigned_usable ih (fun t' h' m r e => strAppendDecWith_usable h' e) hs
  | hexS h hs ih =>
    exact strAppendSigned_usable ih (fun t' h' m r e => strAppendHexWith_usable h' e) hs
  | format h hs ih => exact strAppendFormat_usable ih hs

end Zy
