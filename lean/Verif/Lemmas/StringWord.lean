import Verif.Spec.StringWord
import Verif.Lemmas.VectorWordReach
import Verif.Lemmas.StringReach

/-!
# Lemmas: the string functions with another width of `size_t`
-/

namespace Zy

open Spec

/-- A represented string whose size fits into the smaller word. -/
structure SRepW (m : Nat) (P : Params) (t : Str) (a : SState) (b : Block Byte) (sl : List (Cell Byte)) :
    Prop where
  srep : SRep P t a b sl
  word : m ≤ 18446744073709551616
  fits : SFitsW m (a.text.length + 1)

section
variable {m : Nat} {P : Params} {t : Str} {a : SState} {b : Block Byte} {sl : List (Cell Byte)}

theorem mul255_lt {k n : Nat} (h : n * 255 < m) (hk : k ≤ n) : k * 255 < m :=
  Nat.lt_of_le_of_lt (Nat.mul_le_mul_right 255 hk) h

theorem fitsW_one (h : P.esz = 1) {n : Nat} : FitsW m P n ↔ n * 255 < m := by
  unfold FitsW; rw [h, Nat.mul_one]

theorem SRepW.lt (R : SRepW m P t a b sl) : (a.text.length + 1) * 255 < m := R.fits

theorem SRepW.repW (R : SRepW m P t a b sl) : RepW m P t.s ⟨a.text ++ [some 0#8], a.bytes, []⟩ b sl := by
  refine ⟨R.srep.rep, R.word, ?_, ?_⟩
  · rw [R.srep.one]; have := R.lt; omega
  · rw [fitsW_one R.srep.one]
    have := R.lt
    simpa using this

theorem nullTerminateW_eq {t : Str} (hm : m ≤ 18446744073709551616) (h1 : 1 ≤ t.s.v.size)
    (h : t.s.v.size < m) : nullTerminateW m t = nullTerminate t := by
  unfold nullTerminateW nullTerminate
  rw [subW_eq hm h1 h]

theorem vecMemcpy_size {v v' : Vec Byte} {i n : Nat} {x : Src Byte} (h : vecMemcpy v i x n = .ret v') :
    v'.size = v.size := by
  unfold vecMemcpy withData at h
  split at h
  · cases h
  · rename_i b _
    simp only at h
    cases hc : memcpyIn b i x n with
    | ub w => rw [hc] at h; cases h
    | ret b' => rw [hc] at h; injection h with h; rw [← h]

/-- A resize to at least one byte: same outcome, and the size afterwards is neither 0 nor too large. -/
theorem vecResizeW_eq (R : SRepW m P t a b sl) {n : Nat} (h1 : 1 ≤ n) (h : n * 255 < m) :
    vecResizeW m t.s n = vecResize t.s n ∧
    ∀ r, vecResize t.s n = .ret r → 1 ≤ r.2.v.size ∧ r.2.v.size * 255 < m := by
  have RW := R.repW
  have hd : InDomainW m P ⟨a.text ++ [some 0#8], a.bytes, []⟩ (VOp.resize n none) :=
    (fitsW_one R.srep.one).2 h
  refine ⟨opW_eq RW (.resize n none) hd, ?_⟩
  intro r hr
  obtain ⟨junk, st, s1, a1, b1, sl1, hj, hstep, hop, R1⟩ := RW.step (.resize n none) hd
  rw [opW_eq RW _ hd] at hop
  have hr' : vecOp t.s (.resize n none) = .ret r := hr
  rw [hr'] at hop
  injection hop with hop
  subst hop
  have hl := (fitsW_one R.srep.one).1 R1.fits
  rw [R1.rep.size]
  refine ⟨?_, hl⟩
  have h2 : a1 = (step P junk ⟨a.text ++ [some 0#8], a.bytes, []⟩ (VOp.resize n none)).2 := by rw [hstep]
  rw [h2]
  have hj : junk.length = n - (a.text ++ [some 0#8]).length := hj
  simp only [step]
  split
  · simp
  · split
    · simp
    · split
      · simp; omega
      · simp; omega

/-- A deletion that leaves something: same outcome, and the size afterwards is neither 0 nor too large. -/
theorem vecDeleteW_eq (R : SRepW m P t a b sl) {i n : Nat} (h : i + n < a.text.length + 1) :
    vecDeleteRangeW m t.s i n = vecDeleteRange t.s i n ∧
    ∀ r, vecDeleteRange t.s i n = .ret r → 1 ≤ r.2.v.size ∧ r.2.v.size * 255 < m := by
  have RW := R.repW
  have hlt := R.lt
  have hd : InDomainW m P ⟨a.text ++ [some 0#8], a.bytes, []⟩ (VOp.deleteRange i n) := by
    show i + n < m
    omega
  refine ⟨opW_eq RW (.deleteRange i n) hd, ?_⟩
  intro r hr
  obtain ⟨junk, st, s1, a1, b1, sl1, hj, hstep, hop, R1⟩ := RW.step (.deleteRange i n) hd
  rw [opW_eq RW _ hd] at hop
  have hr' : vecOp t.s (.deleteRange i n) = .ret r := hr
  rw [hr'] at hop
  injection hop with hop
  subst hop
  have hl := (fitsW_one R.srep.one).1 R1.fits
  rw [R1.rep.size]
  refine ⟨?_, hl⟩
  have h2 : a1 = (step P junk ⟨a.text ++ [some 0#8], a.bytes, []⟩ (VOp.deleteRange i n)).2 := by rw [hstep]
  rw [h2]
  simp only [step]
  split
  · simp
  · split
    · simp
    · simp; omega

/-- Copy and terminate after a resize. -/
theorem resizeCopyW_eq (R : SRepW m P t a b sl) {n i k : Nat} {x : Src Byte} (h1 : 1 ≤ n)
    (h : n * 255 < m) :
    ((vecResizeW m t.s n).bind fun r =>
      if failed r.1 then .ret (r.1, { t with s := r.2 })
      else
        (vecMemcpy r.2.v i x k).bind fun v =>
        (nullTerminateW m { t with s := { r.2 with v := v } }).bind fun t => .ret (stSuccess, t)) =
    ((vecResize t.s n).bind fun r =>
      if failed r.1 then .ret (r.1, { t with s := r.2 })
      else
        (vecMemcpy r.2.v i x k).bind fun v =>
        (nullTerminate { t with s := { r.2 with v := v } }).bind fun t => .ret (stSuccess, t)) := by
  obtain ⟨e, hsz⟩ := vecResizeW_eq R h1 h
  rw [e]
  refine bind_congr_ret fun r hr => ?_
  obtain ⟨z1, z2⟩ := hsz r hr
  split
  · rfl
  · refine bind_congr_ret fun v hv => ?_
    have hv := vecMemcpy_size hv
    rw [nullTerminateW_eq R.word (by show 1 ≤ v.size; omega) (by show v.size < m; omega)]

theorem checkTerminateW_eq {t : Str} (hm : m ≤ 18446744073709551616) {r : Status × VS Byte}
    (h1 : 1 ≤ r.2.v.size) (h : r.2.v.size * 255 < m) : checkTerminateW m t r = checkTerminate t r := by
  unfold checkTerminateW checkTerminate
  rw [nullTerminateW_eq hm h1 (by show r.2.v.size < m; omega)]

theorem appendW_eq (R : SRepW m P t a b sl) (src : View) (h1 : 1 ≤ src.size)
    (h : (a.text.length + src.size) * 255 < m) : strAppendW m t src = strAppend t src := by
  have hw := R.word
  have hsz := R.srep.size
  have hlt := R.lt
  have e1 : addW m t.s.v.size src.size = t.s.v.size + src.size := by
    rw [addW_eq hw (by omega), add64_eq (by omega)]
  have e1' : add64 t.s.v.size src.size = t.s.v.size + src.size := add64_eq (by omega)
  have e2 : subW m (t.s.v.size + src.size) 1 = a.text.length + src.size := by
    rw [subW_nat (by omega) (by omega)]; omega
  have e2' : sub64 (t.s.v.size + src.size) 1 = a.text.length + src.size := by
    rw [sub64_eq (by omega) (by omega)]; omega
  have e3 : subW m t.s.v.size 1 = sub64 t.s.v.size 1 := subW_eq hw (by omega) (by omega)
  have e4 : subW m src.size 1 = sub64 src.size 1 := subW_eq hw (by omega) (by omega)
  unfold strAppendW strAppend strAppendSrcW strAppendSrc
  rw [if_neg (by omega), if_neg (by omega)]
  simp only [e1, e1', e2, e2', e3, e4]
  exact resizeCopyW_eq R (by omega) h

theorem appendExW_eq (R : SRepW m P t a b sl) (src : View) (j n : Nat) (hjn : j + n < m)
    (h : (a.text.length + src.size) * 255 < m) :
    strAppendExW m t src j n = strAppendEx t src j n := by
  have hw := R.word
  have hsz := R.srep.size
  have hlt := R.lt
  have e0 : add64 j n = j + n := add64_eq (by omega)
  have e0' : addW m j n = j + n := by rw [addW_eq hw hjn, e0]
  have e3 : subW m t.s.v.size 1 = sub64 t.s.v.size 1 := subW_eq hw (by omega) (by omega)
  unfold strAppendExW strAppendEx strAppendExSrcW strAppendExSrc
  rw [e0, e0']
  split
  · rfl
  · split
    · rfl
    · have e1 : addW m t.s.v.size n = t.s.v.size + n := by
        rw [addW_eq hw (by omega), add64_eq (by omega)]
      have e1' : add64 t.s.v.size n = t.s.v.size + n := add64_eq (by omega)
      simp only [e1, e1', e3]
      clear e0 e0' e1 e1' e3
      exact resizeCopyW_eq R (by omega) (mul255_lt h (by omega))

theorem insertRangeW_str (R : SRepW m P t a b sl) (i : Nat) (x : Src Byte) (n : Nat)
    (h : (a.text.length + 1 + n) * 255 < m) :
    vecInsertRangeW m t.s i x n = vecInsertRange t.s i x n := by
  refine insertRangeW_eq R.repW.small i x n ?_
  rw [R.srep.rep.esz, R.srep.one, Nat.mul_one, R.srep.size]
  exact h

theorem opStrW_eq (R : SRepW m P t a b sl) (op : SOp) (hd : SInDomainW m a op) :
    strOpW m t op = strOp t op := by
  have hw := R.word
  have hsz := R.srep.size
  have hlt := R.lt
  have hs1 : ∀ x : List (Cell Byte), (textView x).size = x.length + 1 := fun _ => rfl
  cases op with
  | append x =>
    have hd : (a.text.length + x.length + 1) * 255 < m := hd
    exact appendW_eq R _ (by rw [hs1]; omega) (by rw [hs1]; omega)
  | appendEx x j n =>
    have hd1 : (a.text.length + x.length + 1) * 255 < m := hd.1
    exact appendExW_eq R _ j n hd.2 (by rw [hs1]; omega)
  | insert i x =>
    have hd : (a.text.length + x.length + 1) * 255 < m := hd
    show strInsertW m t i (textView x) = strInsert t i (textView x)
    have e4 : subW m (textView x).size 1 = sub64 (textView x).size 1 :=
      subW_eq hw (by rw [hs1]; omega) (by rw [hs1]; omega)
    have e5 : sub64 (textView x).size 1 = x.length := by
      rw [sub64_eq (by rw [hs1]; omega) (by rw [hs1]; omega), hs1]; omega
    unfold strInsertW strInsert
    rw [appendW_eq R _ (by rw [hs1]; omega) (by rw [hs1]; omega), e4,
      insertRangeW_str R _ _ _ (mul255_lt hd (by rw [e5]; omega))]
  | insertEx i x j n =>
    have hd1 : (a.text.length + x.length + 1) * 255 < m := hd.1
    have hjn : j + n < m := hd.2
    show strInsertExW m t i (textView x) j n = strInsertEx t i (textView x) j n
    have e0 : add64 j n = j + n := add64_eq (by omega)
    have e0' : addW m j n = j + n := by rw [addW_eq hw hjn, e0]
    unfold strInsertExW strInsertEx
    rw [appendExW_eq R _ j n hjn (by rw [hs1]; omega), e0, e0']
    split
    · rfl
    · split
      · rfl
      · split
        · rfl
        · split
          · rfl
          · rename_i hin
            rw [hs1] at hin
            clear e0 e0'
            rw [insertRangeW_str R _ _ _ (mul255_lt hd1 (by omega))]
  | delete i n =>
    have hin : i + n < m := hd
    show strDeleteW m t i n = strDelete t i n
    unfold strDeleteW strDelete
    rw [addW_eq hw hin]
    split
    · rfl
    · rename_i hle
      rw [add64_eq (by omega)] at hle
      obtain ⟨e, hz⟩ := vecDeleteW_eq R (i := i) (n := n) (by omega)
      rw [e]
      exact bind_congr_ret fun r hr => checkTerminateW_eq hw (hz r hr).1 (hz r hr).2
  | truncate i =>
    show strTruncateW m t i = strTruncate t i
    unfold strTruncateW strTruncate
    split
    · rfl
    · rename_i hle
      have e1 : subW m (subW m t.s.v.size i) 1 = a.text.length - i := by
        rw [subW_nat (a := t.s.v.size) (by omega) (by omega), subW_nat (by omega) (by omega)]; omega
      have e1' : sub64 (sub64 t.s.v.size i) 1 = a.text.length - i := by
        rw [sub64_eq (a := t.s.v.size) (by omega) (by omega), sub64_eq (by omega) (by omega)]; omega
      rw [e1, e1']
      obtain ⟨e, hz⟩ := vecDeleteW_eq R (i := i) (n := a.text.length - i) (by omega)
      rw [e]
      exact bind_congr_ret fun r hr => checkTerminateW_eq hw (hz r hr).1 (hz r hr).2
  | clear =>
    show strClearW m t = strClear t
    have hdc : InDomainW m P ⟨a.text ++ [some 0#8], a.bytes, []⟩ VOp.clear := trivial
    have e : vecClearW m t.s = vecClear t.s := opW_eq R.repW .clear hdc
    unfold strClearW strClear
    rw [e]
    refine bind_congr_ret fun r hr => ?_
    obtain ⟨junk, st, s1, a1, b1, sl1, hj, hstep, hop, R1⟩ := R.repW.step .clear hdc
    rw [opW_eq R.repW _ hdc] at hop
    have hr' : vecOp t.s .clear = .ret r := hr
    rw [hr'] at hop
    injection hop with hop
    subst hop
    have hl := (fitsW_one R.srep.one).1 R1.fits
    rw [← R1.rep.size] at hl
    split
    · rfl
    · have e2 : strStartW m s1.v = strStart s1.v := by
        unfold strStartW strStart
        refine bind_congr_ret fun v hv => ?_
        have hv : v.size = s1.v.size := by
          unfold strPoke withData at hv
          split at hv
          · cases hv
          · simp only at hv
            split at hv
            · injection hv with hv; rw [← hv]
            · cases hv
        rw [addW_eq hw (by omega)]
      rw [e2]
  | setChar i c =>
    have hi : i < m := hd
    show strSetCharW m t i c = strSetChar t i c
    unfold strSetCharW strSetChar
    by_cases h1 : i + 1 < m
    · rw [addW_eq hw h1]
    · have hout : ∀ s : VS Byte, s.v.size ≤ i →
          (vecSet s i (.ext [some c])).bind (fun r => .ret (r.1, { t with s := r.2 })) =
            Out.ret (stOutOfRange, { t with s := s }) := by
        intro s hs
        unfold vecSet
        rw [if_neg (by simp [Src.isNull]), if_pos hs]
        rfl
      have hle : t.s.v.size ≤ i := by omega
      rw [hout t.s hle]
      split <;> split <;> rfl
  | lower i n =>
    have hin : i + n < m := hd.1
    show strCaseExW m lowerByte t i n = strCaseEx lowerByte t i n
    unfold strCaseExW strCaseEx
    rw [addW_eq hw hin]
  | upper i n =>
    have hin : i + n < m := hd.1
    show strCaseExW m upperByte t i n = strCaseEx upperByte t i n
    unfold strCaseExW strCaseEx
    rw [addW_eq hw hin]
  | resize n =>
    have hd : (n + 1) * 255 < m := hd
    show strResizeW m t n = strResize t n
    have e1 : add64 n 1 = n + 1 := add64_eq (by omega)
    have e1' : addW m n 1 = n + 1 := by rw [addW_eq hw (by omega), e1]
    unfold strResizeW strResize
    rw [e1, e1']
    obtain ⟨e, hz⟩ := vecResizeW_eq R (n := n + 1) (by omega) hd
    rw [e]
    exact bind_congr_ret fun r hr => checkTerminateW_eq hw (hz r hr).1 (hz r hr).2
  | reserve c =>
    have hd : c < m := hd
    show strReserveW m t c = strReserve t c
    unfold strReserveW strReserve
    rw [reserveW_eq R.repW.small c (by rw [R.srep.rep.esz, R.srep.one]; omega)]
  | shrinkToFit =>
    show strShrinkToFitW m t = strShrinkToFit t
    unfold strShrinkToFitW strShrinkToFit
    rw [shrinkToFitW_eq R.repW.small (by rw [R.srep.rep.esz, R.srep.one, hsz]; omega)]

theorem SInDomainW.wide (hm : m ≤ 18446744073709551616) {op : SOp} (h : SInDomainW m a op) :
    SInDomain a op := by
  cases op <;> simp only [SInDomainW, SInDomain, SFitsW, SFits] at h ⊢ <;>
    first | exact trivial | exact ⟨by omega, by omega⟩ | exact ⟨by omega, h.2⟩ | omega

theorem SInDomainW.mono {m' : Nat} (hm : m ≤ m') {op : SOp} (h : SInDomainW m a op) :
    SInDomainW m' a op := by
  cases op <;> simp only [SInDomainW, SFitsW] at h ⊢ <;>
    first | exact trivial | exact ⟨by omega, by omega⟩ | exact ⟨by omega, h.2⟩ | omega

theorem SAllInDomainW.wide (hm : m ≤ 18446744073709551616) {ops : List SOp}
    (h : SAllInDomainW m P a ops) : SAllInDomain P a ops := by
  induction h with
  | nil s => exact .nil s
  | cons h _ ih => exact .cons (h.wide hm) ih

theorem SAllInDomainW.mono {m' : Nat} (hm : m ≤ m') {ops : List SOp}
    (h : SAllInDomainW m P a ops) : SAllInDomainW m' P a ops := by
  induction h with
  | nil s => exact .nil s
  | cons h _ ih => exact .cons (h.mono hm) ih

theorem appendText_len (P : Params) (a : SState) (x : List (Cell Byte)) :
    (appendText P a x).2.text.length ≤ a.text.length + x.length := by
  unfold appendText
  split
  · simp
  · split
    · simp
    · simp

theorem insertText_len (P : Params) (a : SState) (i : Nat) (x : List (Cell Byte)) :
    (insertText P a i x).2.text.length ≤ a.text.length + x.length := by
  unfold insertText
  split
  · simp
  · split
    · simp
    · simp; omega

theorem mapRange_len (f : Byte → Byte) (x : List (Cell Byte)) (i n : Nat) (h : i + n ≤ x.length) :
    (mapRange f x i n).length = x.length := by
  unfold mapRange; simp; omega

theorem sstep_fitsW {op : SOp} {junk : List (Cell Byte)} (hf : SFitsW m (a.text.length + 1))
    (hd : SInDomainW m a op) (hj : junk.length = sjunkLen a op) :
    SFitsW m ((sstep P junk a op).2.text.length + 1) := by
  have mono : ∀ {k n : Nat}, SFitsW m n → k ≤ n → SFitsW m k :=
    fun h hk => Nat.lt_of_le_of_lt (Nat.mul_le_mul_right 255 hk) h
  cases op with
  | append x =>
    have := appendText_len P a x
    exact mono hd (by simp only [sstep]; omega)
  | appendEx x j n =>
    simp only [sstep]
    split
    · exact hf
    · have := appendText_len P a ((x.drop j).take n)
      refine mono hd.1 ?_
      simp at this
      omega
  | insert i x =>
    simp only [sstep]
    have h1 := appendText_len P a x
    have h2 := insertText_len P a i x
    split
    · exact mono hd (by omega)
    · split
      · exact hf
      · exact mono hd (by omega)
  | insertEx i x j n =>
    simp only [sstep]
    have h1 := appendText_len P a ((x.drop j).take n)
    have h2 := insertText_len P a i ((x.drop j).take n)
    simp only [List.length_take, List.length_drop] at h1 h2
    split
    · exact hf
    · split
      · exact mono hd.1 (by omega)
      · exact mono hd.1 (by omega)
  | delete i n =>
    simp only [sstep]
    split
    · exact hf
    · split
      · exact hf
      · exact mono hf (by simp; omega)
  | truncate i =>
    simp only [sstep]
    split
    · exact hf
    · split
      · exact hf
      · exact mono hf (by simp; omega)
  | clear => exact mono hf (by simp [sstep])
  | setChar i c =>
    simp only [sstep]
    split
    · exact mono hf (by simp)
    · exact hf
  | lower i n =>
    simp only [sstep]
    split
    · exact hf
    · exact mono hf (by simp only; rw [mapRange_len _ _ _ _ (by omega)]; omega)
  | upper i n =>
    simp only [sstep]
    split
    · exact hf
    · exact mono hf (by simp only; rw [mapRange_len _ _ _ _ (by omega)]; omega)
  | resize n =>
    simp only [sstep]
    have hj : junk.length = n - a.text.length := hj
    split
    · exact hf
    · split
      · exact mono hf (by simp; omega)
      · split
        · exact hf
        · exact mono hd (by simp; omega)
  | reserve c =>
    simp only [sstep]
    split
    · exact hf
    · split <;> exact hf
  | shrinkToFit =>
    simp only [sstep]
    split <;> exact hf

theorem SRepW.step (R : SRepW m P t a b sl) (op : SOp) (hd : SInDomainW m a op) :
    ∃ junk st t' a' b' sl', junk.length = sjunkLen a op ∧ sstep P junk a op = (st, a') ∧
      strOpW m t op = .ret (st, t') ∧ SRepW m P t' a' b' sl' := by
  obtain ⟨junk, st, t1, a1, b1, sl1, hj, hstep, hop, R1⟩ := sop_ok R.srep op (hd.wide R.word)
  refine ⟨junk, st, t1, a1, b1, sl1, hj, hstep, by rw [opStrW_eq R op hd, hop], R1, R.word, ?_⟩
  have := sstep_fitsW (P := P) R.fits hd hj
  rw [hstep] at this
  exact this

end

theorem runStrW_eq {m : Nat} {P : Params} (ops : List SOp) : ∀ {t : Str} {a : SState}
    {b : Block Byte} {sl : List (Cell Byte)}, SRepW m P t a b sl → SAllInDomainW m P a ops →
    runStrW m t ops = runStr t ops := by
  induction ops with
  | nil => intros; rfl
  | cons op ops ih =>
    intro t a b sl R hd
    cases hd with
    | cons hd ht =>
      obtain ⟨junk, st, t1, a1, b1, sl1, hj, hstep, hop, R1⟩ := R.step op hd
      have ht' := ht junk hj
      rw [hstep] at ht'
      have he := opStrW_eq R op hd
      simp only [runStrW, runStr]
      rw [← he, hop]
      simp only [Out.ret_bind']
      rw [ih R1 ht']

theorem runStrW_ok {m : Nat} {P : Params} (ops : List SOp) : ∀ {t : Str} {a : SState}
    {b : Block Byte} {sl : List (Cell Byte)}, SRepW m P t a b sl → SAllInDomainW m P a ops →
    ∃ sts t' a' b' sl', runStrW m t ops = .ret (sts, t') ∧ SRuns P a ops sts a' ∧
      SRepW m P t' a' b' sl' := by
  induction ops with
  | nil =>
    intro t a b sl R _
    exact ⟨[], t, a, b, sl, rfl, .nil a, R⟩
  | cons op ops ih =>
    intro t a b sl R hd
    cases hd with
    | cons hd ht =>
      obtain ⟨junk, st, t1, a1, b1, sl1, hj, hstep, hop, R1⟩ := R.step op hd
      have ht' := ht junk hj
      rw [hstep] at ht'
      obtain ⟨sts, t', a', b', sl', hrun, hruns, R'⟩ := ih R1 ht'
      refine ⟨st :: sts, t', a', b', sl', ?_, .cons junk hj hstep hruns, R'⟩
      simp only [runStrW]
      rw [hop, Out.ret_bind', hrun, Out.ret_bind']

end Zy
