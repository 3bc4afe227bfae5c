import Verif.Spec.StringCost
import Verif.Lemmas.VectorCost
import Verif.Lemmas.StringReach

/-!
# Lemmas: what a string costs
-/

namespace Zy

open Spec

/-! ## The functions that only write characters -/

/-- Nothing but the bytes of the storage differ. -/
def SameShape (v u : Vec Byte) : Prop :=
  u.cap = v.cap ∧ u.allocator = v.allocator ∧ u.shrink = v.shrink ∧ u.growth = v.growth

theorem SameShape.refl (v : Vec Byte) : SameShape v v := ⟨rfl, rfl, rfl, rfl⟩

theorem SameShape.trans {v u x : Vec Byte} (h : SameShape v u) (h' : SameShape u x) : SameShape v x :=
  ⟨h'.1.trans h.1, h'.2.1.trans h.2.1, h'.2.2.1.trans h.2.2.1, h'.2.2.2.trans h.2.2.2⟩

theorem strPoke_shape (v : Vec Byte) (i : Nat) (c : Cell Byte) : Ensures (strPoke v i c) (SameShape v) :=
  ensures_withData fun _ _ => ensures_ite (fun _ => ensures_ret ⟨rfl, rfl, rfl, rfl⟩) fun _ => ensures_ub

theorem vecMemcpy_shape (v : Vec Byte) (d : Nat) (x : Src Byte) (n : Nat) :
    Ensures (vecMemcpy v d x n) (SameShape v) :=
  ensures_withData fun _ _ => (ensures_any _).bind fun _ _ => ensures_ret ⟨rfl, rfl, rfl, rfl⟩

theorem SameShape.still {s : VS Byte} {v : Vec Byte} (h : SameShape s.v v) : Still s ⟨v, s.w⟩ :=
  ⟨rfl, h.1, h.2.1, h.2.2.1, h.2.2.2⟩

theorem nullTerminate_still (t : Str) : Ensures (nullTerminate t) fun r => Still t.s r.s :=
  (strPoke_shape _ _ _).bind fun _ h => ensures_ret h.still

theorem caseLoop_shape (f : Byte → Byte) : ∀ (n : Nat) (v : Vec Byte) (i : Nat),
    Ensures (caseLoop f v i n) (SameShape v)
  | 0, v, _ => ensures_ret (.refl v)
  | n + 1, v, i => ensures_withData fun _ _ => (ensures_any _).bind fun _ _ =>
      (strPoke_shape v i _).bind fun u h => (caseLoop_shape f n u (i + 1)).imp fun _ h' => h.trans h'

theorem strCaseEx_still (f : Byte → Byte) (t : Str) (i n : Nat) :
    Ensures (strCaseEx f t i n) fun r => Still t.s r.2.s :=
  ensures_ite (fun _ => ensures_ret (.refl _)) fun _ =>
    (caseLoop_shape f _ _ _).bind fun _ h => ensures_ret h.still

theorem strSetChar_still (t : Str) (i : Nat) (c : Byte) :
    Ensures (strSetChar t i c) fun r => Still t.s r.2.s :=
  ensures_ite (fun _ => ensures_ret (.refl _)) fun _ =>
    (vecSet_still _ _ _).bind fun _ h => ensures_ret h

/-! ## The functions that may reallocate -/

/-- The condition under which a vector resized to `n` is reallocated. -/
def Resettles (s : VS Byte) (n : Nat) : Prop :=
  n ≠ s.v.size ∧ (s.v.cap < n ∨ shouldShrink n s.v.cap s.v.shrink = true)

theorem strAppendSrc_cost (t : Str) (x : Src Byte) (n : Nat) :
    Ensures (strAppendSrc t x n) fun r => Cost (Resettles t.s (sub64 (add64 t.s.v.size n) 1)) t.s r.2.s :=
  ensures_ite (fun _ => ensures_ret ((Still.refl _).cost _)) fun _ =>
    (vecResizeEx_cost t.s _ _).bind fun _ hr => ensures_ite (fun _ => ensures_ret hr) fun _ =>
      (vecMemcpy_shape _ _ _ _).bind fun _ hv => (nullTerminate_still _).bind fun _ hq =>
        ensures_ret ((hr.still hv.still).still hq)

theorem strAppendExSrc_cost (t : Str) (x : Src Byte) (size i n : Nat) :
    Ensures (strAppendExSrc t x size i n) fun r =>
      Cost (¬ add64 i n ≥ size ∧ Resettles t.s (add64 t.s.v.size n)) t.s r.2.s :=
  ensures_ite (fun _ => ensures_ret ((Still.refl _).cost _)) fun _ =>
    ensures_ite (fun _ => ensures_ret ((Still.refl _).cost _)) fun hi =>
    (vecResizeEx_cost t.s _ _).bind fun _ hr =>
      ensures_ite (fun _ => ensures_ret (hr.mono fun h => ⟨hi, h⟩)) fun _ =>
      (vecMemcpy_shape _ _ _ _).bind fun _ hv => (nullTerminate_still _).bind fun _ hq =>
        ensures_ret (((hr.still hv.still).still hq).mono fun h => ⟨hi, h⟩)

theorem checked_insert {t : Str} {x : Out (Status × VS Byte)} {c : Prop}
    (h : Ensures x fun r => Cost c t.s r.2) :
    Ensures (x.bind fun r => if failed r.1 then .ret (r.1, { t with s := r.2 })
      else .ret (stSuccess, { t with s := r.2 })) fun r => Cost c t.s r.2.s :=
  h.bind fun _ hr => ensures_ite (fun _ => ensures_ret hr) fun _ => ensures_ret hr

theorem checkTerminate_cost {t : Str} {x : Out (Status × VS Byte)} {c : Prop}
    (h : Ensures x fun r => Cost c t.s r.2) :
    Ensures (x.bind fun r => checkTerminate t r) fun r => Cost c t.s r.2.s :=
  h.bind fun _ hr => ensures_ite (fun _ => ensures_ret hr) fun _ =>
    (nullTerminate_still _).bind fun _ hq => ensures_ret (hr.still hq)

theorem strInsert_cost (t : Str) (i : Nat) (x : View) (hi : i < t.s.v.size) :
    Ensures (strInsert t i x) fun r =>
      Cost (¬ i > t.s.v.size ∧ t.s.v.cap < add64 t.s.v.size (sub64 x.size 1)) t.s r.2.s :=
  ensures_ite (fun _ => ensures_ret ((Still.refl _).cost _)) fun _ =>
    ensures_ite (fun h => absurd h (Nat.ne_of_lt hi)) fun _ =>
    ensures_ite (fun h => absurd hi (Nat.not_lt.2 h)) fun _ => checked_insert (vecInsertRange_cost _ _ _ _)

theorem strInsertEx_cost (t : Str) (i : Nat) (x : View) (j n : Nat) (hi : i < t.s.v.size) :
    Ensures (strInsertEx t i x j n) fun r =>
      Cost (¬ i > t.s.v.size ∧ t.s.v.cap < add64 t.s.v.size n) t.s r.2.s :=
  ensures_ite (fun _ => ensures_ret ((Still.refl _).cost _)) fun _ =>
    ensures_ite (fun h => absurd h (Nat.ne_of_lt hi)) fun _ =>
    ensures_ite (fun h => absurd hi (Nat.not_lt.2 h)) fun _ =>
    ensures_ite (fun _ => ensures_ret ((Still.refl _).cost _)) fun _ =>
      checked_insert (vecInsertRange_cost _ _ _ _)

theorem strDelete_cost (t : Str) (i n : Nat) :
    Ensures (strDelete t i n) fun r => Cost ((n ≠ 0 ∧ ¬ add64 i n > t.s.v.size) ∧
        shouldShrink (sub64 t.s.v.size n) t.s.v.cap t.s.v.shrink = true) t.s r.2.s :=
  ensures_ite (fun _ => ensures_ret ((Still.refl _).cost _)) fun _ =>
    checkTerminate_cost (vecDeleteRange_cost _ _ _)

theorem strTruncate_cost (t : Str) (i : Nat) :
    Ensures (strTruncate t i) fun r =>
      Cost ((sub64 (sub64 t.s.v.size i) 1 ≠ 0 ∧
          ¬ add64 i (sub64 (sub64 t.s.v.size i) 1) > t.s.v.size) ∧
        shouldShrink (sub64 t.s.v.size (sub64 (sub64 t.s.v.size i) 1)) t.s.v.cap t.s.v.shrink = true)
        t.s r.2.s :=
  ensures_ite (fun _ => ensures_ret ((Still.refl _).cost _)) fun _ =>
    checkTerminate_cost (vecDeleteRange_cost _ _ _)

theorem strStart_shape (v : Vec Byte) : Ensures (strStart v) (SameShape v) :=
  (strPoke_shape _ _ _).bind fun _ h => ensures_ret ⟨h.1, h.2.1, h.2.2.1, h.2.2.2⟩

theorem strClear_cost (t : Str) : Ensures (strClear t) fun r => Cost (Resettles t.s 0) t.s r.2.s :=
  (vecResizeEx_cost t.s _ _).bind fun _ hr => ensures_ite (fun _ => ensures_ret hr) fun _ =>
    (strStart_shape _).bind fun _ h => ensures_ret (hr.still h.still)

theorem strResize_cost (t : Str) (n : Nat) :
    Ensures (strResize t n) fun r => Cost (Resettles t.s (add64 n 1)) t.s r.2.s :=
  checkTerminate_cost (vecResizeEx_cost t.s _ _)

theorem strReserve_cost (t : Str) (c : Nat) :
    Ensures (strReserve t c) fun r => Cost (t.s.v.cap < c) t.s r.2.s :=
  (vecReserve_cost _ _).bind fun _ h => ensures_ret h

theorem strShrink_cost (t : Str) : Ensures (strShrinkToFit t) fun r => Cost True t.s r.2.s :=
  (reallocate_cost _ _).bind fun _ h => ensures_ret h.1

/-! ## One operation -/

/-- The credit after extending the text by `k` characters is paid. -/
theorem pay_extend {P : Params} (hdyn : P.allocator.isSome = true) (hg : 2 ≤ P.growth)
    (ht : P.thr = 0 ∨ P.growth < P.thr) {x y s c c' k : Nat} (hk : 1 ≤ k)
    (he : extend P c (s + k) = some c') (hx : x ≤ y + c')
    (hx' : ¬ (c < s + k ∨ P.thr ≠ 0 ∧ (s + k) * P.thr < c) → x = y) :
    x + credit P.growth (s + k) c' ≤ y + credit P.growth s c + P.growth * P.growth * k := by
  unfold extend at he
  split at he
  · injection he with he
    subst he
    exact pay_trim hdyn hg ht (by omega) (by omega) hk hx fun h => hx' fun h' => by
      rcases h' with h' | h'
      · omega
      · exact h h'
  · exact pay_room hg he hx fun h => absurd (by omega) h

/-- The credit after clearing the string is paid. -/
theorem pay_clear {P : Params} (hdyn : P.allocator.isSome = true) (hg : 2 ≤ P.growth)
    {x y s c : Nat} (hs : 1 ≤ s)
    (hx : x ≤ y + trim P c 0) (hx' : ¬ (P.thr ≠ 0 ∧ 0 * P.thr < c) → x = y) :
    x + credit P.growth 1 (trim P c 0) ≤ y + credit P.growth s c + P.growth * P.growth * s := by
  by_cases h : P.thr ≠ 0 ∧ 0 * P.thr < c
  · have e : trim P c 0 = 1 := by
      unfold trim; rw [if_pos ⟨hdyn, h⟩]; simp
    rw [e] at hx ⊢
    have h1 : credit P.growth 1 1 = 2 * (P.growth - 1) := by
      unfold credit
      rw [Nat.mul_one, Nat.sub_eq_zero_of_le (by omega : 1 ≤ P.growth), Nat.mul_zero, Nat.add_zero]
    have h2 := twice hg P.growth
    have h3 : P.growth * P.growth ≤ P.growth * P.growth * s := Nat.le_mul_of_pos_right _ hs
    omega
  · have e : trim P c 0 = c := by
      unfold trim; rw [if_neg (fun h' => h h'.2)]
    rw [e, hx' h]
    obtain ⟨k, rfl⟩ := Nat.exists_eq_add_of_le hs
    have h1 := pay_remove (g := P.growth) (s := 1) (c := c) (k := k)
    have h2 : P.growth * P.growth * k ≤ P.growth * P.growth * (1 + k) := Nat.mul_le_mul_left _ (by omega)
    omega

theorem extend_dyn {P : Params} (hdyn : P.allocator.isSome = true) (c n : Nat) :
    ∃ c', extend P c n = some c' := by
  unfold extend
  split
  · exact ⟨_, rfl⟩
  · exact room_dyn hdyn _ _

theorem SRep.moves {P : Params} {t : Str} {a : SState} {b : Block Byte} {sl : List (Cell Byte)}
    (R : SRep P t a b sl) {n : Nat} (hf : SFits n) :
    Resettles t.s n ↔ n ≠ a.text.length + 1 ∧ (a.bytes < n ∨ P.thr ≠ 0 ∧ n * P.thr < a.bytes) := by
  unfold Resettles
  rw [R.size, R.rep.shrinks ((fits_iff R.one n).2 hf), R.rep.cap]

theorem pay_append {P : Params} {t : Str} {a : SState} {b : Block Byte} {sl : List (Cell Byte)}
    (R : SRep P t a b sl) (hg : 2 ≤ P.growth) (ht : P.thr = 0 ∨ P.growth < P.thr)
    {x : List (Cell Byte)} {n : Nat} (hn : x.length = n) (hf : SFits (a.text.length + n + 1)) {st : Status}
    {t' : Str} {a' : SState} {b' : Block Byte} {sl' : List (Cell Byte)}
    (hstep : appendText P a x = (st, a')) (hc : Cost (Resettles t.s (a.text.length + n + 1)) t.s t'.s)
    (R' : SRep P t' a' b' sl') :
    spent t'.s.w.trace + credit P.growth (a'.text.length + 1) a'.bytes ≤
      spent t.s.w.trace + credit P.growth (a.text.length + 1) a.bytes + P.growth * P.growth * n := by
  have hdyn := R.rep.dynamic hg
  have hcap := R'.rep.cap
  obtain ⟨⟨-, h1⟩, h2⟩ := hc
  rw [R.moves hf] at h2
  unfold appendText at hstep
  by_cases hx : x = []
  · rw [if_pos hx] at hstep
    cases hstep
    have h0 : n = 0 := by rw [← hn, hx]; rfl
    subst h0
    have := h2 fun h => h.1 rfl
    omega
  · rw [if_neg hx] at hstep
    have hpos : 1 ≤ n := by
      rw [← hn]
      exact Nat.pos_of_ne_zero fun h => hx (List.length_eq_zero_iff.1 h)
    have e : a.text.length + n + 1 = a.text.length + 1 + n := by omega
    obtain ⟨c', hr⟩ := extend_dyn hdyn a.bytes (a.text.length + 1 + n)
    rw [hn, e] at hstep
    simp only [hr, Prod.mk.injEq] at hstep
    obtain ⟨-, rfl⟩ := hstep
    simp only [hcap] at h1
    rw [e] at h2
    have e2 : (a.text ++ x).length + 1 = a.text.length + 1 + n := by simp [hn]; omega
    simp only [e2]
    exact pay_extend hdyn hg ht hpos hr h1 fun h => h2 fun h' => h h'.2

theorem pay_insert {P : Params} {t : Str} {a : SState} {b : Block Byte} {sl : List (Cell Byte)}
    (R : SRep P t a b sl) (hg : 2 ≤ P.growth)
    {x : List (Cell Byte)} {i n : Nat} (hn : x.length = n) (hi : i ≤ a.text.length) {st : Status}
    {t' : Str} {a' : SState} {b' : Block Byte} {sl' : List (Cell Byte)}
    (hstep : insertText P a i x = (st, a'))
    (hc : Cost (a.bytes < a.text.length + 1 + n) t.s t'.s)
    (R' : SRep P t' a' b' sl') :
    spent t'.s.w.trace + credit P.growth (a'.text.length + 1) a'.bytes ≤
      spent t.s.w.trace + credit P.growth (a.text.length + 1) a.bytes + P.growth * P.growth * n := by
  have hdyn := R.rep.dynamic hg
  have hcap := R'.rep.cap
  have hlen := R.rep.len
  rw [List.length_append] at hlen
  have hlen : a.text.length + 1 ≤ a.bytes := hlen
  obtain ⟨⟨-, h1⟩, h2⟩ := hc
  unfold insertText at hstep
  by_cases hx : x = []
  · rw [if_pos hx] at hstep
    cases hstep
    have h0 : n = 0 := by rw [← hn, hx]; rfl
    subst h0
    have := h2 (by omega)
    omega
  · rw [if_neg hx] at hstep
    have e : a.text.length + n + 1 = a.text.length + 1 + n := by omega
    obtain ⟨c', hr⟩ := room_dyn hdyn a.bytes (a.text.length + 1 + n)
    rw [hn, e] at hstep
    simp only [hr, Prod.mk.injEq] at hstep
    obtain ⟨-, rfl⟩ := hstep
    simp only [hcap] at h1
    have e2 : (a.text.take i ++ x ++ a.text.drop i).length + 1 = a.text.length + 1 + n := by
      simp [hn]; omega
    simp only [e2]
    exact pay_room hg hr h1 h2

theorem pay_sstep {P : Params} {t : Str} {a : SState} {b : Block Byte} {sl : List (Cell Byte)}
    (R : SRep P t a b sl) (hg : 2 ≤ P.growth) (ht : P.thr = 0 ∨ P.growth < P.thr) (op : SOp)
    {junk : List (Cell Byte)} {st : Status} {t' : Str} {a' : SState} {b' : Block Byte}
    {sl' : List (Cell Byte)} (hd : SInDomain a op) (hj : junk.length = sjunkLen a op)
    (hstep : sstep P junk a op = (st, a')) (hop : strOp t op = .ret (st, t')) (R' : SRep P t' a' b' sl') :
    spent t'.s.w.trace + credit P.growth (a'.text.length + 1) a'.bytes ≤
      spent t.s.w.trace + credit P.growth (a.text.length + 1) a.bytes +
        P.growth * P.growth * stouched a op := by
  have hdyn := R.rep.dynamic hg
  have hcap := R'.rep.cap
  have hlen : a.text.length + 1 ≤ a.bytes := by
    have := R.rep.len
    rwa [List.length_append] at this
  have hfit : SFits (a.text.length + 1) := by
    have := R.rep.fits
    rw [List.length_append] at this
    exact (fits_iff R.one _).1 this
  have still : Still t.s t'.s → a'.text.length = a.text.length →
      spent t'.s.w.trace + credit P.growth (a'.text.length + 1) a'.bytes ≤
        spent t.s.w.trace + credit P.growth (a.text.length + 1) a.bytes +
          P.growth * P.growth * 0 := by
    intro h hl
    have hc : a'.bytes = a.bytes := by
      have h1 : a'.bytes = t'.s.v.cap := hcap.symm
      have h2 : a.bytes = t.s.v.cap := R.rep.cap.symm
      rw [h1, h2]; exact h.2.1
    rw [hc, hl, h.1]; omega
  have same : a' = a → spent t'.s.w.trace = spent t.s.w.trace → ∀ k,
      spent t'.s.w.trace + credit P.growth (a'.text.length + 1) a'.bytes ≤
        spent t.s.w.trace + credit P.growth (a.text.length + 1) a.bytes +
          P.growth * P.growth * k := by
    intro h1 h2 k
    rw [h1, h2]; omega
  cases op with
  | append x =>
    have hd' : SFits (a.text.length + x.length + 1) := hd
    have hop : strAppendSrc t (.ext (textView x).mem) (textView x).size = .ret (st, t') := hop
    have hc := strAppendSrc_cost t _ _ _ hop
    have e : sub64 (add64 t.s.v.size (textView x).size) 1 = a.text.length + x.length + 1 := by
      rw [R.size]
      show sub64 (add64 (a.text.length + 1) (x.length + 1)) 1 = _
      have h9 : (a.text.length + x.length + 1) * 255 < 18446744073709551616 := hd'
      rw [add64_eq (by omega), sub64_eq (by omega) (by omega)]; omega
    rw [e] at hc
    exact pay_append R hg ht rfl hd' hstep hc R'
  | appendEx x j n =>
    obtain ⟨hd1, hd2⟩ : SFits (a.text.length + x.length + 1) ∧ j + n < 18446744073709551616 := hd
    have hop : strAppendExSrc t (.ext (textView x).mem) (textView x).size j n = .ret (st, t') := hop
    have hc := strAppendExSrc_cost t _ _ _ _ _ hop
    rw [add64_eq hd2] at hc
    simp only [sstep] at hstep
    by_cases hjn : j + n > x.length
    · rw [if_pos hjn] at hstep
      cases hstep
      exact same rfl (hc.2 fun h => h.1 (by show _ ≥ x.length + 1; omega)) _
    rw [if_neg hjn] at hstep
    have hlt : a.text.length + x.length + 1 < 18446744073709551616 := SFits.lt hd1
    have e : add64 t.s.v.size n = a.text.length + n + 1 := by
      rw [R.size, add64_eq (by omega)]; omega
    rw [e] at hc
    have e0 : ((x.drop j).take n).length = n := by simp; omega
    exact pay_append R hg ht e0 (hd1.mono (by omega)) hstep (hc.mono fun h => h.2) R'
  | insert i x =>
    have hd' : SFits (a.text.length + x.length + 1) := hd
    have hlt : a.text.length + x.length + 1 < 18446744073709551616 := SFits.lt hd'
    simp only [sstep] at hstep
    have hop : strInsert t i (textView x) = .ret (st, t') := hop
    by_cases h1 : i = a.text.length + 1
    · rw [if_pos h1] at hstep
      have hop' : strAppend t (textView x) = .ret (st, t') := by
        unfold strInsert at hop
        rw [if_neg (by show ¬ x.length + 1 = 0; omega), if_pos (by rw [R.size]; exact h1)] at hop
        exact hop
      have hc := strAppendSrc_cost t _ _ _ hop'
      have e : sub64 (add64 t.s.v.size (textView x).size) 1 = a.text.length + x.length + 1 := by
        rw [R.size]
        show sub64 (add64 (a.text.length + 1) (x.length + 1)) 1 = _
        unfold SFits at hd'
        rw [add64_eq (by omega), sub64_eq (by omega) (by omega)]; omega
      rw [e] at hc
      exact pay_append R hg ht rfl hd' hstep hc R'
    rw [if_neg h1] at hstep
    by_cases h2 : i > a.text.length
    · rw [if_pos h2] at hstep
      cases hstep
      have e : t' = t := by
        unfold strInsert at hop
        rw [if_neg (by show ¬ x.length + 1 = 0; omega), if_neg (by rw [R.size]; exact h1),
          if_pos (by rw [R.size]; omega)] at hop
        injection hop with hop
        exact (congrArg Prod.snd hop).symm
      exact same rfl (by rw [e]) _
    rw [if_neg h2] at hstep
    have hc := strInsert_cost t i (textView x) (by rw [R.size]; omega) _ hop
    have e : add64 t.s.v.size (sub64 (textView x).size 1) = a.text.length + 1 + x.length := by
      rw [R.size]
      show add64 _ (sub64 (x.length + 1) 1) = _
      rw [sub64_eq (by omega) (by omega), add64_eq (by omega)]; omega
    have hb : t.s.v.cap = a.bytes := R.rep.cap
    rw [e, hb] at hc
    exact pay_insert R hg rfl (by omega) hstep (hc.mono fun h => h.2) R'
  | insertEx i x j n =>
    obtain ⟨hd1, hd2⟩ : SFits (a.text.length + x.length + 1) ∧ j + n < 18446744073709551616 := hd
    have hlt : a.text.length + x.length + 1 < 18446744073709551616 := SFits.lt hd1
    simp only [sstep] at hstep
    have hop : strInsertEx t i (textView x) j n = .ret (st, t') := hop
    have hz : ¬ (textView x).size = 0 := by show ¬ x.length + 1 = 0; omega
    by_cases h1 : i > a.text.length + 1 ∨ j + n > x.length
    · rw [if_pos h1] at hstep
      cases hstep
      have e : t' = t := by
        unfold strInsertEx at hop
        rw [if_neg hz] at hop
        by_cases c1 : i = t.s.v.size
        · rw [if_pos c1] at hop
          rw [R.size] at c1
          unfold strAppendEx strAppendExSrc at hop
          rw [if_neg hz, if_pos (by rw [add64_eq hd2]; show _ ≥ x.length + 1; omega)] at hop
          injection hop with hop
          exact (congrArg Prod.snd hop).symm
        · rw [if_neg c1] at hop
          by_cases c2 : i ≥ t.s.v.size
          · rw [if_pos c2] at hop
            injection hop with hop
            exact (congrArg Prod.snd hop).symm
          · rw [if_neg c2] at hop
            rw [R.size] at c2
            rw [if_pos (by rw [add64_eq hd2]; show _ ≥ x.length + 1; omega)] at hop
            injection hop with hop
            exact (congrArg Prod.snd hop).symm
      exact same rfl (by rw [e]) _
    rw [if_neg h1] at hstep
    have e0 : ((x.drop j).take n).length = n := by simp; omega
    by_cases h2 : i = a.text.length + 1
    · rw [if_pos h2] at hstep
      have hop' : strAppendEx t (textView x) j n = .ret (st, t') := by
        unfold strInsertEx at hop
        rw [if_neg hz, if_pos (by rw [R.size]; exact h2)] at hop
        exact hop
      have hc := strAppendExSrc_cost t (.ext (textView x).mem) (textView x).size j n _ hop'
      have e : add64 t.s.v.size n = a.text.length + n + 1 := by
        rw [R.size, add64_eq (by omega)]; omega
      rw [e] at hc
      exact pay_append R hg ht e0 (hd1.mono (by omega)) hstep (hc.mono fun h => h.2) R'
    rw [if_neg h2] at hstep
    have hc := strInsertEx_cost t i (textView x) j n (by rw [R.size]; omega) _ hop
    have e : add64 t.s.v.size n = a.text.length + 1 + n := by
      rw [R.size, add64_eq (by omega)]
    have hb : t.s.v.cap = a.bytes := R.rep.cap
    rw [e, hb] at hc
    exact pay_insert R hg e0 (by omega) hstep (hc.mono fun h => h.2) R'
  | delete i n =>
    have hd' : i + n < 18446744073709551616 := hd
    obtain ⟨⟨-, h1⟩, h2⟩ := strDelete_cost t _ _ _ hop
    simp only [sstep] at hstep
    by_cases hi : i + n > a.text.length
    · rw [if_pos hi] at hstep
      cases hstep
      have hop : strDelete t i n = .ret (stOutOfRange, t') := hop
      have e : t' = t := by
        unfold strDelete at hop
        rw [if_pos (by rw [R.size, add64_eq hd']; omega)] at hop
        injection hop with hop
        exact (congrArg Prod.snd hop).symm
      exact same rfl (by rw [e]) _
    rw [if_neg hi] at hstep
    by_cases hn : n = 0
    · rw [if_pos hn] at hstep
      cases hstep
      exact same rfl (h2 fun h => h.1.1 hn) _
    rw [if_neg hn] at hstep
    simp only [Prod.mk.injEq] at hstep
    obtain ⟨-, rfl⟩ := hstep
    simp only [hcap] at h1
    have hb : t.s.v.cap = a.bytes := R.rep.cap
    have hlt : a.text.length + 1 < 18446744073709551616 := SFits.lt hfit
    rw [R.size, sub64_eq (by omega) hlt,
      R.rep.shrinks ((fits_iff R.one _).2 (hfit.mono (by omega)))] at h2
    have e : (a.text.take i ++ a.text.drop (i + n)).length + 1 = a.text.length + 1 - n := by
      simp; omega
    simp only [e, stouched]
    exact pay_trim hdyn hg ht (by omega) (by omega) (by omega) h1 fun h => h2 fun h' => h h'.2
  | truncate i =>
    obtain ⟨⟨-, h1⟩, h2⟩ := strTruncate_cost t _ _ hop
    simp only [sstep] at hstep
    have hlt : a.text.length + 1 < 18446744073709551616 := SFits.lt hfit
    by_cases hi : i > a.text.length
    · rw [if_pos hi] at hstep
      cases hstep
      have hop : strTruncate t i = .ret (stOutOfRange, t') := hop
      have e : t' = t := by
        unfold strTruncate at hop
        rw [if_pos (by rw [R.size]; omega)] at hop
        injection hop with hop
        exact (congrArg Prod.snd hop).symm
      exact same rfl (by rw [e]) _
    rw [if_neg hi] at hstep
    have e1 : sub64 (sub64 (a.text.length + 1) i) 1 = a.text.length - i := by
      rw [sub64_eq (a := a.text.length + 1) (by omega) hlt, sub64_eq (by omega) (by omega)]; omega
    rw [R.size, e1] at h2
    by_cases hn : i = a.text.length
    · rw [if_pos hn] at hstep
      cases hstep
      exact same rfl (h2 fun h => h.1.1 (by omega)) _
    rw [if_neg hn] at hstep
    simp only [Prod.mk.injEq] at hstep
    obtain ⟨-, rfl⟩ := hstep
    simp only [hcap] at h1
    have e2 : a.text.length + 1 - (a.text.length - i) = i + 1 := by omega
    rw [sub64_eq (by omega) hlt, e2,
      R.rep.shrinks ((fits_iff R.one _).2 (hfit.mono (by omega)))] at h2
    have e : (a.text.take i).length + 1 = i + 1 := by simp; omega
    simp only [e, stouched]
    exact pay_trim hdyn hg ht (by omega) (by omega) (by omega) h1 fun h => h2 fun h' => h h'.2
  | clear =>
    obtain ⟨⟨-, h1⟩, h2⟩ := strClear_cost t _ hop
    rw [R.moves (hfit.mono (Nat.zero_le _))] at h2
    simp only [sstep, Prod.mk.injEq] at hstep
    obtain ⟨-, rfl⟩ := hstep
    simp only [hcap] at h1
    simp only [List.length_nil, Nat.zero_add, stouched]
    have hge := pay_clear hdyn hg (x := spent t'.s.w.trace) (y := spent t.s.w.trace)
      (s := a.text.length + 1) (c := a.bytes) (by omega) h1 fun h => h2 fun h' => by
        rcases h'.2 with h'' | h''
        · omega
        · exact h h''
    exact hge
  | setChar i c =>
    refine still (strSetChar_still t _ _ _ hop) ?_
    simp only [sstep] at hstep
    split at hstep <;> cases hstep <;> simp
  | lower i n =>
    refine still (strCaseEx_still _ t _ _ _ hop) ?_
    simp only [sstep] at hstep
    split at hstep <;> cases hstep
    · rfl
    · simp [mapRange]; omega
  | upper i n =>
    refine still (strCaseEx_still _ t _ _ _ hop) ?_
    simp only [sstep] at hstep
    split at hstep <;> cases hstep
    · rfl
    · simp [mapRange]; omega
  | resize n =>
    have hd' : SFits (n + 1) := hd
    obtain ⟨⟨-, h1⟩, h2⟩ := strResize_cost t _ _ hop
    have hlt : n + 1 < 18446744073709551616 := SFits.lt hd'
    rw [add64_eq hlt, R.moves hd'] at h2
    simp only [sstep] at hstep
    by_cases hn : n = a.text.length
    · rw [if_pos hn] at hstep
      cases hstep
      exact same rfl (h2 fun h => h.1 (by omega)) _
    rw [if_neg hn] at hstep
    by_cases hl : n < a.text.length
    · rw [if_pos hl] at hstep
      simp only [Prod.mk.injEq] at hstep
      obtain ⟨-, rfl⟩ := hstep
      simp only [hcap] at h1
      have e : (a.text.take n).length + 1 = n + 1 := by simp; omega
      simp only [e, stouched]
      exact pay_trim hdyn hg ht (by omega) (by omega) (by omega) h1 fun h => h2 fun h' => by
        rcases h'.2 with h'' | h''
        · omega
        · exact h h''
    rw [if_neg hl] at hstep
    obtain ⟨k, rfl⟩ := Nat.exists_eq_add_of_le (Nat.le_of_not_lt hl)
    have e : a.text.length + k + 1 = a.text.length + 1 + k := by omega
    obtain ⟨c', hr⟩ := extend_dyn hdyn a.bytes (a.text.length + 1 + k)
    rw [e] at hstep h2
    simp only [hr, Prod.mk.injEq] at hstep
    obtain ⟨-, rfl⟩ := hstep
    simp only [hcap] at h1
    have hj' : junk.length = a.text.length + k - a.text.length := hj
    have e2 : (a.text ++ junk).length + 1 = a.text.length + 1 + k := by simp [hj']; omega
    have e3 : a.text.length + k - a.text.length + (a.text.length - (a.text.length + k)) = k := by omega
    simp only [e2, stouched, e3]
    exact pay_extend hdyn hg ht (by omega) hr h1 fun h => h2 fun h' => h h'.2
  | reserve c =>
    obtain ⟨⟨-, h1⟩, h2⟩ := strReserve_cost t _ _ hop
    have hb : t.s.v.cap = a.bytes := R.rep.cap
    rw [hb] at h2
    simp only [sstep] at hstep
    by_cases hc : c ≤ a.bytes
    · rw [if_pos hc] at hstep
      cases hstep
      exact same rfl (h2 (by omega)) _
    · rw [if_neg hc, if_pos hdyn] at hstep
      cases hstep
      simp only [hcap] at h1
      have := pay_reserve hg hlen (Nat.lt_of_not_le hc)
      simp only [stouched]
      omega
  | shrinkToFit =>
    obtain ⟨⟨-, h1⟩, -⟩ := strShrink_cost t _ hop
    simp only [sstep, hdyn, if_true] at hstep
    cases hstep
    simp only [hcap] at h1
    have := pay_fit (g := P.growth) (s := a.text.length + 1) hg
    have e : max 1 (a.text.length + 1) = a.text.length + 1 := by omega
    rw [e] at this
    simp only [stouched]
    have e2 : a.text.length + 1 + 1 = a.text.length + 2 := rfl
    rw [e2] at this
    omega

/-! ## Histories -/

theorem pay_srun {P : Params} (hg : 2 ≤ P.growth) (ht : P.thr = 0 ∨ P.growth < P.thr) (ops : List SOp) :
    ∀ {t : Str} {a : SState} {b : Block Byte} {sl : List (Cell Byte)}, SRep P t a b sl →
    SAllInDomain P a ops →
    ∃ sts t' a' b' sl', runStr t ops = .ret (sts, t') ∧ SRep P t' a' b' sl' ∧
      spent t'.s.w.trace + credit P.growth (a'.text.length + 1) a'.bytes ≤
        spent t.s.w.trace + credit P.growth (a.text.length + 1) a.bytes +
          P.growth * P.growth * stouchedRun t ops := by
  induction ops with
  | nil =>
    intro t a b sl R _
    exact ⟨[], t, a, b, sl, rfl, R, by simp [stouchedRun]⟩
  | cons op ops ih =>
    intro t a b sl R hd
    cases hd with
    | cons hd htl =>
      obtain ⟨junk, st, t1, a1, b1, sl1, hj, hstep, hop, R1⟩ := sop_ok R op hd
      have ht' := htl junk hj
      rw [hstep] at ht'
      obtain ⟨sts, t', a', b', sl', hrun, R', hle⟩ := ih R1 ht'
      have h1 := pay_sstep R hg ht op hd hj hstep hop R1
      refine ⟨st :: sts, t', a', b', sl', by simp [runStr, hop, hrun], R', ?_⟩
      rw [stouchedRun, hop, R.abs_eq, Nat.mul_add]
      dsimp only
      omega

/-! ## Parameters for which it is expensive -/

theorem stouchedRun_deletes (n : Nat) : ∀ t : Str, stouchedRun t (List.replicate n (.delete 0 1)) ≤ n := by
  induction n with
  | zero => intro t; simp [stouchedRun]
  | succ n ih =>
    intro t
    rw [List.replicate_succ, stouchedRun]
    have : stouched (sabsOf t) (.delete 0 1) = 1 := rfl
    rw [this]
    split
    · have := ih (by assumption : Status × Str).2; omega
    · omega

theorem stouchedRun_appends (xs : List (Cell Byte)) :
    ∀ t : Str, stouchedRun t (xs.map fun c => .append [c]) ≤ xs.length := by
  induction xs with
  | nil => intro t; simp [stouchedRun]
  | cons x xs ih =>
    intro t
    rw [List.map_cons, stouchedRun]
    have : stouched (sabsOf t) (.append [x]) = 1 := rfl
    rw [this, List.length_cons]
    split
    · have := ih (by assumption : Status × Str).2; omega
    · omega

/-- A successful call of `strDelete` that shrinks asks once. -/
theorem strDelete_once (t : Str) (i n : Nat) :
    Ensures (strDelete t i n) fun r => failed r.1 = false → n ≠ 0 →
      shouldShrink (sub64 t.s.v.size n) t.s.v.cap t.s.v.shrink = true → t.s.v.allocator.isSome →
      Once t.s r.2.s := by
  refine ensures_ite (fun _ => ensures_ret fun h => by exact absurd (show failed stOutOfRange = false from h) (by decide)) fun _ => ?_
  refine Ensures.bind (Q := fun r => failed r.1 = false → n ≠ 0 →
      shouldShrink (sub64 t.s.v.size n) t.s.v.cap t.s.v.shrink = true → t.s.v.allocator.isSome →
      Once t.s r.2) ?_ fun r hr => ?_
  · refine ensures_ite (fun h => ensures_ret fun _ h' => absurd h h') fun _ =>
      ensures_ite (fun _ => ensures_ret fun h => by exact absurd (show failed stOutOfRange = false from h) (by decide)) fun _ => ?_
    refine (ensures_and (runDtors_still t.s _ _) (runDtors_size t.s _ _)).bind fun r hr => ?_
    refine Ensures.bind (Q := fun q => Still r q ∧ q.v.size = r.v.size) ?_ fun q hq => ?_
    · exact ensures_ite (fun _ => ensures_and (shiftLeft_still _ _ _) (shiftLeft_size _ _ _)) fun _ =>
        ensures_ret ⟨.refl _, rfl⟩
    · refine (shrinkAfter_cost _).imp fun p hp hs _ hsh ha => ?_
      have h := hr.1.trans hq.1
      have ho := hp.2
      simp only [hq.2, hr.2, h.2.1, h.2.2.2.1, h.2.2.1] at ho
      have := ho hsh ha hs
      unfold Once at this ⊢
      rw [this, ← h.1]
  · refine ensures_ite (fun h => ensures_ret fun h' => by simp [h] at h') fun hf => ?_
    refine (nullTerminate_still _).bind fun q hq => ensures_ret fun _ h1 h2 h3 => ?_
    have := hr (by simpa using hf) h1 h2 h3
    unfold Once at this ⊢
    rw [hq.1, hq.2.1, this]

/-- A successful call of `vecResizeEx` that grows asks once. -/
theorem vecResizeEx_once (s : VS Byte) (n : Nat) (x : Src Byte) :
    Ensures (vecResizeEx s n x) fun r => failed r.1 = false → s.v.cap < n → s.v.size < n →
      1 ≤ mul64 n s.v.growth → s.v.allocator.isSome → Once s r.2 := by
  refine ensures_ite (fun h => ensures_ret fun _ _ h' => absurd h (by omega)) fun hn => ?_
  refine Ensures.bind (Q := fun r => s.v.size < n → r = s) ?_ fun r hr => ?_
  · exact ensures_ite (fun h => (ensures_any _).imp fun _ _ h' => absurd h (by omega)) fun _ =>
      ensures_ret fun _ => rfl
  refine Ensures.bind (Q := fun q => failed q.1 = false → s.v.cap < n → s.v.size < n →
      1 ≤ mul64 n s.v.growth → s.v.allocator.isSome → Once s q.2) ?_ fun q hq => ?_
  · refine ensures_ite (fun h => ?_) fun h => ensures_ret fun _ h1 h2 _ => ?_
    · refine (reallocate_cost r _).imp fun q hq h1 h2 h3 h4 h5 => ?_
      have e := hr h3
      rw [e] at hq
      exact hq.2 h5 h4 h1
    · rw [hr h2] at h
      exact absurd (by simp [shouldGrow, h1]) h
  refine ensures_ite (fun h => ensures_ret fun h' => by simp [h] at h') fun hf => ?_
  exact ensures_ite
    (fun _ => ensures_withData fun b hb => (ensures_any _).bind fun _ _ =>
      ensures_ret fun _ h1 h2 h3 h4 => hq (by simpa using hf) h1 h2 h3 h4)
    fun _ => ensures_ret fun _ h1 h2 h3 h4 => hq (by simpa using hf) h1 h2 h3 h4

/-- A successful call of `strAppend` that grows asks once. -/
theorem strAppend_once (t : Str) (x : View) {n : Nat} (hx : x.size ≠ 0)
    (hn : sub64 (add64 t.s.v.size x.size) 1 = n) :
    Ensures (strAppend t x) fun r => failed r.1 = false → t.s.v.cap < n → t.s.v.size < n →
      1 ≤ mul64 n t.s.v.growth → t.s.v.allocator.isSome → Once t.s r.2.s := by
  unfold strAppend strAppendSrc
  rw [if_neg hx]
  dsimp only
  rw [hn]
  refine (vecResizeEx_once t.s n .null).bind fun r hr => ?_
  refine ensures_ite (fun h => ensures_ret fun h' => by simp [h] at h') fun hf => ?_
  refine (vecMemcpy_shape _ _ _ _).bind fun v hv => (nullTerminate_still _).bind fun q hq =>
    ensures_ret fun _ h1 h2 h3 h4 => ?_
  have := hr (by simpa using hf) h1 h2 h3 h4
  have hs := hv.still.trans hq
  unfold Once at this ⊢
  rw [hs.1, hs.2.1, this]

theorem deletes_cost {P : Params} (hdyn : P.allocator.isSome = true) (ht : P.thr ≠ 0)
    (htg : P.thr ≤ P.growth) (n : Nat) :
    ∀ {t : Str} {a : SState} {b : Block Byte} {sl : List (Cell Byte)}, SRep P t a b sl →
    a.text.length = n → (n + 1) * P.growth ≤ a.bytes →
    ∃ sts t' a' b' sl', runStr t (List.replicate n (.delete 0 1)) = .ret (sts, t') ∧
      SRep P t' a' b' sl' ∧ a'.text = [] ∧
      2 * spent t.s.w.trace + P.growth * (n * (n + 1)) ≤ 2 * spent t'.s.w.trace := by
  induction n with
  | zero =>
    intro t a b sl R hn _
    exact ⟨[], t, a, b, sl, rfl, R, List.length_eq_zero_iff.1 hn, by simp⟩
  | succ n ih =>
    intro t a b sl R hn hc
    have hfit : SFits (a.text.length + 1) := by
      have := R.rep.fits
      rw [List.length_append] at this
      exact (fits_iff R.one _).1 this
    have hlt64 : a.text.length + 1 < 18446744073709551616 := SFits.lt hfit
    obtain ⟨junk, st, t1, a1, b1, sl1, hj, hstep, hop, R1⟩ := sop_ok R (.delete 0 1)
      (by show 0 + 1 < 18446744073709551616; omega)
    have h1 : ¬ 0 + 1 > a.text.length := by omega
    simp only [sstep, h1, if_false, Nat.one_ne_zero, Prod.mk.injEq] at hstep
    obtain ⟨rfl, rfl⟩ := hstep
    have hl : a.text.length + 1 - 1 = n + 1 := by omega
    have hlt : (n + 1) * P.thr < a.bytes := by
      have h1 : (n + 1) * P.thr ≤ (n + 1) * P.growth := Nat.mul_le_mul_left _ htg
      have h2 : (n + 1 + 1) * P.growth = (n + 1) * P.growth + P.growth := Nat.succ_mul _ _
      have := R.rep.growth1
      omega
    have hcost := strDelete_once t 0 1 _ hop failed_success (by decide) (by
      rw [R.size, sub64_eq (by omega) hlt64, hl,
        R.rep.shrinks ((fits_iff R.one _).2 (hfit.mono (by omega)))]
      exact ⟨ht, hlt⟩) (by rw [R.rep.allocator]; exact hdyn)
    have hpos : 1 ≤ (n + 1) * P.growth := Nat.mul_pos (by omega) R.rep.growth1
    have htrim : trim P a.bytes (a.text.length + 1 - 1) = (n + 1) * P.growth := by
      unfold trim; rw [hl, if_pos ⟨hdyn, ht, hlt⟩]; omega
    simp only [htrim] at R1
    have hcap : t1.s.v.cap = (n + 1) * P.growth := R1.rep.cap
    obtain ⟨sts, t', a', b', sl', hrun, R', he, hle⟩ := ih R1
      (by show (a.text.take 0 ++ a.text.drop (0 + 1)).length = n; simp; omega) (Nat.le_refl _)
    refine ⟨stSuccess :: sts, t', a', b', sl', ?_, R', he, ?_⟩
    · have h1 : List.replicate (n + 1) (SOp.delete 0 1) = .delete 0 1 :: List.replicate n (.delete 0 1) := rfl
      rw [h1]
      simp [runStr, hop, hrun]
    · unfold Once at hcost
      dsimp only at hcost
      rw [hcap] at hcost
      have h1 : (n + 1) * (n + 1 + 1) = n * (n + 1) + 2 * (n + 1) := by
        simp only [Nat.mul_add, Nat.add_mul]; omega
      have h2 : P.growth * (n * (n + 1) + 2 * (n + 1)) =
          P.growth * (n * (n + 1)) + 2 * ((n + 1) * P.growth) := by
        rw [Nat.mul_add, Nat.mul_left_comm P.growth 2 (n + 1), Nat.mul_comm P.growth (n + 1)]
      rw [h1, h2]
      omega

theorem appends_cost {P : Params} (hdyn : P.allocator.isSome = true) (hg : P.growth = 1)
    (xs : List (Cell Byte)) :
    ∀ {t : Str} {a : SState} {b : Block Byte} {sl : List (Cell Byte)}, SRep P t a b sl →
    a.bytes ≤ a.text.length + 1 → SFits (a.text.length + xs.length + 1) →
    ∃ sts t' a' b' sl', runStr t (xs.map fun c => .append [c]) = .ret (sts, t') ∧
      SRep P t' a' b' sl' ∧ a'.text = a.text ++ xs ∧
      2 * spent t.s.w.trace + xs.length * (xs.length + 1) + 2 * ((a.text.length + 1) * xs.length) ≤
        2 * spent t'.s.w.trace := by
  induction xs with
  | nil =>
    intro t a b sl R _ _
    exact ⟨[], t, a, b, sl, rfl, R, by simp, by simp⟩
  | cons x xs ih =>
    intro t a b sl R hc hf
    have hf1 : SFits (a.text.length + [x].length + 1) := hf.mono (by simp)
    have h64 : a.text.length + 2 < 18446744073709551616 := SFits.lt hf1
    have h64' : (a.text.length + 1 + 1) * 255 < 18446744073709551616 := hf1
    obtain ⟨junk, st, t1, a1, b1, sl1, hj, hstep, hop, R1⟩ := sop_ok R (.append [x]) hf1
    have hroom : extend P a.bytes (a.text.length + [x].length + 1) = some (a.text.length + 2) := by
      unfold extend Spec.room
      rw [if_neg (by simp; omega), if_neg (by simp; omega), if_pos hdyn, hg, Nat.mul_one]
      rfl
    simp only [sstep, appendText, List.cons_ne_nil, if_false, hroom, Prod.mk.injEq] at hstep
    obtain ⟨rfl, rfl⟩ := hstep
    have e : sub64 (add64 t.s.v.size (textView [x]).size) 1 = a.text.length + 2 := by
      rw [R.size]
      show sub64 (add64 (a.text.length + 1) 2) 1 = _
      rw [add64_eq (by omega), sub64_eq (by omega) (by omega)]; omega
    have hb : t.s.v.cap = a.bytes := R.rep.cap
    have hcost := strAppend_once t (textView [x]) (by simp [textView]) e _ hop failed_success
      (by rw [hb]; omega) (by rw [R.size]; omega)
      (by rw [R.rep.growth, hg, mul64_eq (by omega)]; omega) (by rw [R.rep.allocator]; exact hdyn)
    have hcap : t1.s.v.cap = a.text.length + 2 := R1.rep.cap
    obtain ⟨sts, t', a', b', sl', hrun, R', he, hle⟩ := ih R1 (by simp)
      (hf.mono (by simp; omega))
    refine ⟨stSuccess :: sts, t', a', b', sl', ?_, R', by rw [he]; simp, ?_⟩
    · simp [runStr, hop, hrun]
    · unfold Once at hcost
      dsimp only at hcost
      rw [hcap] at hcost
      simp only [List.length_append, List.length_cons, List.length_nil, Nat.mul_add, Nat.add_mul] at hle ⊢
      omega

theorem threshold_costs {P : Params} {t : Str} {a : SState} {b : Block Byte} {sl : List (Cell Byte)}
    (R : SRep P t a b sl) (ha : sabsOf t = a)
    (hdyn : P.allocator.isSome = true) (ht : P.thr ≠ 0) (htg : P.thr ≤ P.growth)
    (x : List (Cell Byte)) (hx : a.bytes < a.text.length + x.length + 1)
    (hf : SFits (a.text.length + x.length + 1)) :
    ∃ sts t', runStr t (.append x :: List.replicate (a.text.length + x.length) (.delete 0 1)) =
        .ret (sts, t') ∧ textOf t' = [] ∧
      stouchedRun t (.append x :: List.replicate (a.text.length + x.length) (.delete 0 1)) ≤
        a.text.length + 2 * x.length ∧
      2 * spent t.s.w.trace + P.growth * ((a.text.length + x.length) *
        (a.text.length + x.length + 1)) ≤ 2 * spent t'.s.w.trace := by
  have hlen : a.text.length + 1 ≤ a.bytes := by
    have := R.rep.len
    rwa [List.length_append] at this
  have hx0 : x ≠ [] := by
    rintro rfl
    rw [List.length_nil] at hx
    omega
  obtain ⟨junk, st, t1, a1, b1, sl1, hj, hstep, hop, R1⟩ := sop_ok R (.append x) hf
  have hroom : extend P a.bytes (a.text.length + x.length + 1) =
      some ((a.text.length + x.length + 1) * P.growth) := by
    unfold extend Spec.room
    rw [if_neg (by omega), if_neg (by omega), if_pos hdyn]
  simp only [sstep, appendText, hx0, if_false, hroom, Prod.mk.injEq] at hstep
  obtain ⟨rfl, rfl⟩ := hstep
  obtain ⟨sts, t', a', b', sl', hrun, R', hnil, hle⟩ := deletes_cost hdyn ht htg
    (a.text.length + x.length) R1 (by simp) (Nat.le_refl _)
  refine ⟨stSuccess :: sts, t', by simp [runStr, hop, hrun], ?_, ?_, ?_⟩
  · rw [← sabsOf_text, R'.abs_eq, hnil]
  · rw [stouchedRun, hop, ha]
    have h1 := stouchedRun_deletes (a.text.length + x.length) t1
    have h2 : stouched a (.append x) = x.length := rfl
    rw [h2]
    dsimp only
    omega
  · have hop' : strAppendSrc t (.ext (textView x).mem) (textView x).size = .ret (stSuccess, t1) := hop
    have := (strAppendSrc_cost t _ _ _ hop').1.1
    dsimp only at this
    omega

end Zy
