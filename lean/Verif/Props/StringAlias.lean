import Verif.Lemmas.StringAlias
import Verif.Props.String

/-!
# C128: text of the string itself; C76: the string as its own view

A view of `n` characters from index `i` of the string itself has the data pointer `.self b.id i` (slot `i` of the memory
block `b` of the string) and the size `n + 1`, as `ZyanStringViewInsideViewEx` makes it. A view of a separate copy of
these characters is `copyOf t i n`. Text of the string itself can be used safely if a call does the same with both.
-/

namespace Zy

open Spec

/-- A view of a separate copy of a part of the text. -/
def copyOf (t : Str) (i n : Nat) : View := ⟨((textOf t).drop i).take n, n + 1⟩

/-- The block of a reachable string. -/
private theorem own_rep {P : Params} {t : Str} {b : Block Byte} (h : SReach P t) (hb : t.s.v.data = some b) :
    ∃ sl, SRep P t (sabsOf t) b sl := by
  obtain ⟨b', sl, R⟩ := h.rep
  have hbb : b' = b := Option.some.inj (R.rep.data.symm.trans hb)
  subst hbb
  exact ⟨sl, R⟩

/-! ## Appending -/

/-- The storage of the string can take `n` more characters without being moved: there is nothing to append, or the
storage belongs to the caller, or it is large enough and not so large that memory is given back. -/
def Stays (P : Params) (t : Str) (n : Nat) : Prop :=
  n = 0 ∨ P.allocator = none ∨ ((textOf t).length + n + 1 ≤ t.s.v.cap ∧
    (P.thr = 0 ∨ t.s.v.cap ≤ ((textOf t).length + n + 1) * P.thr))

/-- C128: a part of the text can be appended if the storage stays where it is. Missing: dynamic strings whose storage
moves (next theorem). -/
theorem C128_append_partial {P : Params} {t : Str} (h : SReach P t) {b : Block Byte} {i n : Nat}
    (hb : t.s.v.data = some b) (hi : i + n ≤ (textOf t).length) (hf : SFits ((textOf t).length + n + 1)) :
    (Stays P t n → strAppendSrc t (.self b.id i) (n + 1) = strAppend t (copyOf t i n)) ∧
    ∀ k m, k + m ≤ n → Stays P t m →
      strAppendExSrc t (.self b.id i) (n + 1) k m = strAppendEx t (copyOf t i n) k m := by
  obtain ⟨sl, R⟩ := own_rep h hb
  have hT : (sabsOf t).text = textOf t := sabsOf_text t
  have hB : (sabsOf t).bytes = t.s.v.cap := sabsOf_bytes t
  have hs := hf
  unfold SFits at hs
  have hsz : t.s.v.size = (textOf t).length + 1 := by rw [← hT]; exact R.size
  have hsub : sub64 ((textOf t).length + 1) 1 = (textOf t).length := by rw [sub64_eq (by omega) (by omega)]; omega
  have hsub' : sub64 (n + 1) 1 = n := by rw [sub64_eq (by omega) (by omega)]; omega
  constructor
  · intro hst
    have hadd : sub64 (add64 ((textOf t).length + 1) (n + 1)) 1 = (textOf t).length + n + 1 := by
      rw [add64_eq (by omega), sub64_eq (by omega) (by omega)]; omega
    obtain ⟨st, s', e, hc⟩ := append_self (i := i) R (by rw [hT]; exact hi) (by rw [hT]; exact hf)
      (by rw [hT, hB]; exact hst)
    rw [hT] at e hc
    unfold strAppend strAppendSrc copyOf
    simp only [hsz, hadd, e, Out.ret_bind', hsub, hsub']
    cases hfl : failed st with
    | true => rfl
    | false => simp only [hc hfl]
  · intro k m hkm hst
    have hadd : add64 ((textOf t).length + 1) m = (textOf t).length + m + 1 := by rw [add64_eq (by omega)]; omega
    have hf' : SFits ((textOf t).length + m + 1) := hf.mono (by omega)
    obtain ⟨st, s', e, hc⟩ := append_self (i := i + k) (n := m) R (by rw [hT]; omega) (by rw [hT]; exact hf')
      (by rw [hT, hB]; exact hst)
    rw [hT] at e hc
    have hx : vecMemcpy s'.v (textOf t).length (.ext ((((textOf t).drop i).take n).drop k)) m =
        vecMemcpy s'.v (textOf t).length (.ext (((textOf t).drop (i + k)).take m)) m := by
      have : readRange ((((textOf t).drop i).take n).drop k) 0 m = readRange (((textOf t).drop (i + k)).take m) 0 m := by
        rw [readRange_val (by simp; omega), readRange_val (by simp; omega)]
        simp only [List.drop_take, List.drop_drop, List.take_take, Nat.min_self, Nat.sub_zero,
          Nat.min_eq_left (show m ≤ n - k by omega)]
      simp only [vecMemcpy, memcpyIn, this]
    unfold strAppendEx strAppendExSrc copyOf
    simp only [hsz, hadd, e, Out.ret_bind', hsub, add64_eq (show k + m < 18446744073709551616 by omega), Src.offset, hx]
    rw [if_neg (show ¬ n + 1 = 0 by omega), if_neg (show ¬ n + 1 = 0 by omega),
      if_neg (show ¬ k + m ≥ n + 1 by omega), if_neg (show ¬ k + m ≥ n + 1 by omega)]
    cases hfl : failed st with
    | true => rfl
    | false => simp only [hc hfl]

/-- C128 is false for every dynamic string whose storage is moved by the append: the released storage is read. -/
theorem C128_append_negation {P : Params} {t : Str} (h : SReach P t) {b : Block Byte} {i n : Nat}
    (hb : t.s.v.data = some b) (hdyn : P.allocator.isSome) (hn : 1 ≤ n) (hf : SFits ((textOf t).length + n + 1))
    (hmove : t.s.v.cap < (textOf t).length + n + 1 ∨
      (P.thr ≠ 0 ∧ ((textOf t).length + n + 1) * P.thr < t.s.v.cap)) :
    strAppendSrc t (.self b.id i) (n + 1) = .ub .uaf ∧
    ∀ k size, k + n < size → size < 18446744073709551616 → strAppendExSrc t (.self b.id i) size k n = .ub .uaf := by
  obtain ⟨sl, R⟩ := own_rep h hb
  have hT : (sabsOf t).text = textOf t := sabsOf_text t
  have hB : (sabsOf t).bytes = t.s.v.cap := sabsOf_bytes t
  have hs := hf
  unfold SFits at hs
  have hsz : t.s.v.size = (textOf t).length + 1 := by rw [← hT]; exact R.size
  have hsub : sub64 ((textOf t).length + 1) 1 = (textOf t).length := by rw [sub64_eq (by omega) (by omega)]; omega
  have hsub' : sub64 (n + 1) 1 = n := by rw [sub64_eq (by omega) (by omega)]; omega
  constructor
  · have hadd : sub64 (add64 ((textOf t).length + 1) (n + 1)) 1 = (textOf t).length + n + 1 := by
      rw [add64_eq (by omega), sub64_eq (by omega) (by omega)]; omega
    obtain ⟨s', e, hc⟩ := append_moves (i := i) R hdyn hn (by rw [hT]; exact hf) (by rw [hT, hB]; exact hmove)
    rw [hT] at e hc
    unfold strAppendSrc
    simp only [hsz, hadd, e, Out.ret_bind', hsub, hsub', hc, failed_success, Bool.false_eq_true, if_false, Out.ub_bind']
    rw [if_neg (show ¬ n + 1 = 0 by omega)]
  · intro k size hk hsize
    have hadd : add64 ((textOf t).length + 1) n = (textOf t).length + n + 1 := by rw [add64_eq (by omega)]; omega
    obtain ⟨s', e, hc⟩ := append_moves (i := i + k) R hdyn hn (by rw [hT]; exact hf) (by rw [hT, hB]; exact hmove)
    rw [hT] at e hc
    unfold strAppendExSrc
    simp only [hsz, hadd, e, Out.ret_bind', hsub, hc, failed_success, Bool.false_eq_true, if_false, Src.offset,
      Out.ub_bind', add64_eq (show k + n < 18446744073709551616 by omega)]
    rw [if_neg (show ¬ size = 0 by omega), if_neg (show ¬ k + n ≥ size by omega)]

/-! ## Inserting -/

/-- C128: a part of the text can be inserted if there is room for it (or the storage belongs to the caller) and it ends
before the place of insertion or starts there. Missing: all other positions, and strings that must grow (next three
theorems). -/
theorem C128_insert_partial {P : Params} {t : Str} (h : SReach P t) {b : Block Byte} {i n j : Nat}
    (hb : t.s.v.data = some b) (hi : i + n ≤ (textOf t).length) (hj : j ≤ (textOf t).length)
    (hroom : (textOf t).length + n + 1 ≤ t.s.v.cap ∨ P.allocator = none) (hpos : i + n ≤ j ∨ i = j) :
    strInsertSrc t j (.self b.id i) (n + 1) = strInsert t j (copyOf t i n) ∧
    ∀ i' n' k, i' + k = i → k + n ≤ n' → i' + n' ≤ (textOf t).length →
      strInsertExSrc t j (.self b.id i') (n' + 1) k n = strInsertEx t j (copyOf t i' n') k n := by
  obtain ⟨sl, R⟩ := own_rep h hb
  have hT : (sabsOf t).text = textOf t := sabsOf_text t
  have hB : (sabsOf t).bytes = t.s.v.cap := sabsOf_bytes t
  have key : vecInsertRange t.s j (.self b.id i) n = vecInsertRange t.s j (.ext (((textOf t).drop i).take n)) n := by
    by_cases hn : n = 0
    · subst hn; rw [insertRange_none, insertRange_none]
    · have hp := text_part (a := sabsOf t) (i := i) (n := n) (by rw [hT]; exact hi)
      rw [hT] at hp
      rw [← hp, ← hT]
      refine (insertRange_self R.rep (i := i) (by omega) ?_ ?_).1 (hroom.imp_left fun hr => ?_) hpos
      all_goals simp only [hT, hB, List.length_append, List.length_cons, List.length_nil]; omega
  constructor
  · rw [← strInsertSrc_ext]
    show _ = strInsertSrc t j (.ext (((textOf t).drop i).take n)) (n + 1)
    rw [insertSrc_eq R (by rw [hT]; omega) (by rw [hT]; omega), insertSrc_eq R (by rw [hT]; omega) (by rw [hT]; omega),
      key]
  · intro i' n' k hi' hk hn'
    rw [← strInsertExSrc_ext]
    show _ = strInsertExSrc t j (.ext (((textOf t).drop i').take n')) (n' + 1) k n
    rw [insertExSrc_eq R (by rw [hT]; omega) (by rw [hT]; omega) hk,
      insertExSrc_eq R (by rw [hT]; omega) (by rw [hT]; omega) hk]
    simp only [Src.offset, hi', key]
    rw [insertRange_ext (ys := (((textOf t).drop i').take n').drop k) t.s j n (by simp; omega) (by simp; omega) (by
      simp only [List.drop_take, List.drop_drop, List.take_take, hi', Nat.min_self,
        Nat.min_eq_left (show n ≤ n' - k by omega)])]

/-- C128 is false for text that starts at least `n` characters behind the place of insertion: the text has moved by then,
and the `n` characters before it are inserted in its place. -/
theorem C128_insert_shifted_negation {P : Params} {t : Str} (h : SReach P t) {b : Block Byte} {i n j : Nat}
    (hb : t.s.v.data = some b) (hi : i + n ≤ (textOf t).length) (hn : 1 ≤ n)
    (hroom : (textOf t).length + n + 1 ≤ t.s.v.cap) (hpos : j + n ≤ i) :
    strInsertSrc t j (.self b.id i) (n + 1) = strInsert t j (copyOf t (i - n) n) ∧
    ∀ i' n' k, i' + k = i → k + n ≤ n' → i' + n' ≤ (textOf t).length →
      strInsertExSrc t j (.self b.id i') (n' + 1) k n = strInsert t j (copyOf t (i - n) n) := by
  obtain ⟨sl, R⟩ := own_rep h hb
  have hT : (sabsOf t).text = textOf t := sabsOf_text t
  have hB : (sabsOf t).bytes = t.s.v.cap := sabsOf_bytes t
  have key : vecInsertRange t.s j (.self b.id i) n =
      vecInsertRange t.s j (.ext (((textOf t).drop (i - n)).take n)) n := by
    have hp := text_part (a := sabsOf t) (i := i - n) (n := n) (by rw [hT]; omega)
    rw [hT] at hp
    rw [← hp, ← hT]
    refine (insertRange_self R.rep (i := i) (j := j) (by omega) ?_ ?_).2.1 ?_ hpos
    all_goals simp only [hT, hB, List.length_append, List.length_cons, List.length_nil]; omega
  have hright : strInsert t j (copyOf t (i - n) n) =
      (vecInsertRange t.s j (.ext (((textOf t).drop (i - n)).take n)) n).bind fun r =>
      if failed r.1 then .ret (r.1, { t with s := r.2 }) else .ret (stSuccess, { t with s := r.2 }) := by
    rw [← strInsertSrc_ext]
    exact insertSrc_eq R (by rw [hT]; omega) (by rw [hT]; omega) _
  constructor
  · rw [hright, insertSrc_eq R (by rw [hT]; omega) (by rw [hT]; omega), key]
  · intro i' n' k hi' hk hn'
    rw [hright, insertExSrc_eq R (by rw [hT]; omega) (by rw [hT]; omega) hk]
    simp only [Src.offset, hi', key]

/-- C128 is false for text that overlaps the gap without being the gap: it is copied with `memcpy` onto a part of itself,
which is undefined. -/
theorem C128_insert_overlap_negation {P : Params} {t : Str} (h : SReach P t) {b : Block Byte} {i n j : Nat}
    (hb : t.s.v.data = some b) (hi : i + n ≤ (textOf t).length) (hj : j ≤ (textOf t).length)
    (hroom : (textOf t).length + n + 1 ≤ t.s.v.cap) (hpos : i ≠ j ∧ i < j + n ∧ j < i + n) :
    strInsertSrc t j (.self b.id i) (n + 1) = .ub .overlap ∧
    ∀ i' n' k, i' + k = i → k + n ≤ n' → i' + n' ≤ (textOf t).length →
      strInsertExSrc t j (.self b.id i') (n' + 1) k n = .ub .overlap := by
  obtain ⟨sl, R⟩ := own_rep h hb
  have hT : (sabsOf t).text = textOf t := sabsOf_text t
  have hB : (sabsOf t).bytes = t.s.v.cap := sabsOf_bytes t
  have key : vecInsertRange t.s j (.self b.id i) n = .ub .overlap := by
    refine (insertRange_self R.rep (i := i) (j := j) (by omega) ?_ ?_).2.2 ?_ hpos.1 hpos.2.1 hpos.2.2
    all_goals simp only [hT, hB, List.length_append, List.length_cons, List.length_nil]; omega
  constructor
  · rw [insertSrc_eq R (by rw [hT]; omega) (by rw [hT]; omega), key, Out.ub_bind']
  · intro i' n' k hi' hk hn'
    rw [insertExSrc_eq R (by rw [hT]; omega) (by rw [hT]; omega) hk]
    simp only [Src.offset, hi', key, Out.ub_bind']

/-- C128 is false for every dynamic string that must grow for the insertion: the released storage is read. -/
theorem C128_insert_grow_negation {P : Params} {t : Str} (h : SReach P t) {b : Block Byte} {i n j : Nat}
    (hb : t.s.v.data = some b) (hi : i + n ≤ (textOf t).length) (hj : j ≤ (textOf t).length)
    (hdyn : P.allocator.isSome) (hn : 1 ≤ n) (hfull : t.s.v.cap < (textOf t).length + n + 1)
    (hf : SFits ((textOf t).length + n + 1)) :
    strInsertSrc t j (.self b.id i) (n + 1) = .ub .uaf ∧
    ∀ i' n' k, i' + k = i → k + n ≤ n' → i' + n' ≤ (textOf t).length →
      strInsertExSrc t j (.self b.id i') (n' + 1) k n = .ub .uaf := by
  obtain ⟨sl, R⟩ := own_rep h hb
  have hT : (sabsOf t).text = textOf t := sabsOf_text t
  have hB : (sabsOf t).bytes = t.s.v.cap := sabsOf_bytes t
  have hl : ((sabsOf t).text ++ [some 0#8]).length + n = (textOf t).length + n + 1 := by
    simp only [hT, List.length_append, List.length_cons, List.length_nil]; omega
  have key : vecInsertRange t.s j (.self b.id i) n = .ub .uaf := by
    refine insert_moves R.rep hdyn hn ?_ ?_ ?_
    · simp only [hT, List.length_append, List.length_cons, List.length_nil]; omega
    · rw [hl]; exact (fits_iff R.one _).2 hf
    · rw [hl]; rw [hB]; exact hfull
  constructor
  · rw [insertSrc_eq R (by rw [hT]; omega) (by rw [hT]; omega), key, Out.ub_bind']
  · intro i' n' k hi' hk hn'
    rw [insertExSrc_eq R (by rw [hT]; omega) (by rw [hT]; omega) hk]
    simp only [Src.offset, hi', key, Out.ub_bind']

/-! ## The string as its own view -/

/-- C128: `ZyanStringAppendEx` can append any part of a string that is passed as its own view, moved or not. -/
theorem C128_appendEx_same {P : Params} {t : Str} (h : SReach P t) {k m : Nat}
    (hf : SFits ((textOf t).length + m + 1)) (hk : k + m < 2 ^ 64) :
    strAppendExSame t k m = strAppendEx t ⟨textOf t ++ [some 0#8], (textOf t).length + 1⟩ k m := by
  obtain ⟨b, sl, R⟩ := h.rep
  have hT : (sabsOf t).text = textOf t := sabsOf_text t
  have := appendEx_same (k := k) (m := m) R (by rw [hT]; exact hf) hk
  rwa [hT] at this

/-- C76, C128: `ZyanStringInsert` and `ZyanStringInsertEx` read the data pointer and the size of the view first, so that a
string that is passed as its own view is the same as a view of it: the theorems above apply to it. -/
theorem C128_insert_same {P : Params} {t : Str} (h : SReach P t) {b : Block Byte} {j : Nat}
    (hb : t.s.v.data = some b) (hj : j ≤ (textOf t).length) :
    strInsertSame t j = strInsertSrc t j (.self b.id 0) ((textOf t).length + 1) ∧
    ∀ k m, strInsertExSame t j k m = strInsertExSrc t j (.self b.id 0) ((textOf t).length + 1) k m := by
  obtain ⟨sl, R⟩ := own_rep h hb
  have hT : (sabsOf t).text = textOf t := sabsOf_text t
  have hsz : t.s.v.size = (textOf t).length + 1 := by rw [← hT]; exact R.size
  have hne : ¬ j = (textOf t).length + 1 := by omega
  refine ⟨?_, fun k m => ?_⟩
  · unfold strInsertSame strInsertSrc
    simp only [hsz, hne, if_false, ownData_eq R]
  · unfold strInsertExSame strInsertExSrc
    simp only [hsz, hne, if_false, ownData_eq R]

/-- C76: a string passed as its own view is appended like a copy of it if it is empty, or if its storage belongs to the
caller and is too small for the result. Missing: every other string (next theorem). -/
theorem C76_same_partial {P : Params} {t : Str} (h : SReach P t) (hf : SFits ((textOf t).length + (textOf t).length + 1))
    (hc : textOf t = [] ∨ (P.allocator = none ∧ t.s.v.cap < (textOf t).length + (textOf t).length + 1)) :
    strAppendSame t = strAppend t (copyOf t 0 (textOf t).length) ∧
    (textOf t ≠ [] → strAppendSame t = .ret (stInsufficient, t)) := by
  obtain ⟨b, sl, R⟩ := h.rep
  have hT : (sabsOf t).text = textOf t := sabsOf_text t
  have hB : (sabsOf t).bytes = t.s.v.cap := sabsOf_bytes t
  by_cases he : textOf t = []
  · refine ⟨?_, fun hne => absurd he hne⟩
    have h1 := appendSame_empty R (by rw [hT]; exact he)
    have h2 := (C128_append_partial h (i := 0) (n := 0) R.rep.data (by omega) (hf.mono (by omega))).1 (Or.inl rfl)
    rw [h1, he]
    exact h2
  · obtain ⟨ha, hcap⟩ := hc.resolve_left he
    obtain ⟨h1, h2⟩ := appendSame_refused R (by rw [hT]; exact hf) (by rw [hT]; exact List.length_pos_iff.2 he)
      (by rw [hT, hB]; exact hcap) ha
    rw [hT] at h2
    exact ⟨h1.trans (h2 _).symm, fun _ => h1⟩

/-- C76 is false for every other string that is passed as its own view: after the resize the size of the view is that of
the result, and twice the text is copied onto a part of itself. -/
theorem C76_same_negation {P : Params} {t : Str} (h : SReach P t) (hne : textOf t ≠ [])
    (hf : SFits ((textOf t).length + (textOf t).length + 1))
    (hc : P.allocator.isSome ∨ (textOf t).length + (textOf t).length + 1 ≤ t.s.v.cap) :
    strAppendSame t = .ub .overlap ∧ strInsertSame t t.s.v.size = .ub .overlap := by
  obtain ⟨b, sl, R⟩ := h.rep
  have hT : (sabsOf t).text = textOf t := sabsOf_text t
  have hB : (sabsOf t).bytes = t.s.v.cap := sabsOf_bytes t
  have hl : 1 ≤ (textOf t).length := List.length_pos_iff.2 hne
  have key : strAppendSame t = .ub .overlap :=
    appendSame_ub R (by rw [hT]; exact hf) (by rw [hT]; exact hl) (by rw [hT, hB]; exact hc.symm)
  refine ⟨key, ?_⟩
  have hsz : t.s.v.size = (textOf t).length + 1 := by rw [← hT]; exact R.size
  unfold strInsertSame
  rw [if_neg (by omega), if_pos rfl, key]

/-! ## Examples -/

/-- The hypotheses hold for the example strings: "aB@c" with room for 32 characters and "ab" in a buffer for 4. -/
example : SReach exSP exStr ∧ textOf exStr = (chars ['a', 'B', '@', 'c']).map some ∧ exStr.s.v.cap = 33 ∧
    exStr.s.v.data.map Block.id = some 0 ∧ exSP.allocator.isSome ∧ exSP.thr = 4 ∧ SFits 40 :=
  ⟨exStr_reach, rfl, rfl, rfl, rfl, rfl, by show _ < _; decide⟩
example : SReach exFSP exFStr ∧ textOf exFStr = (chars ['a', 'b']).map some ∧ exFStr.s.v.cap = 5 ∧
    exFSP.allocator = none := ⟨exFStr_reach, rfl, rfl, rfl⟩

/-- "B@c" appended to "aB@c" leaves the storage where it is, "B" alone gives memory back. -/
example : Stays exSP exStr 4 := Or.inr (Or.inr ⟨by decide, by decide⟩)
example : ∃ t', strAppendSrc exStr (.self 0 0) 5 = .ret (stSuccess, t') ∧
    textOf t' = (chars ['a', 'B', '@', 'c', 'a', 'B', '@', 'c']).map some := by
  rw [(C128_append_partial (i := 0) (n := 4) exStr_reach rfl (by decide) (by show _ < _; decide)).1
    (Or.inr (Or.inr ⟨by decide, by decide⟩))]
  exact ⟨_, by cbv, by cbv⟩
example : strAppendSrc exStr (.self 0 1) 2 = .ub .uaf :=
  (C128_append_negation (i := 1) (n := 1) exStr_reach (b := ⟨0, _⟩) rfl rfl (by decide) (by show _ < _; decide)
    (Or.inr ⟨by decide, by decide⟩)).1

/-- "@c" inserted at 4 arrives; inserted at 0 it is "aB" that arrives; inserted at 1 it overlaps the gap. -/
example : (strInsertSrc exStr 4 (.self 0 2) 3).bind (fun r => .ret (textOf r.2)) =
    .ret ((chars ['a', 'B', '@', 'c', '@', 'c']).map some) := by cbv
example : (strInsertSrc exStr 0 (.self 0 2) 3).bind (fun r => .ret (textOf r.2)) =
    .ret ((chars ['a', 'B', 'a', 'B', '@', 'c']).map some) := by cbv
example : strInsertSrc exStr 1 (.self 0 2) 3 = .ub .overlap :=
  (C128_insert_overlap_negation (i := 2) (n := 2) exStr_reach (b := ⟨0, _⟩) rfl (by decide) (by decide) (by decide)
    (by decide)).1

/-- The strings as their own views. -/
example : (strAppendExSame exFStr 1 1).bind (fun r => .ret (textOf r.2)) =
    .ret ((chars ['a', 'b', 'b']).map some) := by cbv
example : strAppendSame exStr = .ub .overlap ∧ strInsertSame exStr 5 = .ub .overlap :=
  C76_same_negation exStr_reach (by decide) (by show _ < _; decide) (Or.inl rfl)
example : strAppendSame exFStr = .ub .overlap :=
  (C76_same_negation exFStr_reach (by decide) (by show _ < _; decide) (Or.inr (by decide))).1

/-- After `ZyanStringShrinkToFit` there is no room: inserting "B" reads released memory. -/
example : ∃ t', strOp exStr .shrinkToFit = .ret (stSuccess, t') ∧ strInsertSrc t' 2 (.self 1 1) 2 = .ub .uaf := by
  have h : strOp exStr .shrinkToFit = .ret (stSuccess, ⟨⟨{ exStr.s.v with
      cap := 5, data := some ⟨1, (chars ['a', 'B', '@', 'c']).map some ++ [some 0#8]⟩ },
      ⟨fun _ => stSuccess, 2, 2, [.alloc 0 0 1 33, .realloc 0 0 1 1 5]⟩⟩, false⟩) := by cbv
  exact ⟨_, h, (C128_insert_grow_negation (b := ⟨1, _⟩) (i := 1) (n := 1) (j := 2)
    (SReach.step (op := .shrinkToFit) exStr_reach trivial h) rfl (by decide) (by decide) rfl (by decide) (by decide)
    (by show _ < _; decide)).1⟩

/-- "abb" in a buffer for 4 characters: the append of the string itself is refused. -/
example : ∃ t', strOp exFStr (.append [some 98#8]) = .ret (stSuccess, t') ∧
    strAppendSame t' = .ret (stInsufficient, t') := by
  have h : ∃ t', strOp exFStr (.append [some 98#8]) = .ret (stSuccess, t') ∧ t'.s.v.cap = 5 ∧
      textOf t' = (chars ['a', 'b', 'b']).map some := ⟨_, by cbv, rfl, by cbv⟩
  obtain ⟨t', h1, h2, h3⟩ := h
  have hr : SReach exFSP t' := SReach.step exFStr_reach (by show _ < _; decide) h1
  exact ⟨t', h1, (C76_same_partial hr (by rw [h3]; show _ < _; decide)
    (Or.inr ⟨rfl, by rw [h2, h3]; decide⟩)).2 (by rw [h3]; decide)⟩

end Zy
