import Verif.Lemmas.StringPointers
import Verif.Props.String

/-!
# Property theorems: how long a view into a string is good (C182)

`SReach P t` are the strings a program can obtain, `sabsOf` what is observable of them, `textOf` the text (all in
`Verif.Spec.StringRun`); `SMoves`, `SSpares` and `SAtRest` are in `Verif.Spec.StringPointers`.
-/

namespace Zy

open Spec

/-- C182, a fresh view: it is given for exactly the ranges inside the text; it is the view of the string's storage
that the model of `ZyanStringViewInsideViewEx` gives, and shows the characters of the range. -/
theorem C182_fresh {P : Params} {t : Str} (h : SReach P t) {i n : Nat} (hw : i + n < 18446744073709551616) :
    (i + n ≤ (textOf t).length → ∃ k v, keepView t i n = (stSuccess, some k) ∧ seeView t k = .ret v ∧
      viewInsideViewEx (strView t) i n = (stSuccess, some v) ∧ v.size = n ∧
      v.mem.take n = ((textOf t).drop i).take n) ∧
    ((textOf t).length < i + n → keepView t i n = (stOutOfRange, none)) := by
  obtain ⟨b, sl, R⟩ := h.rep
  rw [R.textOf]
  have hz := R.size
  refine ⟨fun hle => ⟨⟨⟨b.id, i⟩, n⟩, ⟨(strView t).mem.drop i, n⟩, ?_, ?_, ?_, rfl, ?_⟩, fun hlt => ?_⟩
  · unfold keepView
    rw [add64_eq hw, if_neg (by omega), R.rep.data]
  · rw [seeView_rep R]
    unfold strView
    rw [R.rep.data]
    dsimp only
    rw [R.rep.cells]
  · unfold viewInsideViewEx
    rw [add64_eq hw, if_neg (by show ¬ i + n ≥ t.s.v.size; omega)]
  · unfold strView
    rw [R.rep.data]
    dsimp only
    rw [R.rep.cells, List.append_assoc, take_view (.inr hle)]
  · unfold keepView
    rw [add64_eq hw, if_pos (by omega)]

/-- C182, one call: a request that needs other memory makes every view dangling; one that does not, and leaves the
characters of the range alone, leaves the view good: it shows the same characters, and asking again gives the same
view. -/
theorem C182_call {P : Params} {t t' : Str} (h : SReach P t) {i n : Nat} (hw : i + n < 18446744073709551616)
    {k : KeptView} (hk : (keepView t i n).2 = some k) {op : SOp} (hd : SInDomain (sabsOf t) op) {st : Status}
    (hs : strOp t op = .ret (st, t')) :
    (SMoves P (sabsOf t) op → seeView t' k = .ub .uaf) ∧
      (¬ SMoves P (sabsOf t) op → (∀ p, i ≤ p → p < i + n → SSpares p op) →
        (∃ v, seeView t' k = .ret v ∧ v.size = n ∧ v.mem.take n = ((textOf t).drop i).take n) ∧
          (n ≠ 0 → keepView t' i n = (stSuccess, some k))) := by
  obtain ⟨b, sl, R⟩ := h.rep
  obtain ⟨hle, rfl⟩ := (keepView_rep R hw k).1 hk
  obtain ⟨junk, b', sl', _, R', hm, hn⟩ := sstep_loc R hd hs
  rw [R.textOf]
  refine ⟨fun hmv => seeView_gone R' ?_, fun hmv hsp => ?_⟩
  · have h1 := hm hmv
    have h2 := R.rep.old (smoves_dyn hmv)
    show b.id ≠ b'.id
    omega
  · have he : ∀ p, i ≤ p → p < i + n → (sstep P junk (sabsOf t) op).2.text[p]? = (sabsOf t).text[p]? :=
      fun p h3 h4 => sspares_elem (by omega) (hsp p h3 h4)
    have hle' : n ≠ 0 → i + n ≤ (sstep P junk (sabsOf t) op).2.text.length := by
      intro h0
      have := he (i + n - 1) (by omega) (by omega)
      rw [List.getElem?_eq_getElem (show i + n - 1 < (sabsOf t).text.length by omega)] at this
      have := (List.getElem?_eq_some_iff.1 this).1
      omega
    rw [← hn hmv]
    refine ⟨⟨_, seeView_rep R' i n, rfl, ?_⟩, fun h0 => ?_⟩
    · show (((sstep P junk (sabsOf t) op).2.text ++ [some 0#8] ++ sl').drop i).take n = _
      rw [List.append_assoc, take_view ((Nat.eq_zero_or_pos n).imp id fun h0 => hle' (by omega))]
      exact range_eq he
    · have h5 := (keepView_rep R' hw ⟨⟨b'.id, i⟩, n⟩).2 ⟨hle' h0, rfl⟩
      unfold keepView at h5 ⊢
      by_cases hc : add64 i n ≥ t'.s.v.size
      · rw [if_pos hc] at h5
        cases h5
      · rw [if_neg hc, R'.rep.data]

/-- C182, any history of calls none of which needs other memory or touches the range: the view stays good. -/
theorem C182_history {P : Params} {t t' : Str} (h : SReach P t) {i n : Nat} (hw : i + n < 18446744073709551616)
    {k : KeptView} (hk : (keepView t i n).2 = some k) {ops : List SOp} (hd : SAllInDomain P (sabsOf t) ops)
    (hq : SAtRest P i n (sabsOf t) ops) {sts : List Status} (hr : runStr t ops = .ret (sts, t')) :
    ∃ v, seeView t' k = .ret v ∧ v.size = n ∧ v.mem.take n = ((textOf t).drop i).take n := by
  obtain ⟨b, sl, R⟩ := h.rep
  obtain ⟨hle, rfl⟩ := (keepView_rep R hw k).1 hk
  rw [R.textOf]
  exact view_rest_run ops R (.inr hle) rfl hd hq hr

/-- C182, a view that is dangling is never good again, whatever is called afterwards. -/
theorem C182_forever {P : Params} {t t1 t' : Str} (h : SReach P t) {i n : Nat} (hw : i + n < 18446744073709551616)
    {k : KeptView} (hk : (keepView t i n).2 = some k) {op : SOp} (hd : SInDomain (sabsOf t) op)
    (hm : SMoves P (sabsOf t) op) {st : Status} (hs : strOp t op = .ret (st, t1)) {ops : List SOp}
    (hds : SAllInDomain P (sabsOf t1) ops) {sts : List Status} (hr : runStr t1 ops = .ret (sts, t')) :
    seeView t' k = .ub .uaf := by
  obtain ⟨b, sl, R⟩ := h.rep
  obtain ⟨hle, rfl⟩ := (keepView_rep R hw k).1 hk
  obtain ⟨junk, b', sl', _, R', hmv, _⟩ := sstep_loc R hd hs
  rw [R'.abs_eq] at hds
  have h1 := hmv hm
  have h2 := R.rep.old (smoves_dyn hm)
  exact view_gone_run ops R' (smoves_dyn hm) (show b.id < b'.id by omega) hds hr

/-- C182, a string on a buffer of the caller: no call makes a view dangling. -/
theorem C182_buffer {P : Params} (hP : P.allocator = none) (s : SState) (op : SOp) : ¬ SMoves P s op := by
  intro h
  have := smoves_dyn h
  simp [hP] at this

/-- Reserving leaves the text and makes room. -/
theorem reserve_state {P : Params} {t t1 : Str} (h : SReach P t) (hP : P.allocator.isSome) {c : Nat}
    (hc : c < 18446744073709551616) {st : Status} (hs : strReserve t c = .ret (st, t1)) :
    SReach P t1 ∧ textOf t1 = textOf t ∧ c ≤ (sabsOf t1).bytes := by
  have h1 : SReach P t1 := SReach.step (op := .reserve c) h hc hs
  obtain ⟨b, sl, R⟩ := h.rep
  obtain ⟨junk, b', sl', _, R', _⟩ := sstep_loc R (op := .reserve c) hc hs
  refine ⟨h1, ?_, ?_⟩
  · rw [R'.textOf, R.textOf]
    simp only [sstep]
    by_cases hle : c ≤ (sabsOf t).bytes
    · rw [if_pos hle]
    · rw [if_neg hle, if_pos hP]
  · rw [R'.abs_eq]
    simp only [sstep]
    by_cases hle : c ≤ (sabsOf t).bytes
    · rw [if_pos hle]
      exact hle
    · rw [if_neg hle, if_pos hP]
      exact Nat.le_refl _

/-- C182, room reserved in advance, for a string that never gives memory back (shrink threshold 0): after
`ZyanStringReserve` for `c` bytes, text can be appended until text and terminator take `c` bytes, and every view that
was made after the reservation is still good.
Missing for the full claim: strings with another threshold; see `C182_reserved_negation`. -/
theorem C182_reserved_partial {P : Params} {t t1 t' : Str} (h : SReach P t) (hP : P.allocator.isSome)
    (h0 : P.thr = 0) {c : Nat} (hc : c < 18446744073709551616) {st : Status}
    (hs : strReserve t c = .ret (st, t1)) {xs : List (List (Cell Byte))}
    (hx : (textOf t).length + xs.flatten.length + 1 ≤ c) (hf : SFits ((textOf t).length + xs.flatten.length + 1))
    {sts : List Status} (hr : runStr t1 (xs.map .append) = .ret (sts, t')) {i n : Nat}
    (hw : i + n < 18446744073709551616) {k : KeptView} (hk : (keepView t1 i n).2 = some k) :
    ∃ v, seeView t' k = .ret v ∧ v.size = n ∧ v.mem.take n = ((textOf t).drop i).take n := by
  obtain ⟨h1, e1, e2⟩ := reserve_state (c := c) h hP hc hs
  have e3 : (sabsOf t1).text = textOf t := (sabsOf_text t1).trans e1
  have hl : (sabsOf t1).text.length + xs.flatten.length + 1 ≤ (sabsOf t1).bytes := by
    rw [e3]
    exact Nat.le_trans hx e2
  have := C182_history h1 hw hk (domain_appends h0 xs hl (by rw [e3]; exact hf)) (rest_appends h0 xs hl) hr
  rw [e1] at this
  exact this

/-- C182 fails for every string that gives memory back, which strings do by default: the first text that is appended
after a reservation gives the reserved memory back when text and terminator, times the threshold, are less than what
was reserved. Every view is then dangling, although there was room. -/
theorem C182_reserved_negation {P : Params} {t t1 : Str} (h : SReach P t) (hP : P.allocator.isSome)
    (h0 : P.thr ≠ 0) {c : Nat} (hc : c < 18446744073709551616) {st : Status}
    (hs : strReserve t c = .ret (st, t1)) {x : List (Cell Byte)} (hx : x ≠ [])
    (hl : ((textOf t).length + x.length + 1) * P.thr < c) (hf : SFits ((textOf t).length + x.length + 1)) :
    ∃ t2, strAppend t1 (textView x) = .ret (stSuccess, t2) ∧
      (sabsOf t2).bytes = max 1 (((textOf t).length + x.length + 1) * P.growth) ∧
      ∀ i n k, i + n < 18446744073709551616 → (keepView t1 i n).2 = some k → seeView t2 k = .ub .uaf := by
  obtain ⟨h1, e1, e2⟩ := reserve_state (c := c) h hP hc hs
  have e3 : (sabsOf t1).text = textOf t := (sabsOf_text t1).trans e1
  obtain ⟨b, sl, R⟩ := h1.rep
  have := append_gives_back R hP h0 hx (by rw [e3]; exact Nat.lt_of_lt_of_le hl e2) (by rw [e3]; exact hf)
  rw [e3] at this
  exact this

/-! ## Examples -/

/-- The text "aB@c" and a view of "B@": four more characters fit, and the view shows the same. -/
example : keepView exStr 1 2 = (stSuccess, some ⟨⟨0, 1⟩, 2⟩) ∧ ∀ st t',
    strOp exStr (.append (List.replicate 4 (some 120#8))) = .ret (st, t') →
    ∃ v, seeView t' ⟨⟨0, 1⟩, 2⟩ = .ret v ∧ v.size = 2 ∧ v.mem.take 2 = [some 66#8, some 64#8] :=
  ⟨rfl, fun _ _ h => ((C182_call exStr_reach (i := 1) (n := 2) (by decide) (k := ⟨⟨0, 1⟩, 2⟩) rfl
    (op := .append (List.replicate 4 (some 120#8))) (by show _ < _; decide) h).2 (by
      rintro ⟨_, _, q⟩
      rcases q with q | q
      · revert q; decide
      · have := q.2
        revert this; decide) fun _ _ _ => trivial).1⟩

/-- One more character fits as well, but then the string is small enough to give memory back, and the view dangles. -/
example : ∀ st t', strOp exStr (.append [some 120#8]) = .ret (st, t') → seeView t' ⟨⟨0, 1⟩, 2⟩ = .ub .uaf :=
  fun _ _ h => (C182_call exStr_reach (i := 1) (n := 2) (by decide) (k := ⟨⟨0, 1⟩, 2⟩) rfl
    (op := .append [some 120#8]) (by show _ < _; decide) h).1 ⟨by simp, rfl, .inr ⟨by decide, by decide⟩⟩

example : ((runStr exStr [.append [some 120#8], .clear, .append [some 120#8]]).bind fun r =>
    seeView r.2 ⟨⟨0, 1⟩, 2⟩) = .ub .uaf := by cbv

/-- Calls that change only characters in front of the range and behind it. -/
example : ((runStr exStr [.upper 0 1, .setChar 3 65#8, .lower 3 1]).bind fun r =>
    (seeView r.2 ⟨⟨0, 1⟩, 2⟩).bind fun v => .ret (v.mem.take 2)) = .ret [some 66#8, some 64#8] := by cbv

example : ∀ sts t', runStr exStr [.setChar 0 120#8, .setChar 3 121#8] = .ret (sts, t') →
    ∃ v, seeView t' ⟨⟨0, 1⟩, 2⟩ = .ret v ∧ v.size = 2 ∧ v.mem.take 2 = [some 66#8, some 64#8] := fun _ _ h =>
  C182_history exStr_reach (i := 1) (n := 2) (by decide) (k := ⟨⟨0, 1⟩, 2⟩) rfl
    (ops := [.setChar 0 120#8, .setChar 3 121#8])
    (.cons (by show _ < _; decide) fun _ _ => .cons (by show _ < _; decide) fun _ _ => .nil _)
    (.cons id (fun p h1 h2 => by show p ≠ 0; omega) fun _ _ =>
      .cons id (fun p h1 h2 => by show p ≠ 3; omega) fun _ _ => .nil _) h

/-- A reservation of 100 bytes is gone after the next character. -/
example : ∀ st t1, strReserve exStr 100 = .ret (st, t1) →
    ∃ t2, strAppend t1 (textView [some 120#8]) = .ret (stSuccess, t2) ∧ (sabsOf t2).bytes = 12 ∧
    ∀ i n k, i + n < 18446744073709551616 → (keepView t1 i n).2 = some k → seeView t2 k = .ub .uaf := fun _ _ h =>
  let ⟨t2, h1, h2, h3⟩ := C182_reserved_negation exStr_reach rfl (by decide) (c := 100) (by decide) h
    (x := [some 120#8]) (by simp) (by decide) (by show _ < _; decide)
  ⟨t2, h1, h2.trans (by decide), h3⟩

example : ((strReserve exStr 100).bind fun r => (strAppend r.2 (textView [some 120#8])).bind fun q =>
    .ret (r.1, q.1, r.2.s.v.cap, q.2.s.v.cap, (keepView r.2 1 2).2)) =
    .ret (stSuccess, stSuccess, 100, 12, some ⟨⟨1, 1⟩, 2⟩) := by cbv

/-- The same string, if it never gives memory back. -/
def exTight : Str :=
  ⟨⟨{ allocator := some 0, growth := 2, shrink := 0, size := 5, cap := 33, esz := 1, hasDtor := false,
      data := some ⟨0, (chars ['a', 'B', '@', 'c']).map some ++ [some 0#8] ++ List.replicate 28 none⟩ },
    ⟨fun _ => stSuccess, 1, 1, [.alloc 0 0 1 33]⟩⟩, false⟩

theorem exTight_reach : SReach ⟨some 0, 2, 0, 1, false⟩ exTight :=
  SReach.dup (P := ⟨some 0, 2, 0, 1, false⟩) (w := exSW) (st := stSuccess) (w' := exTight.s.w)
    (x := (chars ['a', 'B', '@', 'c']).map some) (cap := 0) (a := 0) ⟨rfl, rfl⟩
    (fun _ => failed_success) ⟨rfl, by decide, by decide, rfl, rfl⟩ (by decide) (by show _ < _; decide)
    (by cbv)

/-- After a reservation of 100 bytes, two texts can be appended. -/
example : ∀ st t1 sts t', strReserve exTight 100 = .ret (st, t1) →
    runStr t1 ([[some 120#8], List.replicate 50 (some 121#8)].map .append) = .ret (sts, t') →
    ∀ k, (keepView t1 1 2).2 = some k →
    ∃ v, seeView t' k = .ret v ∧ v.size = 2 ∧ v.mem.take 2 = [some 66#8, some 64#8] := fun _ _ _ _ h1 h2 _ hk =>
  C182_reserved_partial exTight_reach rfl rfl (c := 100) (by decide) h1
    (xs := [[some 120#8], List.replicate 50 (some 121#8)]) (by decide) (by show _ < _; decide) h2 (i := 1) (n := 2)
    (by decide) hk

example : ((strReserve exTight 100).bind fun r =>
    (runStr r.2 ([[some 120#8], [some 121#8]].map .append)).bind fun q =>
      .ret (r.1, q.1, r.2.s.v.cap, q.2.s.v.cap, (keepView r.2 1 2).2)) =
    .ret (stSuccess, [stSuccess, stSuccess], 100, 100, some ⟨⟨1, 1⟩, 2⟩) := by cbv

example : ¬ SMoves exFSP ⟨[some 97#8], 5⟩ (.append [some 98#8]) := C182_buffer rfl _ _

end Zy
