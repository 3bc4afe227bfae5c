import Verif.Lemmas.StringRefuse
import Verif.Props.String

/-!
# Property theorems: strings whose allocator refuses a request

`strRefuse t st` is the string `t` in an environment where the next allocator call returns the status `st`.
-/

namespace Zy

open Spec

/-- C115 for all operations other than deletions: if the granted operation would change the number of bytes of
storage, a refusal makes it return the allocator's status with the text as before, terminated. Calling
`ShrinkToFit` then (if granted) gives a string with the same text for which all later histories behave as
specified.
Missing: the string is not usable without this repair (`C115_append_negation`), and the deletions have changed
the text already (`C115_delete_negation`). -/
theorem C115_unchanged_partial {P : Params} {t : Str} (h : SReach P t) {al : Nat}
    (hal : P.allocator = some al) {st : Status} (hst : failed st = true) (op : SOp)
    (hd : SInDomain (sabsOf t) op) {junk : List (Cell Byte)}
    (hb : (sstep P junk (sabsOf t) op).2.bytes ≠ t.s.v.cap)
    (h1 : ∀ i n, op ≠ .delete i n) (h2 : ∀ i, op ≠ .truncate i) :
    ∃ t', strOp (strRefuse t st) op = .ret (st, t') ∧ textOf t' = textOf t ∧ Terminated t' ∧
      ∃ t'', strShrinkToFit t' = .ret (stSuccess, t'') ∧ textOf t'' = textOf t ∧ Terminated t'' ∧
        ∀ ops, SAllInDomain P (sabsOf t'') ops → ∃ sts u a', runStr t'' ops = .ret (sts, u) ∧
          SRuns P (sabsOf t'') ops sts a' ∧ textOf u = a'.text ∧ Terminated u := by
  obtain ⟨b, sl, R⟩ := h.rep
  have hcap : t.s.v.cap = (sabsOf t).bytes := R.rep.cap
  rw [hcap] at hb
  have htx := R.textOf
  generalize sabsOf t = a at *
  obtain ⟨c, e⟩ := refused_strOp R hst hal op hd (junk := junk) hb h1 h2
  obtain ⟨f1, f2⟩ := R.after st al c
  obtain ⟨t'', b'', sl'', e2, R2⟩ := R.repair (st := st) (c := c) hal
  have f3 : textOf t'' = a.text := R2.textOf
  refine ⟨strAfter t st al c, e, f1.trans htx.symm, f2, t'', e2, f3.trans htx.symm, R2.terminated, ?_⟩
  intro ops hops
  rw [R2.abs_eq] at hops ⊢
  obtain ⟨sts, u, a', b', sl', hrun, hruns, R'⟩ := runStr_ok ops R2 hops
  exact ⟨sts, u, a', hrun, hruns, R'.textOf, R'.terminated⟩

/-- C115 is false for `Delete` and `Truncate`: whenever the deletion leads to shrinking and this is refused, the
call returns the allocator's status although the characters are gone. The shortened text is terminated and
`ShrinkToFit` (if granted) gives a string for which all later histories behave as specified. -/
theorem C115_delete_negation {P : Params} {t : Str} (h : SReach P t) {al : Nat}
    (hal : P.allocator = some al) {st : Status} (hst : failed st = true) {i n : Nat} (hn : n ≠ 0)
    (hin : i + n ≤ (textOf t).length) (ht : P.thr ≠ 0)
    (hc : ((textOf t).length + 1 - n) * P.thr < t.s.v.cap) :
    ∃ t', strOp (strRefuse t st) (.delete i n) = .ret (st, t') ∧
      (i + n = (textOf t).length → strOp (strRefuse t st) (.truncate i) = .ret (st, t')) ∧
      textOf t' = (textOf t).take i ++ (textOf t).drop (i + n) ∧ textOf t' ≠ textOf t ∧ Terminated t' ∧
      ∃ t'', strShrinkToFit t' = .ret (stSuccess, t'') ∧ textOf t'' = textOf t' ∧ Terminated t'' ∧
        ∀ ops, SAllInDomain P (sabsOf t'') ops → ∃ sts u a', runStr t'' ops = .ret (sts, u) ∧
          SRuns P (sabsOf t'') ops sts a' ∧ textOf u = a'.text ∧ Terminated u := by
  obtain ⟨b, sl, R⟩ := h.rep
  rw [R.textOf] at hin hc ⊢
  have hcap : t.s.v.cap = (sabsOf t).bytes := R.rep.cap
  rw [hcap] at hc
  obtain ⟨t1, b1, sl1, c, c0, e, R1⟩ := refused_deleteCore R hst hal hin hn ht hc
  have hsm := R.small
  have hsz : (strRefuse t st).s.v.size = (sabsOf t).text.length + 1 := R.size
  have hs : (strRefuse t st).s = refuseNext t.s st := rfl
  obtain ⟨t'', b'', sl'', e2, R2⟩ := R1.repair (st := st) (c := c) hal
  refine ⟨strAfter t1 st al c, ?_, ?_, (R1.after st al c).1, ?_, (R1.after st al c).2, t'', e2,
    R2.textOf.trans (R1.after st al c).1.symm, R2.terminated, ?_⟩
  · simp only [strOp, strDelete]
    rw [add64_eq (by omega), hsz, if_neg (by omega), hs]
    exact e
  · intro hi
    simp only [strOp, strTruncate]
    have hk : sub64 (sub64 ((sabsOf t).text.length + 1) i) 1 = n := by
      clear hsz e2 e hc
      rw [sub64_eq (a := (sabsOf t).text.length + 1) (by omega) (by omega), sub64_eq (by omega) (by omega)]
      omega
    rw [hsz, hk, if_neg (by clear hk; omega), hs]
    exact e
  · rw [(R1.after st al c).1]
    intro hh
    have := congrArg List.length hh
    simp at this
    omega
  · intro ops hops
    rw [R2.abs_eq] at hops ⊢
    obtain ⟨sts, u, a', b', sl', hrun, hruns, R'⟩ := runStr_ok ops R2 hops
    exact ⟨sts, u, a', hrun, hruns, R'.textOf, R'.terminated⟩

/-- C115 is false for the later use of the string: for every text `x` that does not fit into the storage, if the
growth is refused, appending `x` again writes outside of the block (unless the capacity computed by the growth
factor is so far above the need that the shrink threshold applies). -/
theorem C115_append_negation {P : Params} {t : Str} (h : SReach P t) {al : Nat}
    (hal : P.allocator = some al) {st : Status} (hst : failed st = true) {x : List (Cell Byte)}
    (hd : SInDomain (sabsOf t) (.append x)) (hx : t.s.v.cap < (textOf t).length + x.length + 1)
    (hthr : P.thr = 0 ∨ P.growth ≤ P.thr) :
    ∃ t', strOp (strRefuse t st) (.append x) = .ret (st, t') ∧ strOp t' (.append x) = .ub .oob := by
  obtain ⟨b, sl, R⟩ := h.rep
  have hcap : t.s.v.cap = (sabsOf t).bytes := R.rep.cap
  rw [R.textOf, hcap] at hx
  have hf : SFits ((sabsOf t).text.length + x.length + 1) := hd
  generalize sabsOf t = a at *
  have hlen : a.text.length + 1 ≤ a.bytes := by have := R.rep.len; simp at this; exact this
  have hb : (appendText P a x).2.bytes ≠ a.bytes := by
    have hx0 : x ≠ [] := ne_nil_of_gap hlen hx
    have hge := Nat.le_mul_of_pos_right (a.text.length + x.length + 1) R.rep.growth1
    have e : extend P a.bytes (a.text.length + x.length + 1) =
        some ((a.text.length + x.length + 1) * P.growth) := by
      rw [extend, if_neg (Nat.not_le.2 hx), Spec.room, if_neg (Nat.not_le.2 hx), if_pos (by simp [hal])]
    rw [appendText, if_neg hx0, e]
    exact Nat.ne_of_gt (Nat.lt_of_lt_of_le hx hge)
  have e1 := refused_append (rest := [some 0#8]) R hst hal hf hb
  have e2 := append_after (st := st) (rest := [some 0#8]) R hal hf hx hthr
  refine ⟨strAfter t st al (max 1 ((a.text.length + x.length + 1) * P.growth)), ?_, ?_⟩
  · simp only [strOp, textView]; exact e1
  · simp only [strOp, textView]; exact e2

/-- Appending 40 characters to "aB@c", whose storage has 33 bytes. -/
example : ∃ t', strOp (strRefuse exStr stNoMemory) (.append (List.replicate 40 (some 120#8))) = .ret (stNoMemory, t') ∧
    textOf t' = textOf exStr ∧ Terminated t' := by
  obtain ⟨t', h1, h2, h3, _⟩ := C115_unchanged_partial exStr_reach (al := 0) rfl (st := stNoMemory) rfl
    (.append (List.replicate 40 (some 120#8))) (by show _ < _; decide +kernel) (junk := [])
    (by decide +kernel) (by intros; simp) (by intros; simp)
  exact ⟨t', h1, h2, h3⟩

example : ∃ t', strOp (strRefuse exStr stNoMemory) (.append (List.replicate 40 (some 120#8))) = .ret (stNoMemory, t') ∧
    strOp t' (.append (List.replicate 40 (some 120#8))) = .ub .oob :=
  C115_append_negation exStr_reach (al := 0) rfl (st := stNoMemory) rfl (by show _ < _; decide +kernel)
    (by decide +kernel) (Or.inr (by decide))

/-- Deleting "B@" from "aB@c". -/
example : ∃ t', strOp (strRefuse exStr stNoMemory) (.delete 1 2) = .ret (stNoMemory, t') ∧
    textOf t' = (chars ['a', 'c']).map some := by
  obtain ⟨t', h1, _, h2, _⟩ := C115_delete_negation exStr_reach (al := 0) rfl (st := stNoMemory) rfl
    (i := 1) (n := 2) (by decide) (by decide +kernel) (by decide) (by decide +kernel)
  exact ⟨t', h1, h2.trans (by decide +kernel)⟩

end Zy
