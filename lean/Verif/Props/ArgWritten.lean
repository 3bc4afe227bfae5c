import Verif.Lemmas.ArgWritten
import Verif.Props.ArgParse

/-!
# Property theorems: the tests of the argument parser for all names, values and numbers of arguments (C193)

`Spec.Written` says how arguments are written in tests/ArgParse.cpp. The tests are instances (the examples below).
-/

namespace Zy

open Spec

/-- **C193**: everything that is written by the rules, in any order and any number, is understood as it was meant, provided
that the number of unnamed arguments is allowed and no required option is missing. (tests/ArgParse.cpp: `PerfectFit`,
`MixedBoolAndValueArgs`, `Stuff`.) -/
theorem C193_understood {cfg : ArgConfig} (H : ProperConfig cfg) {p : Tok} {ts : List Tok} {is : List Item}
    (ha : cfg.argv = p :: ts) (hw : Written cfg.args ts is) (hn : ∀ d ∈ cfg.args, legalName d.name)
    (hmin : cfg.minUnnamed ≤ (plains is).length) (hmax : (plains is).length ≤ cfg.maxUnnamed)
    (hreq : ∀ (j : Nat) d, cfg.args[j]? = some d → d.required = true → ∃ v, Item.opt j v ∈ is) (a : Nat)
    {w : World AArg} (hf : Fresh w) (hr : Reliable w) (want : Bool) :
    ∃ r, argParseEx w cfg want (some a) = .ret r ∧ r.status = stSuccess ∧
      r.tok = (if want then .null else .untouched) ∧ output r = .ret (is.map fun it => some (structOf it)) := by
  obtain ⟨r, h1, h2, _⟩ := argParse_reliable H (a := a) hf hr want
  have hv : verdict true cfg = .ok is := by
    have hrd : reading true cfg.args .any cfg.argv.tail = (is, none) := by rw [ha]; exact written_reading hw
    have h0 : ¬ (cfg.maxUnnamed < cfg.minUnnamed ∨ ∃ d ∈ cfg.args, ¬ legalName d.name) := by
      rintro (h | ⟨d, hd, h⟩)
      · omega
      · exact h (hn d hd)
    have hm : firstMissing cfg.args is = none := by
      unfold firstMissing
      rw [List.find?_eq_none]
      rintro ⟨d, j⟩ hd
      have hj := List.mem_zipIdx_iff_getElem?.1 hd
      cases hrq : d.required with
      | false => simp [*]
      | true =>
        have := (occurs_iff is j).2 (hreq j d hj hrq)
        simp [this]
    unfold verdict
    rw [if_neg h0, hrd]
    dsimp only
    rw [List.getElem?_eq_none (by omega), if_neg (by omega), hm]
  rw [hv] at h2
  exact ⟨r, h1, h2⟩

/-- **C193**: with too many unnamed arguments, the status says so and the first one too many is reported. (`TooMany`) -/
theorem C193_too_many {cfg : ArgConfig} (H : ProperConfig cfg) {p : Tok} {ts : List Tok} {is : List Item}
    (ha : cfg.argv = p :: ts) (hw : Written cfg.args ts is) (hn : ∀ d ∈ cfg.args, legalName d.name)
    (hmin : cfg.minUnnamed ≤ cfg.maxUnnamed) {t : Tok} (ht : (plains is)[cfg.maxUnnamed]? = some t) (a : Nat)
    {w : World AArg} (hf : Fresh w) (hr : Reliable w) :
    ∃ r, argParseEx w cfg true (some a) = .ret r ∧ r.status = stTooManyArgs ∧ r.tok = .ptr t := by
  obtain ⟨r, h1, h2, _⟩ := argParse_reliable H (a := a) hf hr true
  have hv : verdict true cfg = .error stTooManyArgs (some t) := by
    have hrd : reading true cfg.args .any cfg.argv.tail = (is, none) := by rw [ha]; exact written_reading hw
    have h0 : ¬ (cfg.maxUnnamed < cfg.minUnnamed ∨ ∃ d ∈ cfg.args, ¬ legalName d.name) := by
      rintro (h | ⟨d, hd, h⟩)
      · omega
      · exact h (hn d hd)
    unfold verdict
    rw [if_neg h0, hrd]
    dsimp only
    rw [ht]
  rw [hv] at h2
  exact ⟨r, h1, h2.1, h2.2.2⟩

/-- **C193**: with too few unnamed arguments, the status says so and no token is reported. (`TooFew`) -/
theorem C193_too_few {cfg : ArgConfig} (H : ProperConfig cfg) {p : Tok} {ts : List Tok} {is : List Item}
    (ha : cfg.argv = p :: ts) (hw : Written cfg.args ts is) (hn : ∀ d ∈ cfg.args, legalName d.name)
    (hmin : (plains is).length < cfg.minUnnamed) (hmax : cfg.minUnnamed ≤ cfg.maxUnnamed) (a : Nat)
    {w : World AArg} (hf : Fresh w) (hr : Reliable w) :
    ∃ r, argParseEx w cfg true (some a) = .ret r ∧ r.status = stTooFewArgs ∧ r.tok = .untouched := by
  obtain ⟨r, h1, h2, _⟩ := argParse_reliable H (a := a) hf hr true
  have hv : verdict true cfg = .error stTooFewArgs none := by
    have hrd : reading true cfg.args .any cfg.argv.tail = (is, none) := by rw [ha]; exact written_reading hw
    have h0 : ¬ (cfg.maxUnnamed < cfg.minUnnamed ∨ ∃ d ∈ cfg.args, ¬ legalName d.name) := by
      rintro (h | ⟨d, hd, h⟩)
      · omega
      · exact h (hn d hd)
    unfold verdict
    rw [if_neg h0, hrd]
    dsimp only
    rw [List.getElem?_eq_none (by omega), if_pos hmin]
  rw [hv] at h2
  exact ⟨r, h1, h2.1, h2.2.2⟩

/-- **C193**: when required options are missing, the first of them is reported by its name. (`MissingRequiredArg`) -/
theorem C193_missing {cfg : ArgConfig} (H : ProperConfig cfg) {p : Tok} {ts : List Tok} {is : List Item}
    (ha : cfg.argv = p :: ts) (hw : Written cfg.args ts is) (hn : ∀ d ∈ cfg.args, legalName d.name)
    (hmin : cfg.minUnnamed ≤ (plains is).length) (hmax : (plains is).length ≤ cfg.maxUnnamed)
    {j : Nat} {d : ArgDef} (hj : cfg.args[j]? = some d) (hreq : d.required = true) (hmiss : ∀ v, Item.opt j v ∉ is)
    (hfirst : ∀ k, k < j → ∀ e, cfg.args[k]? = some e → e.required = true → ∃ v, Item.opt k v ∈ is) (a : Nat)
    {w : World AArg} (hf : Fresh w) (hr : Reliable w) :
    ∃ r, argParseEx w cfg true (some a) = .ret r ∧ r.status = stRequiredArgMissing ∧ r.tok = .ptr d.name := by
  obtain ⟨r, h1, h2, _⟩ := argParse_reliable H (a := a) hf hr true
  have hv : verdict true cfg = .error stRequiredArgMissing (some d.name) := by
    have hrd : reading true cfg.args .any cfg.argv.tail = (is, none) := by rw [ha]; exact written_reading hw
    have h0 : ¬ (cfg.maxUnnamed < cfg.minUnnamed ∨ ∃ d ∈ cfg.args, ¬ legalName d.name) := by
      rintro (h | ⟨d, hd, h⟩)
      · omega
      · exact h (hn d hd)
    have hm : firstMissing cfg.args is = some (d, j) := by
      refine find_first (fun p => p.1.required && !occurs is p.2) cfg.args j 0 d hj ?_ fun m hm e he => ?_
      · have : occurs is j = false := by
          cases ho : occurs is j with
          | false => rfl
          | true =>
            obtain ⟨v, hv⟩ := (occurs_iff is j).1 ho
            exact absurd hv (hmiss v)
        simp [hreq, this]
      · cases hrq : e.required with
        | false => simp [*]
        | true =>
          have := (occurs_iff is m).2 (hfirst m hm e he hrq)
          simp [this]
    unfold verdict
    rw [if_neg h0, hrd]
    dsimp only
    rw [List.getElem?_eq_none (by omega), if_neg (by omega), hm]
  rw [hv] at h2
  exact ⟨r, h1, h2.1, h2.2.2⟩

/-! ## The tests -/

/-- tests/ArgParse.cpp lines 127-136: the definitions of `MixedBoolAndValueArgs`. -/
def exWrD : List ArgDef :=
  [⟨tokOf "-o", false, false⟩, ⟨tokOf "-a", true, false⟩, ⟨tokOf "-n", false, false⟩, ⟨tokOf "-i", true, false⟩]

theorem exWr_named {D : List ArgDef} {n : Tok} {flag : Bool} {j : Nat}
    (h : (D[j]?.map fun d => (d.name, d.boolean)) = some (n, flag) ∧ ∀ e ∈ D.take j, e.name ≠ n) :
    Named D n flag j := by
  obtain ⟨h1, h2⟩ := h
  cases hd : D[j]? with
  | none => rw [hd] at h1; cases h1
  | some d =>
    rw [hd, Option.map_some, Option.some.injEq, Prod.mk.injEq] at h1
    refine ⟨d, hd, h1.1, h1.2, fun k hk e he => h2 e ?_⟩
    exact List.mem_of_getElem? (i := k) (by rw [List.getElem?_take_of_lt hk]; exact he)

/-- `-aio42 -n xxx` -/
theorem exWr_mixed : Written exWrD (["-aio42", "-n", "xxx"].map tokOf)
    [.opt 1 none, .opt 3 none, .opt 0 (some (tokOf "42")), .opt 2 (some (tokOf "xxx"))] :=
  Written.attached (cs := tokOf "ai") (v := tokOf "42") (js := [1, 3]) (c := 111#8) (j := 0)
    (.cons (exWr_named (by decide +kernel)) (.cons (exWr_named (by decide +kernel)) .nil)) (by decide +kernel)
    (exWr_named (by decide +kernel)) (by decide +kernel)
    (Written.next (cs := []) (v := tokOf "xxx") (js := []) (c := 110#8) (j := 2) .nil (by decide +kernel)
      (exWr_named (by decide +kernel)) .nil)

example : ∃ r, argParseEx exAW ⟨["./test", "-aio42", "-n", "xxx"].map tokOf, 4, 0, 0, exWrD⟩ false (some 0) = .ret r ∧
    r.status = stSuccess ∧ output r = .ret ([Item.opt 1 none, .opt 3 none, .opt 0 (some (tokOf "42")),
      .opt 2 (some (tokOf "xxx"))].map fun it => some (structOf it)) := by
  obtain ⟨r, h1, h2, _, h3⟩ := C193_understood
    (cfg := ⟨["./test", "-aio42", "-n", "xxx"].map tokOf, 4, 0, 0, exWrD⟩)
    ⟨by decide +kernel, by decide +kernel, by decide +kernel, by decide +kernel⟩ (p := tokOf "./test") rfl exWr_mixed
    (by decide +kernel) (by decide +kernel) (by decide +kernel)
    (by
      intro j d hd hr
      have : ∀ d ∈ exWrD, d.required = false := by decide +kernel
      rw [this d (List.mem_of_getElem? hd)] at hr
      cases hr)
    0 exAW_fresh exAW_reliable false
  exact ⟨r, h1, h2, h3⟩

/-- `a xxx` -/
theorem exWr_unnamed : Written [] (["a", "xxx"].map tokOf) [.plain (tokOf "a"), .plain (tokOf "xxx")] :=
  .plain (Or.inr (by decide +kernel)) (.plain (Or.inr (by decide +kernel)) .nil)

/-- `UnnamedArgs.TooMany` and `UnnamedArgs.TooFew`: tests/ArgParse.cpp lines 83-95. -/
example : (∃ r, argParseEx exAW ⟨["./test", "a", "xxx"].map tokOf, 3, 1, 1, []⟩ true (some 0) = .ret r ∧
      r.status = stTooManyArgs ∧ r.tok = .ptr (tokOf "xxx")) ∧
    (∃ r, argParseEx exAW ⟨["./test", "a", "xxx"].map tokOf, 3, 5, 5, []⟩ true (some 0) = .ret r ∧
      r.status = stTooFewArgs ∧ r.tok = .untouched) :=
  ⟨C193_too_many ⟨by decide +kernel, by decide +kernel, by decide +kernel, by decide +kernel⟩ (p := tokOf "./test") rfl
      exWr_unnamed (by decide +kernel) (by decide +kernel) rfl 0 exAW_fresh exAW_reliable,
    C193_too_few ⟨by decide +kernel, by decide +kernel, by decide +kernel, by decide +kernel⟩ (p := tokOf "./test") rfl
      exWr_unnamed (by decide +kernel) (by decide +kernel) (by decide +kernel) 0 exAW_fresh exAW_reliable⟩

/-- `MixedArgs.MissingRequiredArg`: tests/ArgParse.cpp lines 226-255. -/
example : ∃ r, argParseEx exAW ⟨["./test", "blah.c", "woof.moo"].map tokOf, 3, 0, 100,
      [⟨tokOf "--feature-xyz", true, false⟩, ⟨tokOf "-n", false, true⟩]⟩ true (some 0) = .ret r ∧
    r.status = stRequiredArgMissing ∧ r.tok = .ptr (tokOf "-n") :=
  C193_missing (is := [.plain (tokOf "blah.c"), .plain (tokOf "woof.moo")])
    (cfg := ⟨["./test", "blah.c", "woof.moo"].map tokOf, 3, 0, 100,
      [⟨tokOf "--feature-xyz", true, false⟩, ⟨tokOf "-n", false, true⟩]⟩)
    ⟨by decide +kernel, by decide +kernel, by decide +kernel, by decide +kernel⟩ (p := tokOf "./test") rfl
    (.plain (Or.inr (by decide +kernel)) (.plain (Or.inr (by decide +kernel)) .nil)) (by decide +kernel)
    (by decide +kernel) (by decide +kernel) (j := 1) rfl rfl (by simp)
    (by
      intro k hk e he hr
      have : k = 0 := by omega
      subst this
      cases he
      cases hr)
    0 exAW_fresh exAW_reliable

/-- `DoubleDashArg.PerfectFit`, with a value that looks like an option. -/
example : Written [⟨tokOf "--help", true, false⟩, ⟨tokOf "--stuff", false, false⟩]
    (["--help", "--stuff", "--help"].map tokOf) [.opt 0 none, .opt 1 (some (tokOf "--help"))] :=
  .longFlag (by decide +kernel) (by decide +kernel) (exWr_named (by decide +kernel))
    (.longValue (by decide +kernel) (by decide +kernel) (exWr_named (by decide +kernel)) .nil)

end Zy
