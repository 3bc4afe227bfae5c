import Verif.Lemmas.ArgNormal
import Verif.Props.ArgParse

/-!
# C167: normal forms of command lines
-/

namespace Zy

open Spec

/-- **C167** (partial): whenever a command line is accepted, the list that the parser delivers determines a normal form of
the command line: every option by its name, followed by its value as a token of its own, in the order of the list; then
`--`; then the unnamed arguments. Parsed with the same definitions and limits, the normal form is accepted and gives the
same options in the same order, followed by the same unnamed arguments in the same order. Missing: lists with a flag that has
a short name (`C167_negation_short`), and definitions named `--`. -/
theorem C167_normal_form_partial {cfg : ArgConfig} (H : ProperConfig cfg) {a : Nat} {w : World AArg} (hw : Fresh w)
    {want : Bool} {r : ArgResult} (h : argParseEx w cfg want (some a) = .ret r) (hs : failed r.status = false)
    (hne : ∀ d ∈ cfg.args, d.name ≠ dashDash) {is : List Item}
    (ho : output r = .ret (is.map fun it => some (structOf it))) (hl : LongFlags cfg.args is)
    {cfg' : ArgConfig} (H' : ProperConfig cfg') (hsr : SameRules cfg cfg')
    (hargv : cfg'.argv.tail = normalForm cfg.args is) {w' : World AArg} (a' : Nat) (want' : Bool) (hw' : Fresh w')
    (hr' : Reliable w') :
    ∃ r', argParseEx w' cfg' want' (some a') = .ret r' ∧ r'.status = stSuccess ∧
      output r' = .ret ((sortedItems is).map fun it => some (structOf it)) := by
  obtain ⟨js, hv, _, ho'⟩ := argParse_success H hw h hs
  rw [← output_items ho ho'] at hv
  obtain ⟨he, _, hmin, hmax, hreq, _, hleg⟩ := verdict_ok hv
  obtain ⟨r', h1, h2, _⟩ := argParse_reliable H' (a := a') hw' hr' want'
  have hfit : ∀ it ∈ options is, Fitting cfg.args it := by
    rw [he]
    exact reading_options hleg hne
  have hrd : reading true cfg'.args .any cfg'.argv.tail = (sortedItems is, none) := by
    rw [hargv, hsr.args, reading_normal hfit, readBack_long hl]
    rfl
  have hv' : verdict true cfg' = .ok (sortedItems is) := by
    refine verdict_ok_intro hrd ?_ ?_ ?_ ?_
    · rw [plains_sorted, hsr.minUnnamed]
      exact hmin
    · rw [plains_sorted, hsr.maxUnnamed]
      exact hmax
    · rw [hsr.args]
      refine firstMissing_eq_none fun j d hj hd => ?_
      obtain ⟨v, hm⟩ := firstMissing_none hreq hj hd
      exact ⟨v, List.mem_append_left _ (mem_options.2 hm)⟩
    · rw [hsr.args]
      exact hleg
  rw [hv'] at h2
  exact ⟨r', h1, h2.1, h2.2.2⟩

/-- The command line `prog x -ofile --verbose y --output g` has the normal form
`prog -o file --verbose --output g -- x y`. -/
example : normalForm exArgs [.plain (tokOf "x"), .opt 4 (some (tokOf "file")), .opt 3 none, .plain (tokOf "y"),
      .opt 5 (some (tokOf "g"))] = ["-o", "file", "--verbose", "--output", "g", "--", "x", "y"].map tokOf := by
  decide +kernel

example : ∃ r r', argParseEx exAW (exCfg 1 2 ["x", "-ofile", "--verbose", "y", "--output", "g"]) false (some 0) = .ret r ∧
    argParseEx exAW (exCfg 1 2 ["-o", "file", "--verbose", "--output", "g", "--", "x", "y"]) true (some 3) = .ret r' ∧
    r.status = stSuccess ∧ r'.status = stSuccess ∧
    output r = .ret ([Item.plain (tokOf "x"), .opt 4 (some (tokOf "file")), .opt 3 none, .plain (tokOf "y"),
      .opt 5 (some (tokOf "g"))].map fun it => some (structOf it)) ∧
    output r' = .ret ([Item.opt 4 (some (tokOf "file")), .opt 3 none, .opt 5 (some (tokOf "g")), .plain (tokOf "x"),
      .plain (tokOf "y")].map fun it => some (structOf it)) := by
  have H : ProperConfig (exCfg 1 2 ["x", "-ofile", "--verbose", "y", "--output", "g"]) :=
    exCfg_proper (by decide +kernel) (by decide +kernel)
  obtain ⟨r, h1, h2, _⟩ := argParse_reliable H (a := 0) exAW_fresh exAW_reliable false
  have hv : verdict true (exCfg 1 2 ["x", "-ofile", "--verbose", "y", "--output", "g"]) =
    .ok [.plain (tokOf "x"), .opt 4 (some (tokOf "file")), .opt 3 none, .plain (tokOf "y"),
      .opt 5 (some (tokOf "g"))] := by decide +kernel
  rw [hv] at h2
  obtain ⟨r', h1', h2', h3'⟩ := C167_normal_form_partial H exAW_fresh h1 (by rw [h2.1]; exact failed_success)
    (by show ∀ d ∈ exArgs, _; decide +kernel) h2.2.2
    (by
      intro j d hm hd
      have hj : j = 3 := by simpa using hm
      subst hj
      have : d = ⟨tokOf "--verbose", true, false⟩ := (Option.some.inj hd).symm
      rw [this]
      decide +kernel)
    (cfg' := exCfg 1 2 ["-o", "file", "--verbose", "--output", "g", "--", "x", "y"])
    (exCfg_proper (by decide +kernel) (by decide +kernel)) ⟨rfl, rfl, rfl⟩ (by decide +kernel) 3 true exAW_fresh
    exAW_reliable
  exact ⟨r, r', h1, h1', h2.1, h2', h2.2.2, h3'⟩

/-- **C167**: the list that the normal form gives has the same normal form: normalising twice is normalising once. -/
theorem C167_normal_again (D : List ArgDef) (is : List Item) : normalForm D (sortedItems is) = normalForm D is := by
  unfold normalForm
  rw [options_sorted, plains_sorted]

/-- **C167** (negation): if the list has a flag with a short name, the normal form is never parsed to the same options and
unnamed arguments: it is rejected, or the list it gives is longer, as each such flag is reported as an unnamed argument as
well. -/
theorem C167_negation_short {cfg : ArgConfig} (H : ProperConfig cfg) {a : Nat} {w : World AArg} (hw : Fresh w)
    {want : Bool} {r : ArgResult} (h : argParseEx w cfg want (some a) = .ret r) (hs : failed r.status = false)
    (hne : ∀ d ∈ cfg.args, d.name ≠ dashDash) {is : List Item}
    (ho : output r = .ret (is.map fun it => some (structOf it))) (hl : ¬ LongFlags cfg.args is)
    {cfg' : ArgConfig} (H' : ProperConfig cfg') (hsr : SameRules cfg cfg')
    (hargv : cfg'.argv.tail = normalForm cfg.args is) {w' : World AArg} {a' : Nat} {want' : Bool} (hw' : Fresh w')
    {r' : ArgResult} (h' : argParseEx w' cfg' want' (some a') = .ret r') (hs' : failed r'.status = false) :
    ∃ is', output r' = .ret (is'.map fun it => some (structOf it)) ∧ is.length < is'.length ∧
      (plains is).length < (plains is').length := by
  obtain ⟨js, hv, _, hoj⟩ := argParse_success H hw h hs
  rw [← output_items ho hoj] at hv
  obtain ⟨he, _, hmin, hmax, hreq, _, hleg⟩ := verdict_ok hv
  obtain ⟨is', hv', _, ho'⟩ := argParse_success H' hw' h' hs'
  have hfit : ∀ it ∈ options is, Fitting cfg.args it := by
    rw [he]
    exact reading_options hleg hne
  have he' := (verdict_ok hv').1
  rw [hargv, hsr.args, reading_normal hfit] at he'
  obtain ⟨j, d, hm, hd, hp⟩ : ∃ j d, Item.opt j none ∈ is ∧ cfg.args[j]? = some d ∧ ¬ dashDash <+: d.name := by
    simpa only [LongFlags, Classical.not_forall, exists_prop] using hl
  have hlt := readBack_short hd hp (mem_options.2 hm)
  refine ⟨is', ho', ?_, ?_⟩
  · have := items_length is
    rw [he', List.length_append, List.length_map]
    omega
  · have := readBack_plains cfg.args (options is) (plains_options is)
    rw [he', plains_append, plains_map, List.length_append]
    omega

/-- The normal form of `prog --output g -a` is parsed to a list with the unnamed argument `-a` twice. -/
example : ∃ r r' is', argParseEx exAW (exCfg 0 2 ["--output", "g", "-a"]) false (some 0) = .ret r ∧
    argParseEx exAW (exCfg 0 2 ["--output", "g", "-a", "--", "-a"]) false (some 0) = .ret r' ∧
    output r = .ret ([Item.opt 5 (some (tokOf "g")), .opt 0 none, .plain (tokOf "-a")].map fun it => some (structOf it)) ∧
    output r' = .ret (is'.map fun it => some (structOf it)) ∧ 3 < is'.length ∧ 1 < (plains is').length := by
  have H : ProperConfig (exCfg 0 2 ["--output", "g", "-a"]) := exCfg_proper (by decide +kernel) (by decide +kernel)
  have H' : ProperConfig (exCfg 0 2 ["--output", "g", "-a", "--", "-a"]) :=
    exCfg_proper (by decide +kernel) (by decide +kernel)
  obtain ⟨r, h1, h2, _⟩ := argParse_reliable H (a := 0) exAW_fresh exAW_reliable false
  obtain ⟨r', h1', h2', _⟩ := argParse_reliable H' (a := 0) exAW_fresh exAW_reliable false
  have hv : verdict true (exCfg 0 2 ["--output", "g", "-a"]) =
    .ok [.opt 5 (some (tokOf "g")), .opt 0 none, .plain (tokOf "-a")] := by decide +kernel
  have hv' : verdict true (exCfg 0 2 ["--output", "g", "-a", "--", "-a"]) =
    .ok [.opt 5 (some (tokOf "g")), .opt 0 none, .plain (tokOf "-a"), .plain (tokOf "-a")] := by decide +kernel
  rw [hv] at h2
  rw [hv'] at h2'
  obtain ⟨is', ho', hlt⟩ := C167_negation_short H exAW_fresh h1 (by rw [h2.1]; exact failed_success)
    (by show ∀ d ∈ exArgs, _; decide +kernel) h2.2.2
    (fun hl => absurd (hl 0 ⟨tokOf "-a", true, false⟩ (by simp) rfl) (by decide +kernel))
    H' ⟨rfl, rfl, rfl⟩ (by decide +kernel) exAW_fresh h1' (by rw [h2'.1]; exact failed_success)
  exact ⟨r, r', is', h1, h1', h2.2.2, ho', hlt⟩

end Zy
