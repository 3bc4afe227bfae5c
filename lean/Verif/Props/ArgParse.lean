import Verif.Lemmas.ArgParseProps

/-!
# Property theorems: the argument parser

The parser is `argParseEx` (`src/ArgParse.c` 44-277). `ProperConfig`, `structOf`, `output` and `Agrees`
are in `Verif.Spec.ArgParseRun`, the grammar (`reading`, `verdict`) is in `Verif.Spec.ArgParse`.
-/

namespace Zy

open Zy.Spec

/-! ## Data for the examples -/

/-- The characters of a string literal. -/
def tokOf (s : String) : Tok := s.toList.map fun c => BitVec.ofNat 8 c.toNat

/-- The options of the examples: flags `-a`, `-b`, `-c`, `--verbose`; options with a value `-o` and
`--output`; the last one is required. -/
def exArgs : List ArgDef :=
  [⟨tokOf "-a", true, false⟩, ⟨tokOf "-b", true, false⟩, ⟨tokOf "-c", true, false⟩,
    ⟨tokOf "--verbose", true, false⟩, ⟨tokOf "-o", false, false⟩, ⟨tokOf "--output", false, true⟩]

/-- A configuration with these options and the given command line. -/
def exCfg (min max : Nat) (ts : List String) : ArgConfig :=
  ⟨("prog" :: ts).map tokOf, ts.length + 1, min, max, exArgs⟩

/-- A world with an allocator that never fails. -/
def exAW : World AArg := ⟨fun _ => stSuccess, 0, 0, []⟩

/-- A world whose allocator refuses exactly the call with the given number. -/
def exRefuse (n : Nat) : World AArg := ⟨fun k => if k = n then stNoMemory else stSuccess, 0, 0, []⟩

/-- Status, error token and output of a run. -/
def ashow (r : Out ArgResult) : Out (Status × ErrTok × Out (List (Cell AArg))) :=
  r.bind fun r => .ret (r.status, r.tok, output r)

theorem exCfg_proper {min max : Nat} {ts : List String} (h1 : ∀ t ∈ ts, 0#8 ∉ tokOf t)
    (h2 : (ts.length + 2 + ((("prog" :: ts).map tokOf).map List.length).sum) * 2 * 80 <
      18446744073709551616) : ProperConfig (exCfg min max ts) where
  argc := by simp [exCfg]
  argv := by
    intro t ht
    simp only [exCfg, List.mem_map, List.mem_cons] at ht
    obtain ⟨s, hs | hs, rfl⟩ := ht
    · subst hs; decide +kernel
    · exact h1 s hs
  names := by
    show ∀ d ∈ exArgs, 0#8 ∉ d.name
    decide +kernel
  small := by
    have : (exCfg min max ts).argv.length + 1 = ts.length + 2 := by simp [exCfg]
    rw [this]
    exact h2

theorem exAW_fresh : Fresh exAW := ⟨rfl, rfl⟩

theorem exAW_reliable : Reliable exAW := fun _ => failed_success

/-! ## C52: the grammar -/

/-- **C52**, the complete description of the parser: for every proper configuration the call is free
of undefined behaviour, and unless the allocator refused a request, status, error token and output are
those of the grammar in which a cluster of flags is also an unnamed argument. -/
theorem C52_grammar_with_quirk {cfg : ArgConfig} (H : ProperConfig cfg) (a : Nat) {w : World AArg}
    (hw : Fresh w) (want : Bool) :
    ∃ r, argParseEx w cfg want (some a) = .ret r ∧
      (Agrees want r (verdict true cfg) ∨
        failed r.status = true ∧ Event.refused a ∈ r.w.trace ∧ ∃ k, failed (w.oracle k) = true) := by
  obtain ⟨r, h1, h | h⟩ := argParse_main H (a := a) hw want
  · exact ⟨r, h1, Or.inr ⟨h.1, h.2.1, h.2.2.1⟩⟩
  · exact ⟨r, h1, Or.inl h.1⟩

example : ∃ r, argParseEx exAW (exCfg 0 9 ["-abofile", "x", "--output", "--", "-", "--", "-a"]) true
      (some 3) = .ret r ∧
    (Agrees true r (verdict true
        (exCfg 0 9 ["-abofile", "x", "--output", "--", "-", "--", "-a"])) ∨
      failed r.status = true ∧ Event.refused 3 ∈ r.w.trace ∧ ∃ k, failed (exAW.oracle k) = true) :=
  C52_grammar_with_quirk (exCfg_proper (by decide +kernel) (by decide +kernel)) 3 exAW_fresh true

/-- The verdict in the example: a cluster with an attached value, an unnamed argument, an option whose
value is `--`, the unnamed argument `-`, and an unnamed argument behind `--`. -/
example : verdict true (exCfg 0 9 ["-abofile", "x", "--output", "--", "-", "--", "-a"]) =
    .ok [.opt 0 none, .opt 1 none, .opt 4 (some (tokOf "file")), .plain (tokOf "x"),
      .opt 5 (some (tokOf "--")), .plain (tokOf "-"), .plain (tokOf "-a")] := by decide +kernel

/-- The errors of the grammar. -/
example : verdict true (exCfg 0 9 ["-axb"]) = .error stArgNotUnderstood (some (tokOf "-axb")) ∧
    verdict true (exCfg 0 9 ["x", "--output"]) = .error stArgMissesValue (some (tokOf "--output")) ∧
    verdict true (exCfg 0 1 ["x", "y", "z"]) = .error stTooManyArgs (some (tokOf "y")) ∧
    verdict true (exCfg 2 3 ["x"]) = .error stTooFewArgs none ∧
    verdict true (exCfg 0 9 ["x"]) = .error stRequiredArgMissing (some (tokOf "--output")) ∧
    verdict true (exCfg 3 2 ["x"]) = .error stInvalidArgument none := by decide +kernel

/-- **C52**, for command lines without a cluster of flags: the parser follows the documented grammar.
Missing for the full property: command lines with a cluster of flags, for which it is false
(`C57_flag_cluster_is_also_unnamed`). -/
theorem C52_documented_grammar_partial {cfg : ArgConfig} (H : ProperConfig cfg) (a : Nat)
    {w : World AArg} (hw : Fresh w) (hr : Reliable w) (want : Bool)
    (hc : ∀ t ∈ cfg.argv.tail, ¬ FlagCluster cfg.args t) :
    ∃ r, argParseEx w cfg want (some a) = .ret r ∧ Agrees want r (verdict false cfg) := by
  obtain ⟨r, h1, h2, _⟩ := argParse_reliable H (a := a) hw hr want
  exact ⟨r, h1, verdict_quirk hc ▸ h2⟩

example : ∃ r, argParseEx exAW (exCfg 0 9 ["-o", "x", "--output", "y", "z"]) true (some 0) = .ret r ∧
    Agrees true r (verdict false (exCfg 0 9 ["-o", "x", "--output", "y", "z"])) := by
  refine C52_documented_grammar_partial (exCfg_proper (by decide +kernel) (by decide +kernel)) 0
    exAW_fresh exAW_reliable true ?_
  intro t ht ⟨cs, h1, h2, h3, h4⟩
  have : ∀ u ∈ (exCfg 0 9 ["-o", "x", "--output", "y", "z"]).argv.tail, dash <+: u →
      ∃ c ∈ u.tail.head?, c = 45#8 ∨ ∀ p ∈ lookup exArgs (dash ++ [c]), p.1.boolean = false := by
    decide +kernel
  obtain ⟨c, hc, h⟩ := this t ht ⟨cs, h1.symm⟩
  rw [h1] at hc
  have hc : cs.head? = some c := hc
  rcases h with h | h
  · exact h3 (h ▸ hc)
  · obtain ⟨d, j, h5, h6⟩ := h4 c (List.mem_of_mem_head? hc)
    rw [h (d, j) h5] at h6
    simp at h6

/-- **C52** is false as stated: the documented grammar reads `--output x -ab` as three options, the
parser reports an unnamed argument `-ab` as well. -/
theorem C52_documented_grammar_fails :
    ∃ cfg r, ProperConfig cfg ∧ argParseEx exAW cfg true (some 0) = .ret r ∧
      ¬ Agrees true r (verdict false cfg) := by
  obtain ⟨r, h1, h2, _⟩ := argParse_reliable (a := 0) (cfg := exCfg 0 9 ["--output", "x", "-ab"])
    (exCfg_proper (by decide +kernel) (by decide +kernel)) exAW_fresh exAW_reliable true
  refine ⟨_, r, exCfg_proper (by decide +kernel) (by decide +kernel), h1, ?_⟩
  have e1 : verdict true (exCfg 0 9 ["--output", "x", "-ab"]) =
      .ok [.opt 5 (some (tokOf "x")), .opt 0 none, .opt 1 none, .plain (tokOf "-ab")] := by
    decide +kernel
  have e2 : verdict false (exCfg 0 9 ["--output", "x", "-ab"]) =
      .ok [.opt 5 (some (tokOf "x")), .opt 0 none, .opt 1 none] := by decide +kernel
  rw [e1] at h2
  rw [e2]
  intro h3
  have h4 := h2.2.2
  rw [h3.2.2] at h4
  injection h4 with h4
  simpa using congrArg List.length h4

/-! ## C53: limits -/

/-- **C53**: whenever a parse succeeds - whatever the allocator does - the number of unnamed arguments
in the output (the elements without a definition) is between the declared minimum and maximum, and
every required option occurs in the output. -/
theorem C53_limits_respected {cfg : ArgConfig} (H : ProperConfig cfg) {a : Nat} {w : World AArg}
    (hw : Fresh w) {want : Bool} {r : ArgResult} (h : argParseEx w cfg want (some a) = .ret r)
    (hs : failed r.status = false) :
    ∃ xs : List AArg, output r = .ret (xs.map some) ∧
      cfg.minUnnamed ≤ (xs.filter fun x => x.defn.isNone).length ∧
      (xs.filter fun x => x.defn.isNone).length ≤ cfg.maxUnnamed ∧
      ∀ (j : Nat) (d : ArgDef), cfg.args[j]? = some d → d.required = true →
        ∃ x ∈ xs, x.defn = some j := by
  obtain ⟨is, hv, _, ho⟩ := argParse_success H hw h hs
  obtain ⟨_, _, h1, h2, h3, _, _⟩ := verdict_ok hv
  refine ⟨is.map structOf, by simp [ho], ?_, ?_, ?_⟩
  · rw [← plains_length]; exact h1
  · rw [← plains_length]; exact h2
  · intro j d hj hr
    obtain ⟨v, hm⟩ := firstMissing_none h3 hj hr
    refine ⟨structOf (.opt j v), List.mem_map_of_mem hm, ?_⟩
    cases v <;> rfl

/-- Two unnamed arguments with limits 1 and 2, and the required option. -/
example : ∃ r, argParseEx exAW (exCfg 1 2 ["x", "--output", "f", "--", "-y"]) true (some 0) = .ret r ∧
    ∃ xs : List AArg, output r = .ret (xs.map some) ∧
      1 ≤ (xs.filter fun x => x.defn.isNone).length ∧
      (xs.filter fun x => x.defn.isNone).length ≤ 2 ∧
      ∀ (j : Nat) (d : ArgDef), exArgs[j]? = some d → d.required = true →
        ∃ x ∈ xs, x.defn = some j := by
  have H : ProperConfig (exCfg 1 2 ["x", "--output", "f", "--", "-y"]) :=
    exCfg_proper (by decide +kernel) (by decide +kernel)
  have e : verdict true (exCfg 1 2 ["x", "--output", "f", "--", "-y"]) =
    .ok [.plain (tokOf "x"), .opt 5 (some (tokOf "f")), .plain (tokOf "-y")] := by decide +kernel
  obtain ⟨r, h1, h2, _⟩ := argParse_reliable H (a := 0) exAW_fresh exAW_reliable true
  rw [e] at h2
  exact ⟨r, h1, C53_limits_respected H exAW_fresh h1 (by rw [h2.1]; rfl)⟩

/-! ## C54: options and their values -/

/-- **C54**: whenever a parse succeeds, every output element reports an item that comes from a token of
the command line: the name of its definition is that token or a character of it; it has no value if
the definition is a flag, and otherwise its value is the next token or the rest of the token. -/
theorem C54_options_and_values {cfg : ArgConfig} (H : ProperConfig cfg) {a : Nat} {w : World AArg}
    (hw : Fresh w) {want : Bool} {r : ArgResult} (h : argParseEx w cfg want (some a) = .ret r)
    (hs : failed r.status = false) :
    ∃ xs : List AArg, output r = .ret (xs.map some) ∧
      ∀ x ∈ xs, ∃ it pre t next, x = structOf it ∧ cfg.argv.tail = pre ++ t :: next ∧
        FromToken cfg.args t next it := by
  obtain ⟨is, hv, _, ho⟩ := argParse_success H hw h hs
  obtain ⟨h1, _⟩ := verdict_ok hv
  refine ⟨is.map structOf, by simp [ho], ?_⟩
  intro x hx
  obtain ⟨it, hit, rfl⟩ := List.mem_map.1 hx
  rw [h1] at hit
  obtain ⟨pre, t, next, hts, hf⟩ := (reading_from _).1 _ hit
  exact ⟨it, pre, t, next, rfl, hts, hf⟩

/-- **C54**, in terms of the output structs: an element with a definition has a value exactly if the
definition is not a flag. -/
theorem C54_value_iff_declared {cfg : ArgConfig} (H : ProperConfig cfg) {a : Nat} {w : World AArg}
    (hw : Fresh w) {want : Bool} {r : ArgResult} (h : argParseEx w cfg want (some a) = .ret r)
    (hs : failed r.status = false) :
    ∃ xs : List AArg, output r = .ret (xs.map some) ∧
      ∀ x ∈ xs, ∀ j, x.defn = some j → ∃ d, cfg.args[j]? = some d ∧
        x.hasValue = !d.boolean ∧ x.value.isSome = !d.boolean := by
  obtain ⟨xs, h1, h2⟩ := C54_options_and_values H hw h hs
  refine ⟨xs, h1, ?_⟩
  intro x hx j hj
  obtain ⟨it, pre, t, next, rfl, _, hf⟩ := h2 x hx
  cases hf with
  | longFlag d k hd hn hb =>
    simp only [structOf, Option.some.injEq] at hj ⊢
    subst hj; exact ⟨d, hd, by simp [hb]⟩
  | longValue d k v hd hn hb hv =>
    simp only [structOf, Option.some.injEq] at hj ⊢
    subst hj; exact ⟨d, hd, by simp [hb]⟩
  | shortFlag d k c pre post hd hn ht hb =>
    simp only [structOf, Option.some.injEq] at hj ⊢
    subst hj; exact ⟨d, hd, by simp [hb]⟩
  | shortRest d k c pre post hd hn ht hb hp =>
    simp only [structOf, Option.some.injEq] at hj ⊢
    subst hj; exact ⟨d, hd, by simp [hb]⟩
  | shortNext d k c pre v hd hn ht hb hv =>
    simp only [structOf, Option.some.injEq] at hj ⊢
    subst hj; exact ⟨d, hd, by simp [hb]⟩
  | itself => simp [structOf] at hj

example : ∃ r, argParseEx exAW (exCfg 0 2 ["-aofile", "--output", "f", "-o", "-a"]) true (some 0) =
      .ret r ∧
    (∃ xs : List AArg, output r = .ret (xs.map some) ∧
      ∀ x ∈ xs, ∃ it pre t next, x = structOf it ∧
        ["-aofile", "--output", "f", "-o", "-a"].map tokOf = pre ++ t :: next ∧
        FromToken exArgs t next it) ∧
    ∃ xs : List AArg, output r = .ret (xs.map some) ∧
      ∀ x ∈ xs, ∀ j, x.defn = some j → ∃ d, exArgs[j]? = some d ∧
        x.hasValue = !d.boolean ∧ x.value.isSome = !d.boolean := by
  have H : ProperConfig (exCfg 0 2 ["-aofile", "--output", "f", "-o", "-a"]) :=
    exCfg_proper (by decide +kernel) (by decide +kernel)
  have e : verdict true (exCfg 0 2 ["-aofile", "--output", "f", "-o", "-a"]) =
    .ok [.opt 0 none, .opt 4 (some (tokOf "file")), .opt 5 (some (tokOf "f")),
      .opt 4 (some (tokOf "-a"))] := by decide +kernel
  obtain ⟨r, h1, h2, _⟩ := argParse_reliable H (a := 0) exAW_fresh exAW_reliable true
  rw [e] at h2
  have hs : failed r.status = false := by rw [h2.1]; rfl
  exact ⟨r, h1, C54_options_and_values H exAW_fresh h1 hs, C54_value_iff_declared H exAW_fresh h1 hs⟩

/-! ## C55: the double dash -/

/-- **C55**: if the tokens before a `--` can be read without an error and do not end with an option
that still wants its value, then everything behind the `--` is unnamed: a successful parse reports the
tokens behind it, unchanged and in order, as the last elements of the output, and otherwise the failure
has nothing to do with the form of a token. -/
theorem C55_after_double_dash {cfg : ArgConfig} (H : ProperConfig cfg) {a : Nat} {w : World AArg}
    (hw : Fresh w) (hr : Reliable w) (want : Bool) {pre post : List Tok}
    (hsplit : cfg.argv.tail = pre ++ dashDash :: post)
    (hmode : modeAfter cfg.args .any pre = .any) (hpre : (reading true cfg.args .any pre).2 = none) :
    ∃ r, argParseEx w cfg want (some a) = .ret r ∧
      (r.status = stSuccess ∧ output r =
          .ret (((reading true cfg.args .any pre).1 ++ post.map Item.plain).map fun it =>
            some (structOf it)) ∨
        r.status = stTooManyArgs ∨ r.status = stTooFewArgs ∨ r.status = stRequiredArgMissing ∨
        r.status = stInvalidArgument) := by
  obtain ⟨r, h1, h2, _⟩ := argParse_reliable H (a := a) hw hr want
  refine ⟨r, h1, ?_⟩
  have hrd : reading true cfg.args .any cfg.argv.tail =
      ((reading true cfg.args .any pre).1 ++ post.map .plain, none) := by
    rw [hsplit, reading_append pre .any (by rw [hmode]; simp) hpre, hmode]
    simp [reading, reading_plainOnly, prepend]
  unfold verdict at h2
  split at h2
  · exact Or.inr (Or.inr (Or.inr (Or.inr (agrees_failed h2).1)))
  · rw [hrd] at h2
    split at h2
    · exact Or.inr (Or.inl (agrees_failed h2).1)
    · simp_all
    · simp_all
    · split at h2
      · exact Or.inr (Or.inr (Or.inl (agrees_failed h2).1))
      · split at h2
        · exact Or.inr (Or.inr (Or.inr (Or.inl (agrees_failed h2).1)))
        · exact Or.inl ⟨h2.1, h2.2.2⟩

/-- An option value `--` before the separator, and tokens with dashes behind it. -/
example : ∃ r, argParseEx exAW (exCfg 0 5 ["--output", "--", "--", "--nope", "-a", "--"]) true
      (some 0) = .ret r ∧
    (r.status = stSuccess ∧ output r =
        .ret (((reading true exArgs .any (["--output", "--"].map tokOf)).1 ++
          (["--nope", "-a", "--"].map tokOf).map Item.plain).map fun it => some (structOf it)) ∨
      r.status = stTooManyArgs ∨ r.status = stTooFewArgs ∨ r.status = stRequiredArgMissing ∨
      r.status = stInvalidArgument) :=
  C55_after_double_dash (exCfg_proper (by decide +kernel) (by decide +kernel)) exAW_fresh exAW_reliable
    true (pre := ["--output", "--"].map tokOf) (post := ["--nope", "-a", "--"].map tokOf) (by decide +kernel)
    (by decide +kernel) (by decide +kernel)

/-- This parse succeeds. -/
example : ashow (argParseEx exAW (exCfg 0 5 ["--output", "--", "--", "--nope", "-a", "--"]) true
      (some 0)) =
    .ret (stSuccess, .null, .ret ([Item.opt 5 (some (tokOf "--")), .plain (tokOf "--nope"),
      .plain (tokOf "-a"), .plain (tokOf "--")].map fun it => some (structOf it))) := by
  decide +kernel

/-! ## C56: memory after a failed parse -/

/-- **C56**, as long as the allocator refuses nothing: after a failed parse every allocation has been
released exactly once (the trace replays to "nothing is live") and the output vector holds no pointer;
after a successful one the output vector's storage is live, with the vector's capacity.
Missing for the full property: refused requests. If the very first one is refused nothing is
allocated (`C56_first_request_refused`); after any other refusal the storage stays allocated
(`C56_refusal_leaks`). -/
theorem C56_failed_parse_owns_nothing_partial {cfg : ArgConfig} (H : ProperConfig cfg) {a : Nat}
    {w : World AArg} (hw : Fresh w) {want : Bool} {r : ArgResult}
    (h : argParseEx w cfg want (some a) = .ret r) (hn : Event.refused a ∉ r.w.trace) :
    (failed r.status = true → replay r.w.trace = some none ∧ ∀ v, r.vec = some v → v.data = none) ∧
    (failed r.status = false → ∃ v b, r.vec = some v ∧ v.data = some b ∧
      replay r.w.trace = some (some ⟨a, b.id, v.esz, v.cap⟩)) := by
  obtain ⟨r', h1, h2 | ⟨_, h2, _⟩⟩ := argParse_main H (a := a) hw want
  · rw [h] at h1; injection h1 with h1; subst h1
    exact absurd h2.2.1 hn
  · rw [h] at h1; injection h1 with h1; subst h1
    rcases h2 with ⟨h3, h4⟩ | ⟨h3, h4⟩
    · exact ⟨fun _ => h4, fun h => by rw [h3] at h; simp at h⟩
    · exact ⟨fun h => (by rw [h3] at h; simp at h), fun _ => h4⟩

/-- **C56**, the first request refused: the parse fails and nothing is live. -/
theorem C56_first_request_refused {cfg : ArgConfig} (H : ProperConfig cfg) {a : Nat}
    {w : World AArg} (hw : Fresh w) {want : Bool} {r : ArgResult}
    (h : argParseEx w cfg want (some a) = .ret r) (hn : r.w.trace = [.refused a]) :
    failed r.status = true ∧ replay r.w.trace = some none := by
  obtain ⟨r', h1, h2 | ⟨_, h2, h3⟩⟩ := argParse_main H (a := a) hw want
  · rw [h] at h1; injection h1 with h1; subst h1
    exact ⟨h2.1, by rw [hn]; rfl⟩
  · rw [h] at h1; injection h1 with h1; subst h1
    exact absurd rfl (h3 (.refused a) (by rw [hn]; simp))

/-- **C56** is false as stated: whenever a request other than the first is refused, the parse fails
and its storage is still allocated. -/
theorem C56_refusal_leaks {cfg : ArgConfig} (H : ProperConfig cfg) {a : Nat}
    {w : World AArg} (hw : Fresh w) {want : Bool} {r : ArgResult}
    (h : argParseEx w cfg want (some a) = .ret r) (hm : Event.refused a ∈ r.w.trace)
    (hn : r.w.trace ≠ [.refused a]) :
    failed r.status = true ∧ ∃ l, replay r.w.trace = some (some l) := by
  obtain ⟨r', h1, h2 | ⟨_, h2, h3⟩⟩ := argParse_main H (a := a) hw want
  · rw [h] at h1; injection h1 with h1; subst h1
    exact ⟨h2.1, h2.2.2.2.resolve_right hn⟩
  · rw [h] at h1; injection h1 with h1; subst h1
    exact absurd rfl (h3 _ hm)

/-- Status and trace of a run. -/
def atrace (r : Out ArgResult) : Out (Status × List (Event AArg)) :=
  r.bind fun r => .ret (r.status, r.w.trace)

/-- A parse that fails because of the unknown option: allocated once, released once. -/
example : atrace (argParseEx exAW (exCfg 0 2 ["-abc", "--nope"]) true (some 0)) =
    .ret (stArgNotUnderstood, [.alloc 0 0 80 3, .realloc 0 0 1 80 8, .dealloc 0 1 80 8]) := by
  decide +kernel

example : ∃ r, argParseEx exAW (exCfg 0 2 ["-abc", "--nope"]) true (some 0) = .ret r ∧
    (failed r.status = true → replay r.w.trace = some none ∧ ∀ v, r.vec = some v → v.data = none) ∧
    (failed r.status = false → ∃ v b, r.vec = some v ∧ v.data = some b ∧
      replay r.w.trace = some (some ⟨0, b.id, v.esz, v.cap⟩)) := by
  have H : ProperConfig (exCfg 0 2 ["-abc", "--nope"]) :=
    exCfg_proper (by decide +kernel) (by decide +kernel)
  obtain ⟨r, h1, _⟩ := argParse_reliable H (a := 0) exAW_fresh exAW_reliable true
  have ht : atrace (argParseEx exAW (exCfg 0 2 ["-abc", "--nope"]) true (some 0)) =
    .ret (stArgNotUnderstood, [.alloc 0 0 80 3, .realloc 0 0 1 80 8, .dealloc 0 1 80 8]) := by
    decide +kernel
  rw [h1] at ht
  simp only [atrace, Out.ret_bind', Out.ret.injEq, Prod.mk.injEq] at ht
  exact ⟨r, h1, C56_failed_parse_owns_nothing_partial H exAW_fresh h1 (by rw [ht.2]; simp)⟩

/-- The leak: the cluster `-abc` needs more room than the vector was created with, the allocator
refuses the growth, and the parser returns without releasing what it had. -/
example : ∃ r, argParseEx (exRefuse 1) (exCfg 0 2 ["-abc"]) true (some 0) = .ret r ∧
    failed r.status = true ∧ ∃ l, replay r.w.trace = some (some l) := by
  have H : ProperConfig (exCfg 0 2 ["-abc"]) := exCfg_proper (by decide +kernel) (by decide +kernel)
  obtain ⟨r, h1, _⟩ := C52_grammar_with_quirk H 0 (w := exRefuse 1) ⟨rfl, rfl⟩ true
  have ht : atrace (argParseEx (exRefuse 1) (exCfg 0 2 ["-abc"]) true (some 0)) =
    .ret (stNoMemory, [.alloc 0 0 80 2, .refused 0]) := by decide +kernel
  rw [h1] at ht
  simp only [atrace, Out.ret_bind', Out.ret.injEq, Prod.mk.injEq] at ht
  exact ⟨r, h1, C56_refusal_leaks H ⟨rfl, rfl⟩ h1 (by rw [ht.2]; simp) (by rw [ht.2]; simp)⟩

example : ∃ r, argParseEx (exRefuse 0) (exCfg 0 2 ["-abc"]) true (some 0) = .ret r ∧
    failed r.status = true ∧ replay r.w.trace = some none := by
  have H : ProperConfig (exCfg 0 2 ["-abc"]) := exCfg_proper (by decide +kernel) (by decide +kernel)
  obtain ⟨r, h1, _⟩ := C52_grammar_with_quirk H 0 (w := exRefuse 0) ⟨rfl, rfl⟩ true
  have ht : atrace (argParseEx (exRefuse 0) (exCfg 0 2 ["-abc"]) true (some 0)) =
    .ret (stNoMemory, [.refused 0]) := by decide +kernel
  rw [h1] at ht
  simp only [atrace, Out.ret_bind', Out.ret.injEq, Prod.mk.injEq] at ht
  exact ⟨r, h1, C56_first_request_refused H ⟨rfl, rfl⟩ h1 ht.2⟩

/-! ## C57: clusters of flags -/

/-- **C57**, the part that holds: in a successful parse a cluster of flags is reported as those flags,
one per character and in order; what follows in the output (`C57_flag_cluster_is_also_unnamed`) is
what the property excludes.
Missing for the full property: "and nothing else", which is false. -/
theorem C57_flag_cluster_partial {cfg : ArgConfig} (H : ProperConfig cfg) {a : Nat} {w : World AArg}
    (hw : Fresh w) {want : Bool} {r : ArgResult} (h : argParseEx w cfg want (some a) = .ret r)
    (hs : failed r.status = false) {pre post : List Tok} {t : Tok}
    (hsplit : cfg.argv.tail = pre ++ t :: post) (hmode : modeAfter cfg.args .any pre = .any)
    (ht : FlagCluster cfg.args t) :
    ∃ (before : List AArg) (js : List Nat) (after : List AArg), output r = .ret ((before ++ (js.map fun j => (⟨some j, false, none⟩ : AArg)) ++
        after).map some) ∧ js.length + 1 = t.length ∧
      ∀ (i : Nat) j, js[i]? = some j → ∃ c d, t[i + 1]? = some c ∧ cfg.args[j]? = some d ∧
        d.name = dash ++ [c] ∧ d.boolean = true := by
  obtain ⟨A, js, B, h1, h2, h3⟩ := flag_cluster_output H hw h hs hsplit hmode ht
  exact ⟨A, js, structOf (.plain t) :: B, by rw [h1]; simp, h2, h3⟩

/-- **C57** is false as stated: in every successful parse, every cluster of flags is reported as those
flags followed by an unnamed argument, the token itself. -/
theorem C57_flag_cluster_is_also_unnamed {cfg : ArgConfig} (H : ProperConfig cfg) {a : Nat}
    {w : World AArg} (hw : Fresh w) {want : Bool} {r : ArgResult}
    (h : argParseEx w cfg want (some a) = .ret r) (hs : failed r.status = false)
    {pre post : List Tok} {t : Tok} (hsplit : cfg.argv.tail = pre ++ t :: post)
    (hmode : modeAfter cfg.args .any pre = .any) (ht : FlagCluster cfg.args t) :
    ∃ (before : List AArg) (js : List Nat) (after : List AArg), output r = .ret ((before ++ (js.map fun j => (⟨some j, false, none⟩ : AArg)) ++
        [structOf (.plain t)] ++ after).map some) ∧ js.length + 1 = t.length := by
  obtain ⟨A, js, B, h1, h2, h3⟩ := flag_cluster_output H hw h hs hsplit hmode ht
  exact ⟨A, js, B, h1, h2⟩

/-- **C57**, the consequence for programs that accept no unnamed arguments: a command line with a
cluster of flags, and before it only options, is rejected with "too many arguments". -/
theorem C57_flag_cluster_rejected {cfg : ArgConfig} (H : ProperConfig cfg) {a : Nat} {w : World AArg}
    (hw : Fresh w) (hr : Reliable w) (hmax : cfg.maxUnnamed = 0) (hmin : cfg.minUnnamed = 0)
    (hnames : ∀ d ∈ cfg.args, legalName d.name) {pre post : List Tok} {t : Tok}
    (hsplit : cfg.argv.tail = pre ++ t :: post) (hmode : modeAfter cfg.args .any pre = .any)
    (hpre : (reading true cfg.args .any pre).2 = none)
    (hno : plains (reading true cfg.args .any pre).1 = []) (ht : FlagCluster cfg.args t) :
    ∃ r, argParseEx w cfg true (some a) = .ret r ∧ r.status = stTooManyArgs ∧ r.tok = .ptr t := by
  obtain ⟨r, h1, h2, _⟩ := argParse_reliable H (a := a) hw hr true
  obtain ⟨js, _, hread, _⟩ := reading_flag_cluster (q := true) (post := post) ht
  have hv : verdict true cfg = .error stTooManyArgs (some t) := by
    unfold verdict
    rw [if_neg (by
      rintro (h | ⟨d, hd, h⟩)
      · omega
      · exact h (hnames d hd)), hsplit, reading_append pre .any (by rw [hmode]; simp) hpre, hmode, hread,
      prepend_prepend]
    have : plains (prepend ((reading true cfg.args .any pre).1 ++
          (js.map (fun j => Item.opt j none) ++ if true = true then [Item.plain t] else []))
          (reading true cfg.args .any post)).1 = t :: plains (reading true cfg.args .any post).1 := by
      simp only [prepend, plains_append, hno, plains_flags, if_true, List.nil_append]
      rfl
    rw [this, hmax]
    rfl
  rw [hv] at h2
  exact ⟨r, h1, h2.1, h2.2.2⟩

theorem exFlagCluster : FlagCluster exArgs (tokOf "-ab") := by
  refine ⟨tokOf "ab", by decide +kernel, by decide +kernel, by decide +kernel, ?_⟩
  intro c hc
  have : c = 97#8 ∨ c = 98#8 := by
    have hc : c ∈ [97#8, 98#8] := hc
    simpa using hc
  rcases this with rfl | rfl
  · exact ⟨⟨tokOf "-a", true, false⟩, 0, by decide +kernel, rfl⟩
  · exact ⟨⟨tokOf "-b", true, false⟩, 1, by decide +kernel, rfl⟩

example : ∃ r, argParseEx exAW (exCfg 0 2 ["--output", "x", "-ab", "y"]) true (some 0) = .ret r ∧
    (∃ (before : List AArg) (js : List Nat) (after : List AArg), output r = .ret ((before ++
        (js.map fun j => (⟨some j, false, none⟩ : AArg)) ++ after).map some) ∧
      js.length + 1 = (tokOf "-ab").length ∧
      ∀ (i : Nat) j, js[i]? = some j → ∃ c d, (tokOf "-ab")[i + 1]? = some c ∧ exArgs[j]? = some d ∧
        d.name = dash ++ [c] ∧ d.boolean = true) ∧
    ∃ (before : List AArg) (js : List Nat) (after : List AArg), output r = .ret ((before ++
        (js.map fun j => (⟨some j, false, none⟩ : AArg)) ++ [structOf (.plain (tokOf "-ab"))] ++
        after).map some) ∧ js.length + 1 = (tokOf "-ab").length := by
  have H : ProperConfig (exCfg 0 2 ["--output", "x", "-ab", "y"]) :=
    exCfg_proper (by decide +kernel) (by decide +kernel)
  have e : verdict true (exCfg 0 2 ["--output", "x", "-ab", "y"]) =
    .ok [.opt 5 (some (tokOf "x")), .opt 0 none, .opt 1 none, .plain (tokOf "-ab"),
      .plain (tokOf "y")] := by decide +kernel
  obtain ⟨r, h1, h2, _⟩ := argParse_reliable H (a := 0) exAW_fresh exAW_reliable true
  rw [e] at h2
  have hs : failed r.status = false := by rw [h2.1]; rfl
  exact ⟨r, h1,
    C57_flag_cluster_partial H exAW_fresh h1 hs (pre := ["--output", "x"].map tokOf)
      (post := [tokOf "y"]) rfl (by decide +kernel) exFlagCluster,
    C57_flag_cluster_is_also_unnamed H exAW_fresh h1 hs (pre := ["--output", "x"].map tokOf)
      (post := [tokOf "y"]) rfl (by decide +kernel) exFlagCluster⟩

example : ∃ r, argParseEx exAW (exCfg 0 0 ["--output", "x", "-ab"]) true (some 0) = .ret r ∧
    r.status = stTooManyArgs ∧ r.tok = .ptr (tokOf "-ab") :=
  C57_flag_cluster_rejected (exCfg_proper (by decide +kernel) (by decide +kernel)) exAW_fresh
    exAW_reliable rfl rfl (by show ∀ d ∈ exArgs, _; decide +kernel)
    (pre := ["--output", "x"].map tokOf) (post := []) rfl
    (by decide +kernel) (by decide +kernel) (by decide +kernel) exFlagCluster

/-! ## C88: round trip -/

/-- **C88**: writing options on the command line - each by its name, followed by its value as the next
token if it takes one -, then `--`, then any tokens at all, and parsing that gives back exactly these
options and, as unnamed arguments, exactly these tokens, in order; provided the configuration is legal
and its limits are met. -/
theorem C88_parse_of_rendered {cfg : ArgConfig} (H : ProperConfig cfg) {a : Nat} {w : World AArg}
    (hw : Fresh w) (hr : Reliable w) (want : Bool) {os : List Item} {us : List Tok}
    (hargv : cfg.argv.tail = os.flatMap (render cfg.args) ++ dashDash :: us)
    (hos : ∀ it ∈ os, Renderable cfg.args it) (hnames : ∀ d ∈ cfg.args, legalName d.name)
    (hmin : cfg.minUnnamed ≤ us.length) (hmax : us.length ≤ cfg.maxUnnamed)
    (hreq : ∀ (j : Nat) (d : ArgDef), cfg.args[j]? = some d → d.required = true →
      ∃ v, Item.opt j v ∈ os) :
    ∃ r, argParseEx w cfg want (some a) = .ret r ∧ r.status = stSuccess ∧
      output r = .ret ((os ++ us.map Item.plain).map fun it => some (structOf it)) := by
  obtain ⟨r, h1, h2, _⟩ := argParse_reliable H (a := a) hw hr want
  have hrd : reading true cfg.args .any cfg.argv.tail = (os ++ us.map .plain, none) := by
    rw [hargv, reading_render os hos]
    simp [reading, reading_plainOnly, prepend]
  have hp : plains (os ++ us.map .plain) = us := by
    rw [plains_append, plains_opts fun it hit => ?_, plains_map, List.nil_append]
    have := hos it hit
    cases it with
    | opt j v => exact ⟨j, v, rfl⟩
    | plain t => exact absurd this (by simp [Renderable])
  have hv : verdict true cfg = .ok (os ++ us.map .plain) := by
    unfold verdict
    rw [if_neg (by
      rintro (h | ⟨d, hd, h⟩)
      · omega
      · exact h (hnames d hd)), hrd]
    simp only [hp, List.getElem?_eq_none_iff.2 hmax]
    rw [if_neg (by omega), firstMissing_eq_none fun j d hj hd => by
      obtain ⟨v, hv⟩ := hreq j d hj hd
      exact ⟨v, List.mem_append_left _ hv⟩]
  rw [hv] at h2
  exact ⟨r, h1, h2.1, h2.2.2⟩

example : ∃ r, argParseEx exAW (exCfg 1 4 ["--output", "-a", "--verbose", "-o", "--", "--", "-x", "--"])
      false (some 0) = .ret r ∧ r.status = stSuccess ∧
    output r = .ret (([Item.opt 5 (some (tokOf "-a")), .opt 3 none, .opt 4 (some (tokOf "--"))] ++
      [tokOf "-x", tokOf "--"].map Item.plain).map fun it => some (structOf it)) := by
  refine C88_parse_of_rendered (exCfg_proper (by decide +kernel) (by decide +kernel)) exAW_fresh
    exAW_reliable false (by decide +kernel) ?_ (by show ∀ d ∈ exArgs, _; decide +kernel)
    (by decide +kernel) (by decide +kernel) ?_
  · intro it hit
    simp only [List.mem_cons, List.not_mem_nil, or_false] at hit
    rcases hit with rfl | rfl | rfl
    · exact ⟨⟨tokOf "--output", false, true⟩, by decide +kernel⟩
    · exact ⟨⟨tokOf "--verbose", true, false⟩, by decide +kernel⟩
    · exact ⟨⟨tokOf "-o", false, false⟩, by decide +kernel⟩
  · intro j d hj hd
    have h5 : j = 5 := by
      have : ∀ i : Fin 6, exArgs[i.val]?.all (fun d => d.required = false) = true ∨ i.val = 5 := by
        decide +kernel
      have hlt : j < 6 := (List.getElem?_eq_some_iff.1 hj).1
      rcases this ⟨j, hlt⟩ with h | h
      · have hj' : exArgs[j]? = some d := hj
        simp [hj', hd] at h
      · exact h
    subst h5
    exact ⟨some (tokOf "-a"), by simp⟩

/-! ## C89: the error token -/

/-- **C89**: when a parse fails and reports an error token, the token is the offending argument: an
argument of the command line for "too many arguments"; an argument that starts with a dash for "not
understood" and "misses value"; the name of a required option for "required argument missing". -/
theorem C89_error_token {cfg : ArgConfig} (H : ProperConfig cfg) {a : Nat} {w : World AArg}
    (hw : Fresh w) (hr : Reliable w) {r : ArgResult} (h : argParseEx w cfg true (some a) = .ret r)
    (hf : failed r.status = true) :
    (r.tok = .untouched ∧ (r.status = stInvalidArgument ∨ r.status = stTooFewArgs)) ∨
    ∃ t, r.tok = .ptr t ∧
      ((r.status = stTooManyArgs ∧ t ∈ cfg.argv.tail) ∨
        (r.status = stArgNotUnderstood ∧ t ∈ cfg.argv.tail ∧ dash <+: t) ∨
        (r.status = stArgMissesValue ∧ t ∈ cfg.argv.tail ∧ dash <+: t) ∨
        (r.status = stRequiredArgMissing ∧ ∃ d ∈ cfg.args, d.required = true ∧ d.name = t)) := by
  obtain ⟨r', h1, h2, _⟩ := argParse_reliable H (a := a) hw hr true
  rw [h] at h1; injection h1 with h1; subst h1
  cases hv : verdict true cfg with
  | ok is =>
    rw [hv] at h2
    rw [h2.1] at hf
    exact absurd hf (by decide)
  | error st t =>
    rw [hv] at h2
    cases t with
    | none =>
      left
      refine ⟨h2.2.2, ?_⟩
      rw [h2.1]
      exact verdict_error_none hv
    | some t =>
      right
      refine ⟨t, h2.2.2, ?_⟩
      rw [h2.1]
      exact verdict_error hv

example : ashow (argParseEx exAW (exCfg 0 9 ["x", "-abz"]) true (some 0)) =
    .ret (stArgNotUnderstood, .ptr (tokOf "-abz"), .ub .null) := by decide +kernel

example : ∃ r, argParseEx exAW (exCfg 0 9 ["x", "-abz"]) true (some 0) = .ret r ∧
    ((r.tok = .untouched ∧ (r.status = stInvalidArgument ∨ r.status = stTooFewArgs)) ∨
    ∃ t, r.tok = .ptr t ∧
      ((r.status = stTooManyArgs ∧ t ∈ ["x", "-abz"].map tokOf) ∨
        (r.status = stArgNotUnderstood ∧ t ∈ ["x", "-abz"].map tokOf ∧ dash <+: t) ∨
        (r.status = stArgMissesValue ∧ t ∈ ["x", "-abz"].map tokOf ∧ dash <+: t) ∨
        (r.status = stRequiredArgMissing ∧ ∃ d ∈ exArgs, d.required = true ∧ d.name = t))) := by
  have H : ProperConfig (exCfg 0 9 ["x", "-abz"]) :=
    exCfg_proper (by decide +kernel) (by decide +kernel)
  have e : verdict true (exCfg 0 9 ["x", "-abz"]) =
    .error stArgNotUnderstood (some (tokOf "-abz")) := by decide +kernel
  obtain ⟨r, h1, h2, _⟩ := argParse_reliable H (a := 0) exAW_fresh exAW_reliable true
  rw [e] at h2
  exact ⟨r, h1, C89_error_token H exAW_fresh exAW_reliable h1 (by rw [h2.1]; exact h2.2.1)⟩

end Zy
