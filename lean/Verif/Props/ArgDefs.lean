import Verif.Lemmas.ArgDefs
import Verif.Props.ArgConcat

/-!
# Property theorems: the definitions of the argument parser (C164)

`shown` (`Verif.Spec.ArgDefs`) is the output of the parser with the definitions themselves in place of their
numbers. `ProperConfig` and `output` are in `Verif.Spec.ArgParseRun`.
-/

namespace Zy

open Zy.Spec

/-! ## C164: it does not matter in which order and with which others an option is defined -/

/-- **C164**, definitions behind the others: an accepted command line is accepted with the same output if
definitions that are not required are appended, whatever their names are. -/
theorem C164_appended {A C : ArgConfig} (HA : ProperConfig A) (HC : ProperConfig C) {E : List ArgDef}
    (hC : C.args = A.args ++ E) (hreq : ∀ d ∈ E, d.required = false) (hleg : ∀ d ∈ E, legalName d.name)
    (ht : C.argv.tail = A.argv.tail) (hmin : C.minUnnamed ≤ A.minUnnamed) (hmax : A.maxUnnamed ≤ C.maxUnnamed)
    {wA wC : World AArg} (hwA : Fresh wA) (hwC : Fresh wC) (hr : Reliable wC) {a : Nat} (c : Nat)
    {wantA : Bool} (wantC : Bool) {rA : ArgResult} (hA : argParseEx wA A wantA (some a) = .ret rA)
    (sA : failed rA.status = false) :
    ∃ rC, argParseEx wC C wantC (some c) = .ret rC ∧ rC.status = stSuccess ∧ output rC = output rA := by
  obtain ⟨is, vA, _, oA⟩ := argParse_success HA hwA hA sA
  obtain ⟨rC, h1, h2, _⟩ := argParse_reliable HC (a := c) hwC hr wantC
  rw [verdict_appended vA hC hreq hleg ht hmin hmax] at h2
  exact ⟨rC, h1, h2.1, by rw [h2.2.2, oA]⟩

theorem shown_move {is : List Item} {D E : List ArgDef} {q : Bool} {ts : List Tok} {rA rC : ArgResult}
    (hE : (E.map ArgDef.name).Nodup) (hs : ∀ d ∈ D, d ∈ E) (hi : is = (reading q D .any ts).1)
    (hA : output rA = .ret (is.map fun it => some (structOf it)))
    (hC : output rC = .ret ((is.map (moveItem (placeIn D E))).map fun it => some (structOf it))) :
    shown E rC = shown D rA := by
  unfold shown
  rw [hA, hC]
  simp only [Out.ret_bind', List.map_map, Out.ret.injEq]
  apply List.map_congr_left
  intro it hit
  rw [hi] at hit
  simp only [Function.comp_apply, Option.map_some, withDef_move hE hs hit]

/-- **C164**, more definitions: an accepted command line is accepted, and its options refer to the same
definitions, if definitions that are not required are added anywhere and all are put into another order. The
new names must be different from each other and from the old ones. Missing for the full property: equal
names, for which it is false (`C164_negation_duplicate`). -/
theorem C164_more_definitions_partial {A C : ArgConfig} (HA : ProperConfig A) (HC : ProperConfig C)
    (hn : (C.args.map ArgDef.name).Nodup) (hs : ∀ d ∈ A.args, d ∈ C.args)
    (hreq : ∀ d ∈ C.args, d.required = true → d ∈ A.args) (hleg : ∀ d ∈ C.args, legalName d.name)
    (ht : C.argv.tail = A.argv.tail) (hmin : C.minUnnamed ≤ A.minUnnamed) (hmax : A.maxUnnamed ≤ C.maxUnnamed)
    {wA wC : World AArg} (hwA : Fresh wA) (hwC : Fresh wC) (hr : Reliable wC) {a : Nat} (c : Nat)
    {wantA : Bool} (wantC : Bool) {rA : ArgResult} (hA : argParseEx wA A wantA (some a) = .ret rA)
    (sA : failed rA.status = false) :
    ∃ rC, argParseEx wC C wantC (some c) = .ret rC ∧ rC.status = stSuccess ∧
      shown C.args rC = shown A.args rA := by
  obtain ⟨is, vA, _, oA⟩ := argParse_success HA hwA hA sA
  obtain ⟨rC, h1, h2, _⟩ := argParse_reliable HC (a := c) hwC hr wantC
  rw [verdict_more vA hn hs hreq hleg ht hmin hmax] at h2
  exact ⟨rC, h1, h2.1, shown_move hn hs (verdict_ok vA).1 oA h2.2.2⟩

/-- **C164**, another order: if the names are different from each other, the order of the definitions does
not matter. The status is the same, the error token is the same (only if required options are missing, the
reported one depends on the order), and the parsed options refer to the same definitions. Missing for the full
property: equal names, for which it is false (`C164_negation_duplicate`). -/
theorem C164_order_partial {A C : ArgConfig} (HA : ProperConfig A) (HC : ProperConfig C) (hp : C.args.Perm A.args)
    (hn : (A.args.map ArgDef.name).Nodup) (ht : C.argv.tail = A.argv.tail) (hmin : C.minUnnamed = A.minUnnamed)
    (hmax : C.maxUnnamed = A.maxUnnamed) {wA wC : World AArg} (hwA : Fresh wA) (hrA : Reliable wA)
    (hwC : Fresh wC) (hrC : Reliable wC) (a c : Nat) (want : Bool) :
    ∃ rA rC, argParseEx wA A want (some a) = .ret rA ∧ argParseEx wC C want (some c) = .ret rC ∧
      rC.status = rA.status ∧ (rA.status ≠ stRequiredArgMissing → rC.tok = rA.tok) ∧
      (failed rA.status = false → shown C.args rC = shown A.args rA) := by
  obtain ⟨rA, h1, h2, _⟩ := argParse_reliable HA (a := a) hwA hrA want
  obtain ⟨rC, h3, h4, _⟩ := argParse_reliable HC (a := c) hwC hrC want
  refine ⟨rA, rC, h1, h3, ?_⟩
  cases hv : verdict true A with
  | ok is =>
    have hC : (C.args.map ArgDef.name).Nodup := (hp.map ArgDef.name).nodup_iff.2 hn
    have hs : ∀ d ∈ A.args, d ∈ C.args := fun d hd => hp.mem_iff.2 hd
    obtain ⟨a1, _, _, _, _, _, a7⟩ := verdict_ok hv
    rw [hv] at h2
    rw [verdict_more hv hC hs (fun d hd _ => hp.mem_iff.1 hd) (fun d hd => a7 d (hp.mem_iff.1 hd)) ht
      (by omega) (by omega)] at h4
    exact ⟨by rw [h2.1, h4.1], fun _ => by rw [h2.2.1, h4.2.1], fun _ => shown_move hC hs a1 h2.2.2 h4.2.2⟩
  | error st t =>
    obtain ⟨t', hv', ht', hsome⟩ := verdict_rearranged hv hp hn ht hmin hmax
    rw [hv] at h2
    rw [hv'] at h4
    have e2 := agrees_failed h2
    have e4 := agrees_failed h4
    refine ⟨by rw [e2.1, e4.1], fun hne => ?_, fun h => ?_⟩
    · rw [e2.1] at hne
      rw [ht' hne] at h4
      cases t with
      | none => rw [h2.2.2, h4.2.2]
      | some t => rw [h2.2.2, h4.2.2]
    · rw [e2.1, e2.2] at h
      cases h

/-- **C164**, equal names: every parsed option refers to the first definition of its name. -/
theorem C164_first_definition {A : ArgConfig} (HA : ProperConfig A) {w : World AArg} (hw : Fresh w) {a : Nat}
    {want : Bool} {r : ArgResult} (h : argParseEx w A want (some a) = .ret r) (hs : failed r.status = false) :
    ∃ xs, output r = .ret xs ∧ ∀ x j, some x ∈ xs → x.defn = some j →
      ∃ d, A.args[j]? = some d ∧ ∀ i e, i < j → A.args[i]? = some e → e.name ≠ d.name := by
  obtain ⟨is, v, _, o⟩ := argParse_success HA hw h hs
  refine ⟨_, o, fun x j hx hj => ?_⟩
  obtain ⟨it, hit, e⟩ := List.mem_map.1 hx
  injection e with e
  subst e
  rw [(verdict_ok v).1] at hit
  cases it with
  | plain t => cases hj
  | opt k u =>
    have hk : k = j := by
      cases u <;> exact Option.some.inj hj
    subst hk
    rcases reading_first _ _ hit with ⟨d, hd⟩ | ⟨t, h⟩
    · exact ⟨d, (lookup_get hd).1, fun i e hi he => lookup_first hd hi he⟩
    · cases h

/-- **C164** fails for equal names: if a definition is required and an earlier one has the same name, no
command line is accepted. (`src/ArgParse.c` line 63 announces a check for this; there is none.) -/
theorem C164_negation_duplicate {A : ArgConfig} (HA : ProperConfig A) {i j : Nat} {d e : ArgDef} (hij : i < j)
    (hi : A.args[i]? = some e) (hj : A.args[j]? = some d) (hn : e.name = d.name) (hd : d.required = true)
    {w : World AArg} (hw : Fresh w) {a : Nat} {want : Bool} {r : ArgResult}
    (h : argParseEx w A want (some a) = .ret r) : failed r.status = true := by
  cases hs : failed r.status with
  | true => rfl
  | false =>
    obtain ⟨is, v, _, o⟩ := argParse_success HA hw h hs
    obtain ⟨a1, _, _, _, a5, _, _⟩ := verdict_ok v
    obtain ⟨u, hu⟩ := firstMissing_none a5 hj hd
    rw [a1] at hu
    rcases reading_first _ _ hu with ⟨d', hd'⟩ | ⟨t, h⟩
    · have h1 := (lookup_get hd').1
      rw [hj] at h1
      injection h1 with h1
      subst h1
      exact absurd hn (lookup_first hd' hij hi)
    · cases h

/-! ## Examples -/

/-- A configuration with the given definitions. -/
def exDefs (D : List ArgDef) (min max : Nat) (ts : List String) : ArgConfig :=
  ⟨("prog" :: ts).map tokOf, ts.length + 1, min, max, D⟩

theorem exDefs_proper {D : List ArgDef} {min max : Nat} {ts : List String} (h1 : ∀ t ∈ ts, 0#8 ∉ tokOf t)
    (h2 : (ts.length + 2 + ((("prog" :: ts).map tokOf).map List.length).sum) * 2 * 80 <
      18446744073709551616) (h3 : ∀ d ∈ D, 0#8 ∉ d.name) : ProperConfig (exDefs D min max ts) where
  argc := by simp [exDefs]
  argv := by
    intro t ht
    simp only [exDefs, List.mem_map, List.mem_cons] at ht
    obtain ⟨s, hs | hs, rfl⟩ := ht
    · subst hs; decide +kernel
    · exact h1 s hs
  names := h3
  small := by
    have : (exDefs D min max ts).argv.length + 1 = ts.length + 2 := by simp [exDefs]
    rw [this]
    exact h2

/-- The definitions of the other examples in reverse order, with one more in front. -/
def exArgs2 : List ArgDef := ⟨tokOf "--size", false, false⟩ :: exArgs.reverse

example : ∃ rA rC, argParseEx exAW (exDefs exArgs 0 9 ["-a", "--output", "f", "x"]) true (some 0) = .ret rA ∧
    argParseEx exAW (exDefs (exArgs ++ exArgs2.take 1) 0 9 ["-a", "--output", "f", "x"]) false (some 1) = .ret rC ∧
    rC.status = stSuccess ∧ output rC = output rA := by
  obtain ⟨rA, h1, h2, _⟩ := argParse_reliable (a := 0) (cfg := exDefs exArgs 0 9 ["-a", "--output", "f", "x"])
    (exDefs_proper (by decide +kernel) (by decide +kernel) (by decide +kernel)) exAW_fresh exAW_reliable true
  have e : verdict true (exDefs exArgs 0 9 ["-a", "--output", "f", "x"]) =
      .ok [.opt 0 none, .plain (tokOf "-a"), .opt 5 (some (tokOf "f")), .plain (tokOf "x")] := by decide +kernel
  rw [e] at h2
  obtain ⟨rC, h3, h4, h5⟩ := C164_appended
    (C := exDefs (exArgs ++ exArgs2.take 1) 0 9 ["-a", "--output", "f", "x"])
    (exDefs_proper (by decide +kernel) (by decide +kernel) (by decide +kernel))
    (exDefs_proper (by decide +kernel) (by decide +kernel) (by decide +kernel)) rfl (by decide +kernel)
    (by decide +kernel) rfl (Nat.le_refl _) (Nat.le_refl _) exAW_fresh exAW_fresh exAW_reliable 1 false h1
    (by rw [h2.1]; exact failed_success)
  exact ⟨rA, rC, h1, h3, h4, h5⟩

example : ∃ rA rC, argParseEx exAW (exDefs exArgs 0 9 ["-a", "--output", "f", "x"]) true (some 0) = .ret rA ∧
    argParseEx exAW (exDefs exArgs2 0 9 ["-a", "--output", "f", "x"]) false (some 1) = .ret rC ∧
    rC.status = stSuccess ∧ shown exArgs2 rC = shown exArgs rA := by
  obtain ⟨rA, h1, h2, _⟩ := argParse_reliable (a := 0) (cfg := exDefs exArgs 0 9 ["-a", "--output", "f", "x"])
    (exDefs_proper (by decide +kernel) (by decide +kernel) (by decide +kernel)) exAW_fresh exAW_reliable true
  have e : verdict true (exDefs exArgs 0 9 ["-a", "--output", "f", "x"]) =
      .ok [.opt 0 none, .plain (tokOf "-a"), .opt 5 (some (tokOf "f")), .plain (tokOf "x")] := by decide +kernel
  rw [e] at h2
  obtain ⟨rC, h3, h4, h5⟩ := C164_more_definitions_partial
    (C := exDefs exArgs2 0 9 ["-a", "--output", "f", "x"])
    (exDefs_proper (by decide +kernel) (by decide +kernel) (by decide +kernel))
    (exDefs_proper (by decide +kernel) (by decide +kernel) (by decide +kernel)) (by decide +kernel)
    (show ∀ d ∈ exArgs, d ∈ exArgs2 by decide +kernel)
    (show ∀ d ∈ exArgs2, d.required = true → d ∈ exArgs by decide +kernel)
    (show ∀ d ∈ exArgs2, legalName d.name by decide +kernel) rfl (Nat.le_refl _) (Nat.le_refl _)
    exAW_fresh exAW_fresh exAW_reliable 1 false h1 (by rw [h2.1]; exact failed_success)
  exact ⟨rA, rC, h1, h3, h4, h5⟩

/-- The numbers of the definitions are different. -/
example : verdict true (exDefs exArgs2 0 9 ["-a", "--output", "f", "x"]) =
    .ok [.opt 6 none, .plain (tokOf "-a"), .opt 1 (some (tokOf "f")), .plain (tokOf "x")] := by decide +kernel

/-- Reversed definitions; also for a command line with an error. -/
example (ts : List String) (h1 : ∀ t ∈ ts, 0#8 ∉ tokOf t)
    (h2 : (ts.length + 2 + ((("prog" :: ts).map tokOf).map List.length).sum) * 2 * 80 < 18446744073709551616) :
    ∃ rA rC, argParseEx exAW (exDefs exArgs 0 9 ts) true (some 0) = .ret rA ∧
      argParseEx exAW (exDefs exArgs.reverse 0 9 ts) true (some 0) = .ret rC ∧ rC.status = rA.status := by
  obtain ⟨rA, rC, h3, h4, h5, _⟩ := C164_order_partial (A := exDefs exArgs 0 9 ts) (C := exDefs exArgs.reverse 0 9 ts)
    (exDefs_proper h1 h2 (by decide +kernel)) (exDefs_proper h1 h2 (by decide +kernel))
    (List.reverse_perm _) (show (exArgs.map ArgDef.name).Nodup by decide +kernel) rfl rfl rfl exAW_fresh exAW_reliable exAW_fresh exAW_reliable
    0 0 true
  exact ⟨rA, rC, h3, h4, h5⟩

/-- Two definitions of `-o`, the second one is required. -/
def exTwice : List ArgDef := [⟨tokOf "-o", false, false⟩, ⟨tokOf "-o", false, true⟩]

example : ∃ r, argParseEx exAW (exDefs exTwice 0 9 ["-o", "x", "-o", "y"]) true (some 0) = .ret r ∧
    r.status = stRequiredArgMissing ∧ r.tok = .ptr (tokOf "-o") := by
  obtain ⟨r, h1, h2, _⟩ := argParse_reliable (a := 0) (cfg := exDefs exTwice 0 9 ["-o", "x", "-o", "y"])
    (exDefs_proper (by decide +kernel) (by decide +kernel) (by decide +kernel)) exAW_fresh exAW_reliable true
  have e : verdict true (exDefs exTwice 0 9 ["-o", "x", "-o", "y"]) =
      .error stRequiredArgMissing (some (tokOf "-o")) := by decide +kernel
  rw [e] at h2
  exact ⟨r, h1, h2.1, h2.2.2⟩

example (ts : List String) (h1 : ∀ t ∈ ts, 0#8 ∉ tokOf t)
    (h2 : (ts.length + 2 + ((("prog" :: ts).map tokOf).map List.length).sum) * 2 * 80 < 18446744073709551616)
    {r : ArgResult} (h : argParseEx exAW (exDefs exTwice 0 9 ts) true (some 0) = .ret r) :
    failed r.status = true :=
  C164_negation_duplicate (exDefs_proper h1 h2 (by decide +kernel)) (i := 0) (j := 1)
    (e := ⟨tokOf "-o", false, false⟩) (d := ⟨tokOf "-o", false, true⟩) (by decide) rfl rfl rfl rfl exAW_fresh h

example : ∃ r xs, argParseEx exAW (exDefs (exArgs ++ exArgs.take 4) 0 9 ["-a", "--output", "f"]) true (some 0) =
      .ret r ∧ output r = .ret xs ∧ ∀ x j, some x ∈ xs → x.defn = some j → j < 6 := by
  obtain ⟨r, h1, h2, _⟩ := argParse_reliable (a := 0)
    (cfg := exDefs (exArgs ++ exArgs.take 4) 0 9 ["-a", "--output", "f"])
    (exDefs_proper (by decide +kernel) (by decide +kernel) (by decide +kernel)) exAW_fresh exAW_reliable true
  have e : verdict true (exDefs (exArgs ++ exArgs.take 4) 0 9 ["-a", "--output", "f"]) =
      .ok [.opt 0 none, .plain (tokOf "-a"), .opt 5 (some (tokOf "f"))] := by decide +kernel
  rw [e] at h2
  obtain ⟨xs, h3, h4⟩ := C164_first_definition
    (exDefs_proper (by decide +kernel) (by decide +kernel) (by decide +kernel)) exAW_fresh h1
    (by rw [h2.1]; exact failed_success)
  refine ⟨r, xs, h1, h3, fun x j hx hj => ?_⟩
  obtain ⟨d, h5, h6⟩ := h4 x j hx hj
  rcases Nat.lt_or_ge j 6 with h | h
  · exact h
  · exfalso
    have hlt : j < 10 := (List.getElem?_eq_some_iff.1 h5).1
    have : ∀ k, k < 10 → 6 ≤ k → ∀ d', (exArgs ++ exArgs.take 4)[k]? = some d' →
        ∃ e, (exArgs ++ exArgs.take 4)[k - 6]? = some e ∧ e.name = d'.name := by decide +kernel
    obtain ⟨e, h7, h8⟩ := this j hlt h d h5
    exact h6 (j - 6) e (by omega) h7 h8

end Zy
