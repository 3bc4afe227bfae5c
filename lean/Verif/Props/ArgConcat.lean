import Verif.Lemmas.ArgConcat
import Verif.Props.ArgParse

/-!
# Property theorems: command lines written one behind the other

The parser is `argParseEx` (`src/ArgParse.c` 44-277). `ProperConfig` and `output` are in
`Verif.Spec.ArgParseRun`.
-/

namespace Zy

open Zy.Spec

/-! ## C158: concatenated command lines -/

/-- **C158**: if two command lines are parsed successfully with the same option definitions, and the
first one has no token `--`, then the parse of both written one behind the other succeeds, if its
limits are not stricter than the sums of the limits, and its output is the output of the first one
followed by the output of the second one. The program name, the allocator and whether an error token
is wanted make no difference. -/
theorem C158_concatenation {A B C : ArgConfig} (HA : ProperConfig A) (HB : ProperConfig B)
    (HC : ProperConfig C) (hBA : B.args = A.args) (hCA : C.args = A.args)
    (ht : C.argv.tail = A.argv.tail ++ B.argv.tail) (hd : dashDash ∉ A.argv.tail)
    (hmin : C.minUnnamed ≤ A.minUnnamed + B.minUnnamed)
    (hmax : A.maxUnnamed + B.maxUnnamed ≤ C.maxUnnamed)
    {wA wB wC : World AArg} (hwA : Fresh wA) (hwB : Fresh wB) (hwC : Fresh wC) (hr : Reliable wC)
    {a b : Nat} (c : Nat) {wantA wantB : Bool} (wantC : Bool) {rA rB : ArgResult}
    (hA : argParseEx wA A wantA (some a) = .ret rA) (sA : failed rA.status = false)
    (hB : argParseEx wB B wantB (some b) = .ret rB) (sB : failed rB.status = false) :
    ∃ rC xs ys, argParseEx wC C wantC (some c) = .ret rC ∧ rC.status = stSuccess ∧
      output rA = .ret xs ∧ output rB = .ret ys ∧ output rC = .ret (xs ++ ys) := by
  obtain ⟨xs, vA, _, oA⟩ := argParse_success HA hwA hA sA
  obtain ⟨ys, vB, _, oB⟩ := argParse_success HB hwB hB sB
  obtain ⟨rC, h1, h2, _⟩ := argParse_reliable HC (a := c) hwC hr wantC
  rw [verdict_concat vA vB hBA hCA ht hd hmin hmax] at h2
  refine ⟨rC, _, _, h1, h2.1, oA, oB, ?_⟩
  rw [h2.2.2, List.map_append]

/-- Two command lines; the first one ends with an option and its value, the second one uses `--`. -/
example : ∃ rA rB rC xs ys,
    argParseEx exAW (exCfg 1 2 ["x", "--output", "f"]) true (some 0) = .ret rA ∧
    argParseEx exAW (exCfg 0 3 ["-ab", "--output", "-a", "--", "-c"]) false (some 7) = .ret rB ∧
    argParseEx exAW (exCfg 1 6 ["x", "--output", "f", "-ab", "--output", "-a", "--", "-c"]) true
      (some 2) = .ret rC ∧ rC.status = stSuccess ∧ xs.length = 2 ∧ ys.length = 5 ∧
      output rA = .ret xs ∧ output rB = .ret ys ∧ output rC = .ret (xs ++ ys) := by
  have HA : ProperConfig (exCfg 1 2 ["x", "--output", "f"]) :=
    exCfg_proper (by decide +kernel) (by decide +kernel)
  have HB : ProperConfig (exCfg 0 3 ["-ab", "--output", "-a", "--", "-c"]) :=
    exCfg_proper (by decide +kernel) (by decide +kernel)
  have eA : verdict true (exCfg 1 2 ["x", "--output", "f"]) =
    .ok [.plain (tokOf "x"), .opt 5 (some (tokOf "f"))] := by decide +kernel
  have eB : verdict true (exCfg 0 3 ["-ab", "--output", "-a", "--", "-c"]) =
    .ok [.opt 0 none, .opt 1 none, .plain (tokOf "-ab"), .opt 5 (some (tokOf "-a")),
      .plain (tokOf "-c")] := by decide +kernel
  obtain ⟨rA, a1, a2, _⟩ := argParse_reliable HA (a := 0) exAW_fresh exAW_reliable true
  obtain ⟨rB, b1, b2, _⟩ := argParse_reliable HB (a := 7) exAW_fresh exAW_reliable false
  rw [eA] at a2
  rw [eB] at b2
  obtain ⟨rC, xs, ys, h1, h2, h3, h4, h5⟩ := C158_concatenation HA HB
    (C := exCfg 1 6 ["x", "--output", "f", "-ab", "--output", "-a", "--", "-c"])
    (exCfg_proper (by decide +kernel) (by decide +kernel)) rfl rfl (by decide +kernel)
    (by decide +kernel) (by decide) (by decide) exAW_fresh exAW_fresh exAW_fresh exAW_reliable 2 true
    a1 (by rw [a2.1]; rfl) b1 (by rw [b2.1]; rfl)
  have e3 := h3
  have e4 := h4
  rw [a2.2.2] at e3
  rw [b2.2.2] at e4
  injection e3 with e3
  injection e4 with e4
  exact ⟨rA, rB, rC, xs, ys, a1, b1, h1, h2, by rw [← e3]; rfl, by rw [← e4]; rfl, h3, h4, h5⟩

/-- The condition on `--` is needed: behind it, the option of the second command line is an unnamed
argument. -/
example :
    verdict true (exCfg 0 9 ["--output", "f", "--"]) = .ok [.opt 5 (some (tokOf "f"))] ∧
    verdict true (exCfg 0 9 ["--output", "g"]) = .ok [.opt 5 (some (tokOf "g"))] ∧
    verdict true (exCfg 0 18 ["--output", "f", "--", "--output", "g"]) =
      .ok [.opt 5 (some (tokOf "f")), .plain (tokOf "--output"), .plain (tokOf "g")] := by
  decide +kernel

/-- **C158**, the order of two command lines: if both can be parsed and neither has a token `--`, then
both orders are accepted, and the outputs are permutations of each other. -/
theorem C158_exchange {A B C D : ArgConfig} (HA : ProperConfig A) (HB : ProperConfig B)
    (HC : ProperConfig C) (HD : ProperConfig D) (hBA : B.args = A.args) (hCA : C.args = A.args)
    (hDA : D.args = A.args) (htC : C.argv.tail = A.argv.tail ++ B.argv.tail)
    (htD : D.argv.tail = B.argv.tail ++ A.argv.tail)
    (hdA : dashDash ∉ A.argv.tail) (hdB : dashDash ∉ B.argv.tail)
    (hminC : C.minUnnamed ≤ A.minUnnamed + B.minUnnamed)
    (hmaxC : A.maxUnnamed + B.maxUnnamed ≤ C.maxUnnamed)
    (hminD : D.minUnnamed ≤ A.minUnnamed + B.minUnnamed)
    (hmaxD : A.maxUnnamed + B.maxUnnamed ≤ D.maxUnnamed)
    {wA wB w : World AArg} (hwA : Fresh wA) (hwB : Fresh wB) (hw : Fresh w) (hr : Reliable w)
    {a b : Nat} (c : Nat) {wantA wantB : Bool} (want : Bool) {rA rB : ArgResult}
    (hA : argParseEx wA A wantA (some a) = .ret rA) (sA : failed rA.status = false)
    (hB : argParseEx wB B wantB (some b) = .ret rB) (sB : failed rB.status = false) :
    ∃ rC rD xs ys, argParseEx w C want (some c) = .ret rC ∧ rC.status = stSuccess ∧
      argParseEx w D want (some c) = .ret rD ∧ rD.status = stSuccess ∧
      output rC = .ret xs ∧ output rD = .ret ys ∧ xs.Perm ys := by
  obtain ⟨rC, xs, ys, c1, c2, c3, c4, c5⟩ := C158_concatenation HA HB HC hBA hCA htC hdA hminC hmaxC
    hwA hwB hw hr c want hA sA hB sB
  obtain ⟨rD, ys', xs', d1, d2, d3, d4, d5⟩ := C158_concatenation HB HA HD hBA.symm
    (hDA.trans hBA.symm) htD hdB (by omega) (by omega) hwB hwA hw hr c want hB sB hA sA
  rw [c4] at d3
  rw [c3] at d4
  injection d3 with d3
  injection d4 with d4
  subst d3 d4
  exact ⟨rC, rD, _, _, c1, c2, d1, d2, c5, d5, List.perm_append_comm⟩

example : ∃ rC rD xs ys,
    argParseEx exAW (exCfg 1 6 ["x", "--output", "f", "-ab", "--output", "-a"]) true (some 2) =
      .ret rC ∧ rC.status = stSuccess ∧
    argParseEx exAW (exCfg 1 6 ["-ab", "--output", "-a", "x", "--output", "f"]) true (some 2) =
      .ret rD ∧ rD.status = stSuccess ∧ output rC = .ret xs ∧ output rD = .ret ys ∧ xs.Perm ys := by
  have HA : ProperConfig (exCfg 1 2 ["x", "--output", "f"]) :=
    exCfg_proper (by decide +kernel) (by decide +kernel)
  have HB : ProperConfig (exCfg 0 3 ["-ab", "--output", "-a"]) :=
    exCfg_proper (by decide +kernel) (by decide +kernel)
  have eA : verdict true (exCfg 1 2 ["x", "--output", "f"]) =
    .ok [.plain (tokOf "x"), .opt 5 (some (tokOf "f"))] := by decide +kernel
  have eB : verdict true (exCfg 0 3 ["-ab", "--output", "-a"]) =
    .ok [.opt 0 none, .opt 1 none, .plain (tokOf "-ab"), .opt 5 (some (tokOf "-a"))] := by
    decide +kernel
  obtain ⟨rA, a1, a2, _⟩ := argParse_reliable HA (a := 0) exAW_fresh exAW_reliable true
  obtain ⟨rB, b1, b2, _⟩ := argParse_reliable HB (a := 7) exAW_fresh exAW_reliable false
  rw [eA] at a2
  rw [eB] at b2
  exact C158_exchange HA HB
    (C := exCfg 1 6 ["x", "--output", "f", "-ab", "--output", "-a"])
    (D := exCfg 1 6 ["-ab", "--output", "-a", "x", "--output", "f"])
    (exCfg_proper (by decide +kernel) (by decide +kernel))
    (exCfg_proper (by decide +kernel) (by decide +kernel)) rfl rfl rfl (by decide +kernel)
    (by decide +kernel) (by decide +kernel) (by decide +kernel) (by decide) (by decide) (by decide)
    (by decide) exAW_fresh exAW_fresh exAW_fresh exAW_reliable 2 true
    a1 (by rw [a2.1]; rfl) b1 (by rw [b2.1]; rfl)

/-- **C158**, wider limits: a command line that is accepted is accepted with a lower minimum and a
higher maximum of unnamed arguments as well, with the same output. -/
theorem C158_wider_limits {A C : ArgConfig} (HA : ProperConfig A) (HC : ProperConfig C)
    (hCA : C.args = A.args) (ht : C.argv.tail = A.argv.tail) (hmin : C.minUnnamed ≤ A.minUnnamed)
    (hmax : A.maxUnnamed ≤ C.maxUnnamed) {wA wC : World AArg} (hwA : Fresh wA) (hwC : Fresh wC)
    (hr : Reliable wC) {a : Nat} (c : Nat) {wantA : Bool} (wantC : Bool) {rA : ArgResult}
    (hA : argParseEx wA A wantA (some a) = .ret rA) (sA : failed rA.status = false) :
    ∃ rC, argParseEx wC C wantC (some c) = .ret rC ∧ rC.status = stSuccess ∧
      output rC = output rA := by
  obtain ⟨xs, vA, _, oA⟩ := argParse_success HA hwA hA sA
  obtain ⟨rC, h1, h2, _⟩ := argParse_reliable HC (a := c) hwC hr wantC
  rw [verdict_wider vA hCA ht hmin hmax] at h2
  exact ⟨rC, h1, h2.1, by rw [h2.2.2, oA]⟩

example : ∃ rA rC, argParseEx exAW (exCfg 1 1 ["x", "--output", "f"]) true (some 0) = .ret rA ∧
    argParseEx exAW (exCfg 0 5 ["x", "--output", "f"]) false (some 1) = .ret rC ∧
    rC.status = stSuccess ∧ output rC = output rA := by
  have HA : ProperConfig (exCfg 1 1 ["x", "--output", "f"]) :=
    exCfg_proper (by decide +kernel) (by decide +kernel)
  have eA : verdict true (exCfg 1 1 ["x", "--output", "f"]) =
    .ok [.plain (tokOf "x"), .opt 5 (some (tokOf "f"))] := by decide +kernel
  obtain ⟨rA, a1, a2, _⟩ := argParse_reliable HA (a := 0) exAW_fresh exAW_reliable true
  rw [eA] at a2
  obtain ⟨rC, h⟩ := C158_wider_limits HA (C := exCfg 0 5 ["x", "--output", "f"])
    (exCfg_proper (by decide +kernel) (by decide +kernel)) rfl rfl (by decide) (by decide) exAW_fresh
    exAW_fresh exAW_reliable 1 false a1 (by rw [a2.1]; rfl)
  exact ⟨rA, rC, a1, h⟩

end Zy
