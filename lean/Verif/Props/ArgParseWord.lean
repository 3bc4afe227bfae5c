import Verif.Lemmas.ArgParseWord
import Verif.Props.ArgParse

/-!
# Property theorems about the argument parser on targets with another width of `size_t` (C178)

`argParseExW m sz` is the parser on a target whose `size_t` has `m` values and whose struct of a parsed
argument has `sz` bytes. `ArgFits` and `SameParse` are in `Verif.Spec.ArgParseWord`.
-/

namespace Zy

open Zy.Spec

/-- C178 (the parameters are the target): with `2^64` values and a struct of 80 bytes, it is the parser of
the other properties, for every command line and every allocator. -/
theorem C178_is_64 (w : World AArg) (cfg : ArgConfig) (want : Bool) (allocator : Option Nat) :
    argParseExW 18446744073709551616 80 w cfg want allocator = argParseEx w cfg want allocator :=
  argParseExW_64 w cfg want allocator

/-- C178 (portability): two targets parse every command line that fits into both of them alike. Whatever
the allocator does, they return the same status, error token and arguments, and they make the same requests
to the allocator (if the behaviour is undefined, which C52 excludes for proper command lines, then it is on
both). -/
theorem C178_portable {m sz m' sz' : Nat} {cfg : ArgConfig} (h : ArgFits m sz cfg)
    (h' : ArgFits m' sz' cfg) (w : World AArg) (want : Bool) (allocator : Option Nat) :
    (∃ r r', argParseExW m sz w cfg want allocator = .ret r ∧
      argParseExW m' sz' w cfg want allocator = .ret r' ∧ SameParse r r') ∨
    ∃ u, argParseExW m sz w cfg want allocator = .ub u ∧
      argParseExW m' sz' w cfg want allocator = .ub u := by
  have hb := tokenRoom_zero cfg
  have F : AFit m sz (tokenRoom cfg 0 + 1) := ⟨h.struct, by omega, by
    have := h.small
    rw [hb, Nat.mul_comm 2]
    rw [show cfg.argv.length + (cfg.argv.map List.length).sum + 1 =
      cfg.argv.length + 1 + (cfg.argv.map List.length).sum by omega]
    exact this⟩
  have F' : AFit m' sz' (tokenRoom cfg 0 + 1) := ⟨h'.struct, by omega, by
    have := h'.small
    rw [hb, Nat.mul_comm 2]
    rw [show cfg.argv.length + (cfg.argv.map List.length).sum + 1 =
      cfg.argv.length + 1 + (cfg.argv.map List.length).sum by omega]
    exact this⟩
  have hr := argParseExW_rel F F' (cfg := cfg) (Nat.le_refl _) (by rw [h.argc, hb]; omega) w want allocator
  cases h1 : argParseExW m sz w cfg want allocator with
  | ret r =>
    cases h2 : argParseExW m' sz' w cfg want allocator with
    | ret r' =>
      rw [h1, h2] at hr
      exact Or.inl ⟨r, r', rfl, rfl, RRel.same hr⟩
    | ub u => rw [h1, h2] at hr; exact hr.elim
  | ub u =>
    cases h2 : argParseExW m' sz' w cfg want allocator with
    | ret r' => rw [h1, h2] at hr; exact hr.elim
    | ub u' =>
      rw [h1, h2] at hr
      have : u = u' := hr
      exact Or.inr ⟨u, rfl, by rw [this]⟩

/-- C178: on every target the parser follows the grammar of C52 (with the quirk recorded there) for every
command line that fits, unless the allocator refuses a request. -/
theorem C178_grammar {m sz : Nat} {cfg : ArgConfig} (H : ProperConfig cfg) (h : ArgFits m sz cfg) (a : Nat)
    {w : World AArg} (hw : Fresh w) (want : Bool) :
    ∃ r, argParseExW m sz w cfg want (some a) = .ret r ∧
      (Agrees want r (verdict true cfg) ∨
        failed r.status = true ∧ Event.refused a ∈ r.w.trace ∧ ∃ k, failed (w.oracle k) = true) := by
  obtain ⟨r, hr, ho⟩ := C52_grammar_with_quirk H a hw want
  have h64 : ArgFits 18446744073709551616 80 cfg := ⟨H.argc, by decide, H.small⟩
  rcases C178_portable h h64 w want (some a) with ⟨q, q', e1, e2, hs⟩ | ⟨u, -, e2⟩
  · rw [C178_is_64, hr] at e2
    cases e2
    refine ⟨q, e1, ?_⟩
    rcases ho with ho | ⟨h1, h2, h3⟩
    · left
      revert ho
      cases verdict true cfg with
      | ok is => intro ho; exact ⟨hs.status ▸ ho.1, hs.tok ▸ ho.2.1, hs.output ▸ ho.2.2⟩
      | error st t =>
        cases t with
        | none => intro ho; exact ⟨hs.status ▸ ho.1, ho.2.1, hs.tok ▸ ho.2.2⟩
        | some t => intro ho; exact ⟨hs.status ▸ ho.1, ho.2.1, hs.tok ▸ ho.2.2⟩
    · right
      refine ⟨hs.status ▸ h1, ?_, h3⟩
      have hm : requestOf (.refused a) ∈ r.w.trace.map requestOf := List.mem_map_of_mem h2
      rw [← hs.requests] at hm
      obtain ⟨e, he, heq⟩ := List.mem_map.1 hm
      cases e <;> first | cases heq | skip
      exact he
  · rw [C178_is_64, hr] at e2
    cases e2

/-- C178 (finding): on every target, if the structs of as many arguments as there are tokens do not fit into
a `size_t`, then the memory that the parser asks for is too small, and a command line of unnamed arguments
is written behind it. The number of tokens itself is a proper `size_t`, and the allocator did not refuse. -/
theorem C178_wraps {m sz n : Nat} (hz : 0 < sz) (hm : 2 * sz ≤ m) (hn : n < m) (hw : m ≤ n * sz)
    {cfg : ArgConfig} (hargc : cfg.argc = n) {c : Byte} (hc : c ≠ 0#8) (hargv : cfg.argv = List.replicate n [c])
    (hargs : cfg.args = []) (hmin : cfg.minUnnamed ≤ cfg.maxUnnamed) (hmax : n ≤ cfg.maxUnnamed)
    {w : World AArg} (hok : failed (w.oracle w.calls) = false) (want : Bool) (a : Nat) :
    argParseExW m sz w cfg want (some a) = .ub .oob := by
  have hg := granted_short hz hm hw
  have h1n : max 1 n = n := by omega
  have hinit : vecInitExW m w sz n false (some a) 2 4 =
      (w.oracle w.calls, some ⟨some a, 2, 4, 0, n, sz, false,
          some ⟨w.nextBlk, List.replicate (grantedCellsW m sz n) none⟩⟩,
        { w with calls := w.calls + 1, nextBlk := w.nextBlk + 1 }.log (.alloc a w.nextBlk sz n)) := by
    simp only [vecInitExW, allocateW, h1n]
    rw [if_neg (by omega)]
    simp only [hok, Bool.false_eq_true, if_false]
  have hloop := argLoopW_short (g := grantedCellsW m sz n) hn hg hargc
    (fun i _ hi => by rw [hargv, List.getElem?_replicate, if_pos hi]) hmax hc
    (grantedCellsW m sz n) n 0 (s := ⟨⟨some a, 2, 4, 0, n, sz, false,
          some ⟨w.nextBlk, List.replicate (grantedCellsW m sz n) none⟩⟩,
        { w with calls := w.calls + 1, nextBlk := w.nextBlk + 1 }.log (.alloc a w.nextBlk sz n)⟩)
    (by omega) (by omega) ⟨rfl, rfl, _, rfl, by simp⟩
  unfold argParseExW
  rw [if_neg (by omega), hargs, hargc, hinit]
  simp only [defsSyntaxOk, Out.bind, hok, Bool.not_true, Bool.false_eq_true, if_false]
  rw [show (1 : Nat) = 0 + 1 from rfl, hloop]

/-! ## Examples -/

/-- The command line of the examples, on a target with 32-bit pointers, where the struct has 40 bytes. -/
theorem exFits32 : ArgFits 4294967296 40
    (exCfg 0 9 ["-abofile", "x", "--output", "--", "-", "--", "-a"]) :=
  ⟨rfl, by decide, by decide +kernel⟩

theorem exFits16 : ArgFits 65536 20 (exCfg 0 9 ["-abofile", "x", "--output", "--", "-", "--", "-a"]) :=
  ⟨rfl, by decide, by decide +kernel⟩

example : ∃ r r',
    argParseExW 4294967296 40 exAW (exCfg 0 9 ["-abofile", "x", "--output", "--", "-", "--", "-a"]) true
      (some 3) = .ret r ∧
    argParseExW 65536 20 exAW (exCfg 0 9 ["-abofile", "x", "--output", "--", "-", "--", "-a"]) true
      (some 3) = .ret r' ∧ SameParse r r' := by
  rcases C178_portable exFits32 exFits16 exAW true (some 3) with h | ⟨u, h, -⟩
  · exact h
  · obtain ⟨r, hr, -⟩ := C178_grammar (exCfg_proper (by decide +kernel) (by decide +kernel)) exFits32 3
      exAW_fresh true
    rw [hr] at h
    cases h

example : (argParseExW 4294967296 40 exAW (exCfg 0 9 ["-ofile", "--output", "y", "z"]) true (some 3)).bind
      (fun r => .ret (r.status, r.tok, output r)) =
    .ret (stSuccess, .null, .ret ([.opt 4 (some (tokOf "file")), .opt 5 (some (tokOf "y")), .plain (tokOf "z")].map
      fun it => some (structOf it))) := by decide +kernel

/-- A target with 128 values of a `size_t`, and 5 tokens: the structs need 150 bytes, 22 are asked for. -/
example : argParseExW 128 30 exAW ⟨List.replicate 5 (tokOf "x"), 5, 0, 9, []⟩ true (some 3) = .ub .oob :=
  C178_wraps (n := 5) (by decide) (by decide) (by decide) (by decide) rfl (c := 120#8) (by decide) (by decide)
    rfl (by decide) (by decide) rfl true 3

end Zy
