import Verif.Lemmas.ArgParseDebug
import Verif.Props.BitsetRefuse
import Verif.Props.List
import Verif.Props.ArgParse
import Verif.Props.Destroyed

/-!
# C129: assertions of the bitset, list and argument parser functions

The functions whose names end in `D` are those of a build with assertions; `.ub .assertion` is the aborted
process. Allocators may grant or refuse every single request, caller buffers may be shorter than claimed, and
calls may fail half-way or go wrong otherwise: none of this is noticed by an assertion.
-/

namespace Zy

open Spec

variable {α : Type}

/-- C129, creation of bitsets, with any parameters (the growth factor is one byte). -/
theorem C129_bitset_init (w : World Byte) (n : Nat) (al : Option Nat) (g th : Nat) (hg : g ≤ 255)
    (b : Option (Block Byte)) (cap : Nat) :
    bsInitExD w n al g th ≠ .ub .assertion ∧ bsInitExD w n al g th = bsInitEx w n al g th ∧
    bsInitBufferD w n b cap ≠ .ub .assertion ∧ bsInitBufferD w n b cap = bsInitBuffer w n b cap := by
  have h1 := bsInitExD_eq w n al th hg
  have h2 := bsInitBufferD_eq w n b cap
  exact ⟨h1 ▸ quiet_bsInitEx _ _ _ _ _, h1, h2 ▸ quiet_bsInitBuffer _ _ _ _, h2⟩

/-- C129, calls that change one bitset, also with the bits of another one, and its destruction. -/
theorem C129_bitset {t : Bits} (h : BUsed t) :
    (∀ op, bsOpD t op ≠ .ub .assertion ∧ bsOpD t op = bsOp t op) ∧
    (∀ f u, BUsed u → bsPerformD f t u ≠ .ub .assertion ∧ bsPerformD f t u = bsPerform f t u) ∧
    bsDestroyD t ≠ .ub .assertion ∧ bsDestroyD t = bsDestroy t := by
  have hu := h.usable
  refine ⟨fun op => ?_, fun f u hv => ?_, ?_⟩
  · have e := bsOpD_eq hu op
    exact ⟨e ▸ quiet_bsOp _ _, e⟩
  · have e := bsPerformD_eq f hu hv.usable
    exact ⟨e ▸ quiet_bsPerform _ _ _, e⟩
  · have e := bsDestroyD_eq hu
    exact ⟨e ▸ quiet_bsDestroy _, e⟩

/-- C129, questions about a bitset. -/
theorem C129_bitset_read {t : Bits} (h : BUsed t) :
    (∀ i, bsTestD t i ≠ .ub .assertion ∧ bsTestD t i = bsTest t i) ∧
    bsCountD t ≠ .ub .assertion ∧ bsCountD t = bsCount t ∧
    bsAllD t ≠ .ub .assertion ∧ bsAllD t = bsAll t ∧ bsAnyD t ≠ .ub .assertion ∧ bsAnyD t = bsAny t ∧
    bsNoneD t ≠ .ub .assertion ∧ bsNoneD t = bsNone t := by
  have hu := h.usable
  have ec := bsCountD_eq hu
  have e1 : bsAllD t = bsAll t := bsScanD_eq hu _ _ _ _ _ _
  have e2 : bsAnyD t = bsAny t := bsScanD_eq hu _ _ _ _ _ _
  have e3 : bsNoneD t = bsNone t := bsScanD_eq hu _ _ _ _ _ _
  refine ⟨fun i => ?_, ec ▸ quiet_bsCount _, ec, e1 ▸ quiet_bsScan _ _ _ _ _ _ _, e1,
    e2 ▸ quiet_bsScan _ _ _ _ _ _ _, e2, e3 ▸ quiet_bsScan _ _ _ _ _ _ _, e3⟩
  have e := bsTestD_eq hu i
  exact ⟨e ▸ quiet_bsTest _ _, e⟩

/-- C129, lists: all calls, also with node and element pointers that are not valid, and the destruction. -/
theorem C129_list {s : LS α} (h : LUsed s) :
    (∀ op, listOpD s op ≠ .ub .assertion ∧ listOpD s op = listOp s op) ∧
    (∀ p x, listSetNodeDataD s p x ≠ .ub .assertion ∧ listSetNodeDataD s p x = listSetNodeData s p x) ∧
    (∀ n x, listResizeExD s n x ≠ .ub .assertion ∧ listResizeExD s n x = listResizeEx s n x) ∧
    listDestroyD s ≠ .ub .assertion ∧ listDestroyD s = listDestroy s := by
  have hz := h.esz
  refine ⟨fun op => ?_, fun p x => ?_, fun n x => ?_, ?_⟩
  · have e := listOpD_eq hz op
    exact ⟨e ▸ quiet_listOp _ _, e⟩
  · have e := listSetNodeDataD_eq hz p x
    exact ⟨e ▸ quiet_listSetNodeData _ _ _, e⟩
  · have e := listResizeExD_eq s n x
    exact ⟨e ▸ quiet_listResizeEx _ _ _, e⟩
  · have e := listDestroyD_eq hz
    exact ⟨e ▸ quiet_listDestroy _, e⟩

/-- C129, the argument parser, for every configuration, well-formed or not. -/
theorem C129_args (w : World AArg) (cfg : ArgConfig) (want : Bool) (al : Option Nat) :
    argParseExD w cfg want al ≠ .ub .assertion ∧ argParseExD w cfg want al = argParseEx w cfg want al := by
  have e := argParseExD_eq w cfg want al
  exact ⟨e ▸ quiet_argParseEx _ _ _ _, e⟩

/-- C127 is false for every bitset in builds with assertions. -/
theorem C127_bitset_assertion_negation {P : Params} {t : Bits} (h : BAny P t) :
    ∃ t', bsDestroy t = .ret (stSuccess, t') ∧ bsDestroyD t' = .ub .assertion := by
  obtain ⟨_, bytes, c, b, sl, R⟩ := h.sound
  obtain ⟨s', h1, h2⟩ := destroyN_ok R defaultNullFree
  have hdata : s'.v.data = none := by rw [vecDestroyN_v h1]
  refine ⟨{ t with s := s' }, by simp [bsDestroy, h2], ?_⟩
  simp [bsDestroyD, vecDestroyD, assertUsable, assertThat, hdata]

/-! ## Examples -/

/-- Sixteen bits from an allocator that refuses its second request. -/
def exRefBits : Bits :=
  ⟨16, ⟨{ allocator := some 0, growth := 2, shrink := 2, size := 2, cap := 2, esz := 1, hasDtor := false,
          data := some ⟨0, [some 0#8, some 0#8]⟩ },
        ⟨fun k => if k = 1 then stNoMemory else stSuccess, 1, 1, [.alloc 0 0 1 2]⟩⟩⟩

theorem exRefBits_used : BUsed exRefBits :=
  BUsed.init (w := ⟨fun k => if k = 1 then stNoMemory else stSuccess, 0, 0, []⟩) (w' := exRefBits.s.w)
    (n := 16) (a := 0) (g := 2) (th := 2) (st := stSuccess) (by decide) (by cbv)

/-- The state after a push that was refused: the size says 17 bits, the capacity 6 bytes, and the memory has
two. -/
def exRefBits' : Bits :=
  ⟨17, ⟨{ exRefBits.s.v with cap := 6 },
        { exRefBits.s.w with calls := 2, trace := exRefBits.s.w.trace ++ [.refused 0] }⟩⟩

theorem exRefBits'_used : BUsed exRefBits' :=
  BUsed.step (op := .push true) (st := stNoMemory) exRefBits_used (by cbv)

/-- Eight more pushes reach the next byte boundary, where a store is out of bounds; no assertion fails. -/
example : runBits exRefBits' (List.replicate 8 (.push true)) = .ub .oob := by cbv
example : bsOpD exRefBits' (.push true) ≠ .ub .assertion := ((C129_bitset exRefBits'_used).1 _).1
example : bsTestD exRefBits' 16 = .ret stOutOfRange := by
  rw [((C129_bitset_read exRefBits'_used).1 16).2]; cbv
example : bsInitExD exBW 5 (some 0) 2 2 ≠ .ub .assertion :=
  (C129_bitset_init _ _ _ _ _ (by decide) none 0).1

/-- A list whose allocator never takes memory back. -/
def exStuck : LS Nat := ⟨exLDyn.l, fun _ => none, { exLW with freeSt := fun _ => stNoMemory }⟩

theorem exStuck_used : LUsed exStuck :=
  LUsed.init (esz := 8) (a := 0) (dtor := true) (st := stSuccess) rfl

example : listOpD exStuck (.pushBack (some 1)) ≠ .ub .assertion := ((C129_list exStuck_used).1 _).1
/-- A value is stored into a node that does not exist. -/
example : listSetNodeDataD exStuck (some 77) (.ext (some 1)) = .ub .uaf := by
  rw [((C129_list exStuck_used).2.1 _ _).2]; rfl
/-- Two elements are pushed, the first removal fails because the memory is not taken back, the list is
shortened and destroyed. -/
example : (runList exStuck [.pushBack (some 1), .pushBack (some 2), .popBack, .resize 0 none]).bind
    (fun r => .ret r.1) = .ret [stSuccess, stSuccess, stNoMemory, stNoMemory] := by decide +kernel

example : argParseExD (exRefuse 1) (exCfg 0 9 ["-ab", "-ab"]) true (some 3) ≠ .ub .assertion :=
  (C129_args _ _ _ _).1
example : argParseExD exAW ⟨[], 3, 0, 1, []⟩ true (some 3) = .ub .oob := by
  rw [(C129_args _ _ _ _).2]; rfl

example : ∃ t', bsDestroy exOdd = .ret (stSuccess, t') ∧ bsDestroyD t' = .ub .assertion :=
  C127_bitset_assertion_negation exOdd_any

end Zy
