import Verif.Lemmas.AnyAllocator
import Verif.Props.String
import Verif.Props.Bitset

/-!
# Property theorems about strings and bitsets with an arbitrary allocator (C143, C144)
-/

namespace Zy

open Spec

/-! ## C143: strings -/

/-- C143: take any calls on a string that are defined with an allocator that grants everything, and make
them with an allocator that answers however it likes (`o`). For some `n`, the first `n` calls return the
same statuses and leave the same string, the same memory and the same trace of requests. Either these are
all calls, or the next call returns the first refusal among the answers to the requests it makes. They are
all calls exactly if no request is refused that is made with the granting allocator. -/
theorem C143_strings_until_refusal {t r : Str} (ht : Reliable t.s.w) {cs : List SCall} {sts : List Status}
    (hrun : runCalls t cs = .ret (sts, r)) (o : Nat → Status) :
    ∃ n q, runCalls t (cs.take n) = .ret (sts.take n, q) ∧
      runCalls (answeringStr o t) (cs.take n) = .ret (sts.take n, answeringStr o q) ∧
      (n = cs.length ∨ ∃ c i t', cs[n]? = some c ∧ q.s.w.calls ≤ i ∧
        (∀ j, q.s.w.calls ≤ j → j < i → failed (o j) = false) ∧ failed (o i) = true ∧
        stringCall (answeringStr o q) c = .ret (o i, t')) ∧
      (n = cs.length ↔ ∀ k, t.s.w.calls ≤ k → k < r.s.w.calls → failed (o k) = false) := by
  rw [runCalls_eq] at hrun
  obtain ⟨_, n, q, h1, h2, h3, h4⟩ := runSteps_until (ρ := t.s.w.oracle) (o := o) (step := stringCall)
    (fun s c h => stringCall_obeys ht h c) rfl hrun
  refine ⟨n, q, ?_, ?_, h3, h4⟩
  · rw [runCalls_eq]; exact h1
  · rw [runCalls_eq]; exact h2

/-- Formatting with a sign and a prefix, a formatted text, and plain text. -/
def exCalls : List SCall :=
  [.op (.append ((chars ['x', '=']).map some)),
   .hexS (BitVec.ofInt 64 (-255)) 4 true false (some ⟨[some 48#8, some 120#8, some 0#8], 3⟩),
   .format fun _ => .text (chars (List.replicate 30 '.')),
   .decU 7 3, .op (.delete 0 4), .op (.truncate 9)]

example : (runCalls exStr exCalls).bind (fun r => .ret (r.1, textOf r.2, r.2.s.w.calls)) =
    .ret (List.replicate 6 stSuccess, (chars ['x', '=', '-', '0', 'x', '0', '0', 'F', 'F']).map some, 4) := by
  decide +kernel

/-- These calls meet the hypotheses, for every allocator. -/
example (o : Nat → Status) : ∃ sts r, runCalls exStr exCalls = .ret (sts, r) ∧ ∃ n q,
    runCalls (answeringStr o exStr) (exCalls.take n) = .ret (sts.take n, answeringStr o q) := by
  cases h : runCalls exStr exCalls with
  | ub u =>
    exfalso
    have : (runCalls exStr exCalls).bind (fun r => .ret r.1) = .ret (List.replicate 6 stSuccess) := by
      decide +kernel
    rw [h] at this
    simp at this
  | ret r =>
    obtain ⟨n, q, _, h2, _⟩ := C143_strings_until_refusal (t := exStr) (fun _ => failed_success) h o
    exact ⟨r.1, r.2, rfl, n, q, h2⟩

/-- Shrinking the storage is granted, the request for the formatted text is refused. -/
example : (runCalls (answeringStr (fun k => if k < 2 then stSuccess else stNoMemory) exStr) (exCalls.take 3)).bind (fun r => .ret r.1) =
    .ret [stSuccess, stSuccess, stNoMemory] := by decide +kernel

/-- A part of a history in the domain is in the domain. -/
theorem sAllInDomain_take {P : Params} {a : SState} {ops : List SOp} (h : SAllInDomain P a ops) (n : Nat) :
    SAllInDomain P a (ops.take n) := by
  induction h generalizing n with
  | nil a => simpa using SAllInDomain.nil a
  | cons hd _ ih =>
    cases n with
    | zero => exact .nil _
    | succ n => exact .cons hd fun j hj => ih j hj n

theorem runStr_runCalls (t : Str) (ops : List SOp) : runStr t ops = runCalls t (ops.map .op) := by
  induction ops generalizing t with
  | nil => rfl
  | cons op ops ih => simp only [runStr, runCalls, List.map_cons, stringCall, ih]

theorem SRep.granting {P : Params} {t : Str} {a : SState} {b : Block Byte} {sl : List (Cell Byte)}
    (R : SRep P t a b sl) : SRep P (answeringStr (fun _ => stSuccess) t) a b sl :=
  ⟨{ R.rep with reliable := fun _ _ => failed_success }, R.one, R.nod, R.fixed⟩

/-- C143: with any allocator, a string behaves like a sequence of characters until the first refusal: for
some `n` the first `n` calls return the statuses and leave the text and the storage size that the
specification gives, the string is terminated, and the call after them, if there is one, returns a refusal
of the allocator. -/
theorem C143_text_until_refusal {P : Params} {t : Str} (h : SReach P t) (ops : List SOp)
    (hd : SAllInDomain P (sabsOf t) ops) (o : Nat → Status) :
    ∃ n sts q a, n ≤ ops.length ∧ runStr (answeringStr o t) (ops.take n) = .ret (sts, q) ∧
      SRuns P (sabsOf t) (ops.take n) sts a ∧ textOf q = a.text ∧ q.s.v.cap = a.bytes ∧ Terminated q ∧
      (n = ops.length ∨ ∃ op i t', ops[n]? = some op ∧ q.s.w.calls ≤ i ∧ failed (o i) = true ∧
        strOp q op = .ret (o i, t')) := by
  obtain ⟨_, _, R0⟩ := h.rep
  have R := R0.granting
  obtain ⟨sts, r, _, _, _, hrun, _, _⟩ := runStr_ok ops R hd
  rw [runStr_runCalls] at hrun
  obtain ⟨n, q, h1, h2, h3, _⟩ := C143_strings_until_refusal (fun _ => failed_success) hrun o
  have hmap : (ops.map SCall.op).take n = (ops.take n).map SCall.op := List.map_take.symm
  rw [hmap, ← runStr_runCalls] at h1 h2
  obtain ⟨sts', r', a', b', sl', hrun', hruns', R'⟩ := runStr_ok (ops.take n) R (sAllInDomain_take hd n)
  rw [h1, Out.ret.injEq, Prod.mk.injEq] at hrun'
  obtain ⟨rfl, rfl⟩ := hrun'
  have hlen : (ops.map SCall.op).length = ops.length := List.length_map ..
  rw [hlen] at h3
  rcases h3 with h3 | ⟨c, i, t', h3, h4, _, h6, h7⟩
  · exact ⟨n, _, answeringStr o q, a', by omega, h2, hruns', R'.textOf, R'.rep.cap, R'.terminated, Or.inl h3⟩
  · rw [List.getElem?_map] at h3
    cases hop : ops[n]? with
    | none => rw [hop] at h3; simp at h3
    | some op =>
      rw [hop] at h3
      simp only [Option.map_some, Option.some.injEq] at h3
      subst h3
      have hn : n < ops.length := (List.getElem?_eq_some_iff.1 hop).1
      exact ⟨n, _, answeringStr o q, a', by omega, h2, hruns', R'.textOf, R'.rep.cap, R'.terminated,
        Or.inr ⟨op, i, t', hop, h4, h6, h7⟩⟩

example (o : Nat → Status) : ∃ n sts q a, n ≤ exSOps.length ∧
    runStr (answeringStr o exStr) (exSOps.take n) = .ret (sts, q) ∧ textOf q = a.text ∧
    SRuns exSP (sabsOf exStr) (exSOps.take n) sts a :=
  let ⟨n, sts, q, a, h1, h2, h3, h4, _⟩ := C143_text_until_refusal exStr_reach exSOps exSOps_inDomain o
  ⟨n, sts, q, a, h1, h2, h4, h3⟩

/-! ## C144: bitsets -/

/-- C144: take any calls on a bitset that are defined with an allocator that grants everything, and make
them with an allocator that answers however it likes (`o`). For some `n`, the first `n` calls return the
same statuses and leave the same bitset, the same memory and the same trace of requests. Either these are
all calls, or the next call returns the first refusal among the answers to the requests it makes. They are
all calls exactly if no request is refused that is made with the granting allocator. -/
theorem C144_bitsets_until_refusal {t r : Bits} (ht : Reliable t.s.w) {cs : List BCall} {sts : List Status}
    (hrun : runBitsCalls t cs = .ret (sts, r)) (o : Nat → Status) :
    ∃ n q, runBitsCalls t (cs.take n) = .ret (sts.take n, q) ∧
      runBitsCalls (answeringBits o t) (cs.take n) = .ret (sts.take n, answeringBits o q) ∧
      (n = cs.length ∨ ∃ c i t', cs[n]? = some c ∧ q.s.w.calls ≤ i ∧
        (∀ j, q.s.w.calls ≤ j → j < i → failed (o j) = false) ∧ failed (o i) = true ∧
        bitsCall (answeringBits o q) c = .ret (o i, t')) ∧
      (n = cs.length ↔ ∀ k, t.s.w.calls ≤ k → k < r.s.w.calls → failed (o k) = false) := by
  rw [runBitsCalls_eq] at hrun
  obtain ⟨_, n, q, h1, h2, h3, h4⟩ := runSteps_until (ρ := t.s.w.oracle) (o := o) (step := bitsCall)
    (fun s c h => bitsCall_obeys ht h c) rfl hrun
  refine ⟨n, q, ?_, ?_, h3, h4⟩
  · rw [runBitsCalls_eq]; exact h1
  · rw [runBitsCalls_eq]; exact h2

/-- Pushes across byte boundaries, a combination with another bitset, and calls on all bits. -/
def exBCalls : List BCall :=
  List.replicate 22 (.op (.push true)) ++ [.logic (fun x y => (stSuccess, x ^^^ y)) exBits, .op .flip, .op .clear]

example : (runBitsCalls exBits exBCalls).bind (fun r => .ret (r.1, r.2.size, r.2.s.w.calls)) =
    .ret (List.replicate 25 stSuccess, 0, 4) := by decide +kernel

/-- These calls meet the hypotheses, for every allocator. -/
example (o : Nat → Status) : ∃ sts r, runBitsCalls exBits exBCalls = .ret (sts, r) ∧ ∃ n q,
    runBitsCalls (answeringBits o exBits) (exBCalls.take n) = .ret (sts.take n, answeringBits o q) := by
  cases h : runBitsCalls exBits exBCalls with
  | ub u =>
    exfalso
    have : (runBitsCalls exBits exBCalls).bind (fun r => .ret r.1) = .ret (List.replicate 25 stSuccess) := by
      decide +kernel
    rw [h] at this
    simp at this
  | ret r =>
    obtain ⟨n, q, _, h2, _⟩ := C144_bitsets_until_refusal (t := exBits) (fun _ => failed_success) h o
    exact ⟨r.1, r.2, rfl, n, q, h2⟩

/-- The first refused push is the one that needs a fifth byte. -/
example : (runBitsCalls (answeringBits (fun _ => stNoMemory) exBits) (exBCalls.take 22)).bind
    (fun r => .ret r.1) = .ret (List.replicate 21 stSuccess ++ [stNoMemory]) := by decide +kernel

end Zy
