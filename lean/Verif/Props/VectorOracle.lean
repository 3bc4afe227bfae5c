import Verif.Lemmas.VectorOracle
import Verif.Spec.VectorAnyAllocator
import Verif.Props.Vector

/-!
# Property theorems about vectors with an arbitrary allocator (C141)
-/

namespace Zy

open Spec

variable {α : Type}

/-- C141: take any calls that are defined with an allocator that grants everything, and make them with an
allocator that answers however it likes (`o`). For some `n`, the first `n` calls return the same statuses
and leave the same vector, the same memory and the same trace of requests. Either these are all calls, or
the next call returns what the allocator answered, and that was a failure. They are all calls exactly if
no request is refused that is made with the granting allocator. -/
theorem C141_same_until_refusal {s r : VS α} (hs : Reliable s.w) {ops : List (VOp α)} {sts : List Status}
    (hrun : runVec s ops = .ret (sts, r)) (o : Nat → Status) :
    ∃ n q, runVec s (ops.take n) = .ret (sts.take n, q) ∧
      runVec (answering o s) (ops.take n) = .ret (sts.take n, answering o q) ∧
      (n = ops.length ∨ ∃ op st s', ops[n]? = some op ∧ st = o q.w.calls ∧ failed st = true ∧
        vecOp (answering o q) op = .ret (st, s')) ∧
      (n = ops.length ↔ ∀ k, s.w.calls ≤ k → k < r.w.calls → failed (o k) = false) := by
  induction ops generalizing s sts r with
  | nil =>
    simp only [runVec, Out.ret.injEq, Prod.mk.injEq] at hrun
    obtain ⟨rfl, rfl⟩ := hrun
    refine ⟨0, s, rfl, rfl, Or.inl rfl, fun _ k h1 h2 => ?_, fun _ => rfl⟩
    omega
  | cons op ops ih =>
    simp only [runVec] at hrun
    cases hop : vecOp s op with
    | ub u => rw [hop] at hrun; simp at hrun
    | ret a =>
      rw [hop, Out.ret_bind'] at hrun
      cases hrest : runVec a.2 ops with
      | ub u => rw [hrest] at hrun; simp at hrun
      | ret b =>
        rw [hrest, Out.ret_bind'] at hrun
        simp only [Out.ret.injEq, Prod.mk.injEq] at hrun
        obtain ⟨rfl, rfl⟩ := hrun
        have hrel : Reliable a.2.w := vecOp_reliable hs hop
        have hmono := runVec_calls hrel hrest
        rcases (vecOp_tracks (s := s) (hs _) o op).cases hop with ⟨ht, hk⟩ | ⟨hf, ⟨s', ht⟩, hk⟩
        · have ht' : vecOp (answering o s) op = .ret (a.1, answering o a.2) := ht
          obtain ⟨n, q, h1, h2, h3, h4⟩ := ih hrel hrest
          refine ⟨n + 1, q, ?_, ?_, ?_, ?_⟩
          · simp only [List.take_succ_cons, runVec, hop, Out.ret_bind', h1]
          · simp only [List.take_succ_cons, runVec, ht', Out.ret_bind', h2]
          · rcases h3 with h3 | ⟨op', st, s', h3, h5⟩
            · left; simp [h3]
            · right; exact ⟨op', st, s', by simpa using h3, h5⟩
          · rw [List.length_cons, Nat.add_right_cancel_iff, h4]
            constructor
            · intro h k h5 h6
              rcases hk with hk | ⟨hk, hg⟩
              · exact h k (by omega) h6
              · by_cases hks : k = s.w.calls
                · rw [hks]; exact hg
                · exact h k (by omega) h6
            · intro h k h5 h6
              exact h k (by omega) h6
        · refine ⟨0, s, rfl, rfl, Or.inr ⟨op, o s.w.calls, s', rfl, rfl, hf, ht⟩, ?_, ?_⟩
          · intro h; simp at h
          · intro h
            have := h s.w.calls (Nat.le_refl _) (by omega)
            rw [hf] at this
            cases this

/-- The calls of `exOps` meet the hypotheses, for every allocator. -/
example (o : Nat → Status) : ∃ sts r, runVec exS exOps = .ret (sts, r) ∧ ∃ n q,
    runVec (answering o exS) (exOps.take n) = .ret (sts.take n, answering o q) := by
  cases h : runVec exS exOps with
  | ub u =>
    exfalso
    have : (runVec exS exOps).bind (fun r => contents r.2) = .ret [some 5, some 2, some 20] := by decide
    rw [h] at this
    simp at this
  | ret r =>
    obtain ⟨n, q, _, h2, _⟩ := C141_same_until_refusal (s := exS) (fun _ => failed_success) h o
    exact ⟨r.1, r.2, rfl, n, q, h2⟩

/-- A vector of capacity four with three elements: the second push asks for memory and is refused. -/
example : (runVec (answering (fun _ => stNoMemory) exS) [.push (some 1), .push (some 2)]).bind
    (fun r => .ret r.1) = .ret [stSuccess, stNoMemory] := by decide

/-- After the refusal the two worlds differ: the next push writes behind the block (see C04). -/
example : (runVec (answering (fun _ => stNoMemory) exS) [.push (some 1), .push (some 2), .push (some 3)]).bind
    (fun r => .ret r.1) = .ub .oob := by decide

end Zy
