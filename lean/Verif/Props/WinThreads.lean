import Verif.Lemmas.WinThreads
import Verif.Props.Guarded
import Verif.Props.LockOrder

/-!
# C171: programs with critical sections on Windows
-/

namespace Zy

open Spec

variable {S L : Type}

theorem SameG.start {a i : Option Errno} {st : Status} {m : Mutex} (hm : csInitialize a i = (st, some m)) (s : S)
    (loc : Nat → L) (progs : Nat → List (GSection S L)) :
    SameG (guardedStart m s loc progs) (winGuardedStart winCsInitialize.2 s loc progs) := by
  rw [csInitialize_some hm]
  exact ⟨⟨rfl, rfl, rfl⟩, rfl, rfl, rfl⟩

/-- **C171**, guarded data: a program as in C148 does the same on Windows as on a POSIX system, step by step: the same data, the
same variables, the same progress of the threads, the same thread inside of the section. -/
theorem C171_guarded {limit : Nat} {a i : Option Errno} {st : Status} {m : Mutex}
    (hm : csInitialize a i = (st, some m)) (s : S) (loc : Nat → L) (progs : Nat → List (GSection S L))
    (hN : ∀ t, ∀ b ∈ progs t, Nests limit 1 b.2) (sched : List Nat) :
    ∃ g v, guardedRun limit (guardedStart m s loc progs) sched = .ret g ∧
      winGuardedRun (winGuardedStart winCsInitialize.2 s loc progs) sched = .ret v ∧
      v.shared = g.shared ∧ v.thr = g.thr ∧ v.cs.owner = g.mutex.owner ∧ v.cs.count = g.mutex.count ∧
      v.refused = false := by
  have hs := SameG.start hm s loc progs
  rw [csInitialize_some hm] at *
  obtain ⟨g, v, e1, e2, h⟩ := SameG.run (limit := limit) sched (p := ⟨s, loc, progs⟩) hN GInv.start hs
  obtain ⟨g', e, hf, _⟩ := grun_ok (limit := limit) sched (p := ⟨s, loc, progs⟩) hN GInv.start
  rw [e1] at e
  cases e
  exact ⟨g, v, e1, e2, h.shared, h.thr, h.sec.owner, h.sec.count, h.refused.trans hf⟩

/-- **C171** for a counter: no increment is lost on Windows either. -/
theorem C171_counter {n : Nat} (s : Nat) (loc : Nat → Nat) (k : Nat → Nat) (hn : ∀ t, n ≤ t → k t = 0) {sched : List Nat}
    {v : WGState Nat Nat}
    (hr : winGuardedRun (winGuardedStart winCsInitialize.2 s loc fun t => counting (k t)) sched = .ret v)
    (hF : ∀ t, (v.thr t).now = [] ∧ (v.thr t).rest = []) : v.shared = s + ((List.range n).map k).sum := by
  have hm : csInitialize none none = (stSuccess, some ⟨.recursive, none, 0⟩) := rfl
  obtain ⟨g, v', e1, e2, h1, h2, _⟩ := C171_guarded (limit := 1) hm s loc (fun t => counting (k t)) (fun t b hb => by
    rw [List.eq_of_mem_replicate hb]; rfl) sched
  rw [hr] at e2
  cases e2
  rw [h1]
  exact C148_counter hm s loc k hn e1 fun t => by
    have := hF t
    rw [h2] at this
    exact this

/-- **C171**, several sections: threads that enter them in the order of their numbers have no failing call on Windows, nothing
undefined happens, and all of them can finish. -/
theorem C171_no_deadlock {limit n : Nat} {progs : Nat → List LockItem} (hp : ∀ t, InOrder limit [] (progs t))
    (hn : ∀ t, n ≤ t → progs t = []) (sched : List Nat) :
    ∃ v, winLockRun ⟨fun _ => winCsInitialize.2, progs, false⟩ sched = .ret v ∧ v.refused = false ∧
      ∃ more v', winLockRun ⟨fun _ => winCsInitialize.2, progs, false⟩ (sched ++ more) = .ret v' ∧ v'.refused = false ∧
        (∀ t, v'.prog t = []) ∧ (∀ k, (v'.locks k).owner = none) ∧
        more.length ≤ ((List.range n).map fun t => (v.prog t).length).sum := by
  have hm : ∀ k : Nat, ∃ a i st, csInitialize a i = (st, some (exFree k)) := fun _ => ⟨none, none, stSuccess, rfl⟩
  have hs : SameLocks (lockStart exFree progs) ⟨fun _ => winCsInitialize.2, progs, false⟩ :=
    ⟨fun _ => ⟨rfl, rfl, rfl⟩, rfl, rfl⟩
  obtain ⟨g, h1, h2, more, g', h3, h4, h5, h6, h7⟩ := C170_no_deadlock hm hp hn sched
  obtain ⟨g1, v, e1, e2, h⟩ := SameLocks.run (limit := limit) sched (OrderInv.start hm hp) hs
  obtain ⟨g2, v', e3, e4, h'⟩ := SameLocks.run (limit := limit) (sched ++ more) (OrderInv.start hm hp) hs
  rw [h1] at e1
  rw [h3] at e3
  cases e1
  cases e3
  refine ⟨v, e2, h.refused.trans h2, more, v', e4, h'.refused.trans h4, fun t => ?_, fun k => ?_, ?_⟩
  · rw [h'.prog, h5 t]
  · rw [(h'.sec k).owner, h6 k]
  · rw [h.prog]
    exact h7

/-- **C171**, the difference: on Windows a section may be entered as often as one likes. A thread that is `d` times inside of
a section and leaves it as often is never refused, for any `d`; on a POSIX system with a limit less than `d` it is (C148). -/
theorem C171_any_depth (t d : Nat) (spin : Bool) (s : S) (loc : Nat → L) {progs : Nat → List (GSection S L)}
    (hp : progs t = [(spin, List.replicate d (.enter spin) ++ List.replicate d .leave)]) :
    ∃ v, winGuardedRun (winGuardedStart winCsInitialize.2 s loc progs) (List.replicate (2 * d + 3) t) = .ret v ∧
      v.refused = false ∧ (v.thr t).now = [] ∧ (v.thr t).rest = [] ∧ v.cs.owner = none := by
  have down : ∀ (c : Nat) (g : WGState S L), g.cs = ⟨some t, c + 1⟩ → (g.thr t).now = List.replicate (c + 1) .leave →
      (g.thr t).rest = [] → g.refused = false →
      ∃ v, winGuardedRun g (List.replicate (c + 1) t) = .ret v ∧
        v.refused = false ∧ (v.thr t).now = [] ∧ (v.thr t).rest = [] ∧ v.cs.owner = none := by
    intro c
    induction c with
    | zero =>
      intro g h1 h2 h3 h4
      refine ⟨g.next t [] ⟨none, 0⟩, ?_, h4, ?_, ?_, rfl⟩
      · simp [winGuardedRun, winGuardedStep, h1, h2, winCsStep, winCsLeave, Out.bind, failed_success]
      · simp [WGState.next, WGState.put]
      · simp [WGState.next, WGState.put, h3]
    | succ c ih =>
      intro g h1 h2 h3 h4
      have hst : winGuardedStep g t = .ret (g.next t (List.replicate (c + 1) .leave) ⟨some t, c + 1⟩) := by
        rw [List.replicate_succ] at h2
        simp [winGuardedStep, h1, h2, winCsStep, winCsLeave, Out.bind, failed_success]
      obtain ⟨v, e, h⟩ := ih (g.next t (List.replicate (c + 1) .leave) ⟨some t, c + 1⟩) rfl
        (by simp [WGState.next, WGState.put]) (by simp [WGState.next, WGState.put, h3]) h4
      refine ⟨v, ?_, h⟩
      rw [List.replicate_succ, winGuardedRun, hst]
      exact e
  have up : ∀ (b c : Nat) (g : WGState S L), g.cs = ⟨some t, c + 1⟩ →
      (g.thr t).now = List.replicate b (.enter spin) ++ List.replicate (c + b + 1) .leave →
      (g.thr t).rest = [] → g.refused = false →
      ∃ v, winGuardedRun g (List.replicate (b + (c + b + 1)) t) = .ret v ∧
        v.refused = false ∧ (v.thr t).now = [] ∧ (v.thr t).rest = [] ∧ v.cs.owner = none := by
    intro b
    induction b with
    | zero =>
      intro c g h1 h2 h3 h4
      have := down c g h1 (by simpa using h2) h3 h4
      simpa using this
    | succ b ih =>
      intro c g h1 h2 h3 h4
      have e0 : c + (b + 1) + 1 = c + 1 + b + 1 := by omega
      rw [e0] at h2 ⊢
      have hst : winGuardedStep g t = .ret (g.next t (List.replicate b (.enter spin) ++
          List.replicate (c + 1 + b + 1) .leave) ⟨some t, c + 1 + 1⟩) := by
        rw [List.replicate_succ] at h2
        cases spin <;>
          simp [winGuardedStep, h1, h2, winCsStep, winCsEnter, winCsTryEnter, Out.bind, failed_success]
      obtain ⟨v, e, h⟩ := ih (c + 1) (g.next t (List.replicate b (.enter spin) ++
          List.replicate (c + 1 + b + 1) .leave) ⟨some t, c + 1 + 1⟩) rfl (by simp [WGState.next, WGState.put])
        (by simp [WGState.next, WGState.put, h3]) h4
      refine ⟨v, ?_, h⟩
      rw [show b + 1 + (c + 1 + b + 1) = (b + (c + 1 + b + 1)) + 1 by omega, List.replicate_succ, winGuardedRun, hst]
      exact e
  have h1 : winGuardedStep (winGuardedStart winCsInitialize.2 s loc progs) t =
      .ret ((winGuardedStart winCsInitialize.2 s loc progs).put t
        ⟨.enter spin :: ((List.replicate d (.enter spin) ++ List.replicate d .leave) ++ [.leave]), [], loc t⟩) := by
    simp [winGuardedStep, winGuardedStart, hp]
  let g1 := (winGuardedStart winCsInitialize.2 s loc progs).put t
    ⟨.enter spin :: ((List.replicate d (.enter spin) ++ List.replicate d .leave) ++ [.leave]), [], loc t⟩
  have hl : List.replicate d (GItem.enter (S := S) (L := L) spin) ++ List.replicate d .leave ++ [.leave] =
      List.replicate d (.enter spin) ++ List.replicate (0 + d + 1) .leave := by
    rw [List.append_assoc, ← List.replicate_succ', Nat.zero_add]
  have h2 : winGuardedStep g1 t = .ret (g1.next t (List.replicate d (.enter spin) ++
      List.replicate (0 + d + 1) .leave) ⟨some t, 1⟩) := by
    rw [← hl]
    have hn : (g1.thr t).now = .enter spin :: ((List.replicate d (.enter spin) ++ List.replicate d .leave) ++ [.leave]) := by
      simp only [g1, WGState.put, if_true]
    have hcs : g1.cs = ⟨none, 0⟩ := rfl
    cases spin <;>
      simp [winGuardedStep, hn, hcs, winCsStep, winCsEnter, winCsTryEnter, Out.bind, failed_success]
  obtain ⟨v, e, h⟩ := up d 0 (g1.next t (List.replicate d (.enter spin) ++
      List.replicate (0 + d + 1) .leave) ⟨some t, 1⟩) rfl (by simp [WGState.next, WGState.put])
    (by simp [WGState.next, WGState.put, g1]) rfl
  refine ⟨v, ?_, h⟩
  rw [show 2 * d + 3 = (d + (0 + d + 1)) + 1 + 1 by omega, List.replicate_succ, List.replicate_succ, winGuardedRun, h1,
    Out.ret_bind', winGuardedRun]
  show (winGuardedStep g1 t).bind _ = _
  rw [h2]
  exact e

/-- Three threads, thread 1 enters with attempts, thread 2 nests. -/
example : ∃ g v, guardedRun 2 (guardedStart ⟨.recursive, none, 0⟩ 10 (fun _ => 0) fun t => match t with
      | 0 => counting 2
      | 1 => [(true, [.act fun s l => (s * 2, l)])]
      | 2 => [(false, [.enter true, .act fun s _ => (s, s), .leave])]
      | _ => []) [0, 1, 1, 0, 2, 2, 0, 1, 0, 0, 1, 1, 1, 2, 2, 2] = .ret g ∧
    winGuardedRun (winGuardedStart winCsInitialize.2 10 (fun _ => 0) fun t => match t with
      | 0 => counting 2
      | 1 => [(true, [.act fun s l => (s * 2, l)])]
      | 2 => [(false, [.enter true, .act fun s _ => (s, s), .leave])]
      | _ => []) [0, 1, 1, 0, 2, 2, 0, 1, 0, 0, 1, 1, 1, 2, 2, 2] = .ret v ∧
    v.shared = g.shared ∧ v.thr = g.thr ∧ v.cs.owner = g.mutex.owner ∧ v.cs.count = g.mutex.count ∧ v.refused = false :=
  C171_guarded (limit := 2) (a := none) (i := none) (st := stSuccess) rfl _ _ _ (fun t b hb => by
    match t, hb with
    | 0, hb => rw [List.eq_of_mem_replicate hb]; rfl
    | 1, hb => cases List.mem_singleton.1 hb; rfl
    | 2, hb => cases List.mem_singleton.1 hb; exact ⟨by decide, by decide, rfl⟩) _

/-- Two threads, two and one increments: the second one waits in between. -/
example : ∃ v : WGState Nat Nat, winGuardedRun (winGuardedStart winCsInitialize.2 7 (fun _ => 0) fun t =>
      counting (if t = 0 then 2 else if t = 1 then 1 else 0)) [0, 0, 1, 1, 0, 1, 0, 0, 1, 1, 1, 1, 0, 0, 0, 0, 0] =
    .ret v ∧ v.shared = 10 := ⟨_, rfl, rfl⟩

example : ∃ v, winLockRun ⟨fun _ => winCsInitialize.2, exLockProgs, false⟩ [0, 2, 0, 2, 1, 1, 2, 0] = .ret v ∧
    v.refused = false ∧ ∃ more v', winLockRun ⟨fun _ => winCsInitialize.2, exLockProgs, false⟩
      ([0, 2, 0, 2, 1, 1, 2, 0] ++ more) = .ret v' ∧ v'.refused = false ∧ (∀ t, v'.prog t = []) ∧
      (∀ k, (v'.locks k).owner = none) ∧ more.length ≤ ((List.range 3).map fun t => (v.prog t).length).sum :=
  C171_no_deadlock exLockProgs_inOrder (fun t ht => by
    match t, ht with
    | t + 3, _ => rfl) _

example : ∃ v : WGState Unit Unit, winGuardedRun (winGuardedStart winCsInitialize.2 () (fun _ => ()) fun _ =>
      [(true, List.replicate 1000 (.enter true) ++ List.replicate 1000 .leave)]) (List.replicate 2003 4) = .ret v ∧
    v.refused = false ∧ (v.thr 4).now = [] ∧ (v.thr 4).rest = [] ∧ v.cs.owner = none :=
  C171_any_depth 4 1000 true () _ rfl

end Zy
