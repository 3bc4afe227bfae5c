import Verif.Model.Windows
import Verif.Model.Guarded
import Verif.Model.LockOrder

/-!
# Model of programs with critical sections on Windows

The programs of `Model/Guarded.lean` and `Model/LockOrder.lean` with the Windows branch of `src/API/Synchronization.c`
(lines 155-197).
-/

namespace Zy

variable {S L : Type}

/-- The state of a program that guards data, as `GState`. -/
structure WGState (S L : Type) where
  cs : WinCs
  shared : S
  thr : Nat → GThread S L
  refused : Bool

/-- Another state of one thread, as `GState.put`. -/
def WGState.put (g : WGState S L) (t : Nat) (th : GThread S L) : WGState S L :=
  { g with thr := fun u => if u = t then th else g.thr u }

/-- A thread after its step, as `GState.next`. -/
def WGState.next (g : WGState S L) (t : Nat) (n : List (GItem S L)) (m : WinCs) : WGState S L :=
  { g.put t ⟨n, (g.thr t).rest, (g.thr t).loc⟩ with cs := m }

/-- One step of thread `t`, as `guardedStep` (`ZyanCriticalSectionEnter`, lines 170-175,
`ZyanCriticalSectionTryEnter`, lines 177-180, `ZyanCriticalSectionLeave`, lines 182-187). -/
def winGuardedStep (g : WGState S L) (t : Nat) : Out (WGState S L) :=
  match (g.thr t).now with
  | [] =>
    match (g.thr t).rest with
    | [] => .ret g
    | b :: r => .ret (g.put t ⟨.enter b.1 :: (b.2 ++ [.leave]), r, (g.thr t).loc⟩)
  | .act f :: n =>
    .ret { g.put t ⟨n, (g.thr t).rest, (f g.shared (g.thr t).loc).2⟩ with shared := (f g.shared (g.thr t).loc).1 }
  | .enter spin :: n =>
    (winCsStep g.cs t (if spin then .tryEnter else .enter)).bind fun r =>
      match r.1 with
      | some (.status st) => if failed st then .ret { g with refused := true } else .ret (g.next t n r.2)
      | some (.bool true) => .ret (g.next t n r.2)
      | some (.bool false) => .ret { g with cs := r.2 }
      | none => .ret { g with cs := r.2 }
  | .leave :: n =>
    (winCsStep g.cs t .leave).bind fun r =>
      match r.1 with
      | some (.status st) => if failed st then .ret { g with refused := true } else .ret (g.next t n r.2)
      | _ => .ret g

/-- The steps of the threads, in the order of `sched`. -/
def winGuardedRun (g : WGState S L) : List Nat → Out (WGState S L)
  | [] => .ret g
  | t :: ts => (winGuardedStep g t).bind fun g' => winGuardedRun g' ts

/-- The program before its first step, as `guardedStart`. -/
def winGuardedStart (m : WinCs) (s : S) (loc : Nat → L) (progs : Nat → List (GSection S L)) : WGState S L :=
  ⟨m, s, fun t => ⟨[], progs t, loc t⟩, false⟩

/-- The state of a program with several sections, as `LockState`. -/
structure WinLockState where
  locks : Nat → WinCs
  prog : Nat → List LockItem
  refused : Bool

/-- Another state of one critical section, as `LockState.lock`. -/
def WinLockState.lock (g : WinLockState) (k : Nat) (m : WinCs) : WinLockState :=
  { g with locks := fun j => if j = k then m else g.locks j }

/-- A thread behind its step, as `LockState.goOn`. -/
def WinLockState.goOn (g : WinLockState) (t : Nat) (p : List LockItem) : WinLockState :=
  { g with prog := fun u => if u = t then p else g.prog u }

/-- One step of thread `t`, as `lockStep` (lines 170-187). -/
def winLockStep (g : WinLockState) (t : Nat) : Out WinLockState :=
  match g.prog t with
  | [] => .ret g
  | .work :: p => .ret (g.goOn t p)
  | .enter k spin :: p =>
    (winCsStep (g.locks k) t (if spin then .tryEnter else .enter)).bind fun r =>
      match r.1 with
      | some (.status st) => if failed st then .ret { g with refused := true } else .ret ((g.lock k r.2).goOn t p)
      | some (.bool true) => .ret ((g.lock k r.2).goOn t p)
      | some (.bool false) => .ret (g.lock k r.2)
      | none => .ret (g.lock k r.2)
  | .leave k :: p =>
    (winCsStep (g.locks k) t .leave).bind fun r =>
      match r.1 with
      | some (.status st) => if failed st then .ret { g with refused := true } else .ret ((g.lock k r.2).goOn t p)
      | _ => .ret g

/-- The steps of the threads, in the order of `sched`. -/
def winLockRun (g : WinLockState) : List Nat → Out WinLockState
  | [] => .ret g
  | t :: ts => (winLockStep g t).bind fun g' => winLockRun g' ts

end Zy
