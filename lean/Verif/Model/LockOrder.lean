import Verif.Model.Sync

/-!
# Model of programs with several critical sections

The threads of a program share several critical sections (`src/API/Synchronization.c` lines 55-153), numbered in some
way. Each thread enters them with `ZyanCriticalSectionEnter`, or with `ZyanCriticalSectionTryEnter` in a loop, and leaves
them with `ZyanCriticalSectionLeave`, in an order of its own. The threads are interleaved between any two steps.
-/

namespace Zy

/-- A step of a thread: something without a critical section, or a call for critical section `k`. `spin` tells whether it
is entered with `ZyanCriticalSectionTryEnter` until that succeeds. -/
inductive LockItem where
  | work
  | enter (k : Nat) (spin : Bool)
  | leave (k : Nat)
  deriving DecidableEq, Repr

/-- The state of the program: the critical sections, what each thread has still to do, and whether a call has failed. -/
structure LockState where
  locks : Nat → Mutex
  prog : Nat → List LockItem
  refused : Bool

/-- Another state of one critical section. -/
def LockState.lock (g : LockState) (k : Nat) (m : Mutex) : LockState :=
  { g with locks := fun j => if j = k then m else g.locks j }

/-- A thread behind its step. -/
def LockState.goOn (g : LockState) (t : Nat) (p : List LockItem) : LockState :=
  { g with prog := fun u => if u = t then p else g.prog u }

/-- One step of thread `t`. A thread that has to wait repeats its call (`ZyanCriticalSectionEnter`, lines 96-113,
returns only when it has the section; the loop around `ZyanCriticalSectionTryEnter`, lines 115-119, tries
again). -/
def lockStep (limit : Nat) (g : LockState) (t : Nat) : Out LockState :=
  match g.prog t with
  | [] => .ret g
  | .work :: p => .ret (g.goOn t p)
  | .enter k spin :: p =>
    (csStep limit (g.locks k) t (if spin then .tryEnter else .enter)).bind fun r =>
      match r.1 with
      | some (.status st) => if failed st then .ret { g with refused := true } else .ret ((g.lock k r.2).goOn t p)
      | some (.bool true) => .ret ((g.lock k r.2).goOn t p)
      | some (.bool false) => .ret (g.lock k r.2)
      | none => .ret (g.lock k r.2)
  | .leave k :: p =>
    (csStep limit (g.locks k) t .leave).bind fun r =>
      match r.1 with
      | some (.status st) => if failed st then .ret { g with refused := true } else .ret ((g.lock k r.2).goOn t p)
      | _ => .ret g

/-- The steps of the threads, in the order of `sched`. -/
def lockRun (limit : Nat) (g : LockState) : List Nat → Out LockState
  | [] => .ret g
  | t :: ts => (lockStep limit g t).bind fun g' => lockRun limit g' ts

end Zy
