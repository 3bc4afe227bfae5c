import Verif.Model.Sync

/-!
# Model of programs that guard data with a critical section

The threads of a program share data of type `S` and a critical section (`src/API/Synchronization.c` lines 55-153).
Each thread has a variable of its own of type `L` and executes one section after the other. A section is entered
with `ZyanCriticalSectionEnter`, or with `ZyanCriticalSectionTryEnter` in a loop, and left with
`ZyanCriticalSectionLeave`. Inside of it the thread reads and writes the shared data in steps, and may enter and
leave the critical section again. The threads are interleaved between any two steps.
-/

namespace Zy

variable {S L : Type}

/-- A step of a thread: an access to the shared data and the variable, or a call for the critical section. `spin`
tells whether the section is entered with `ZyanCriticalSectionTryEnter` until that succeeds. -/
inductive GItem (S L : Type) where
  | act (f : S → L → S × L)
  | enter (spin : Bool)
  | leave

/-- A section: how it is entered, and what happens inside. -/
abbrev GSection (S L : Type) := Bool × List (GItem S L)

/-- A thread: what remains of the section at hand (nothing between two sections), the sections after it, the
variable. -/
structure GThread (S L : Type) where
  now : List (GItem S L)
  rest : List (GSection S L)
  loc : L

/-- The state of the program. `refused` tells that a call for the critical section has failed. -/
structure GState (S L : Type) where
  mutex : Mutex
  shared : S
  thr : Nat → GThread S L
  refused : Bool

/-- Another state of one thread. -/
def GState.put (g : GState S L) (t : Nat) (th : GThread S L) : GState S L :=
  { g with thr := fun u => if u = t then th else g.thr u }

/-- A thread after its step. -/
def GState.next (g : GState S L) (t : Nat) (n : List (GItem S L)) (m : Mutex) : GState S L :=
  { g.put t ⟨n, (g.thr t).rest, (g.thr t).loc⟩ with mutex := m }

/-- One step of thread `t`. A thread that has to wait repeats its call (`ZyanCriticalSectionEnter`, lines 96-113,
returns only when it has the section; the loop around `ZyanCriticalSectionTryEnter`, lines 115-119, tries
again). -/
def guardedStep (limit : Nat) (g : GState S L) (t : Nat) : Out (GState S L) :=
  match (g.thr t).now with
  | [] =>
    match (g.thr t).rest with
    | [] => .ret g
    | b :: r => .ret (g.put t ⟨.enter b.1 :: (b.2 ++ [.leave]), r, (g.thr t).loc⟩)
  | .act f :: n =>
    .ret { g.put t ⟨n, (g.thr t).rest, (f g.shared (g.thr t).loc).2⟩ with shared := (f g.shared (g.thr t).loc).1 }
  | .enter spin :: n =>
    (csStep limit g.mutex t (if spin then .tryEnter else .enter)).bind fun r =>
      match r.1 with
      | some (.status st) => if failed st then .ret { g with refused := true } else .ret (g.next t n r.2)
      | some (.bool true) => .ret (g.next t n r.2)
      | some (.bool false) => .ret { g with mutex := r.2 }
      | none => .ret { g with mutex := r.2 }
  | .leave :: n =>
    (csStep limit g.mutex t .leave).bind fun r =>
      match r.1 with
      | some (.status st) => if failed st then .ret { g with refused := true } else .ret (g.next t n r.2)
      | _ => .ret g

/-- The steps of the threads, in the order of `sched`. -/
def guardedRun (limit : Nat) (g : GState S L) : List Nat → Out (GState S L)
  | [] => .ret g
  | t :: ts => (guardedStep limit g t).bind fun g' => guardedRun limit g' ts

/-- The program before its first step; `m` is the critical section after its initialisation. -/
def guardedStart (m : Mutex) (s : S) (loc : Nat → L) (progs : Nat → List (GSection S L)) : GState S L :=
  ⟨m, s, fun t => ⟨[], progs t, loc t⟩, false⟩

end Zy
