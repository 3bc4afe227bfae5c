import Verif.Model.Sync

/-!
# Model of the identity of threads and of destructors of thread-local values (POSIX)

`src/API/Thread.c` lines 101-117 and 123-147, `include/Zycore/API/Thread.h` lines 170-200.

A handle (`pthread_t`) is a number of 64 bits. `ZyanThreadGetCurrentThreadId` casts it to a pointer and
reads the 64-bit word it points to, so the memory is part of the model: `mem a` is the word at address `a`,
or nothing if the eight bytes are not readable.

The exit of a thread is modelled as POSIX describes it for destructors that do not store new values: in an
order that the system chooses (`order`), each key in use with a destructor and a value other than null gets
its destructor called once with this value. Then the values of the thread are gone; a later thread with the
same number starts with null everywhere.
-/

namespace Zy

/-- `ZyanThreadGetCurrentThread`: src/API/Thread.c lines 101-106. `self` is the result of `pthread_self`. -/
def getCurrentThread (self : BitVec 64) : Status × BitVec 64 := (stSuccess, self)

/-- `ZyanThreadGetCurrentThreadId`: src/API/Thread.c lines 109-117. The handle is used as a pointer. -/
def getCurrentThreadId (mem : Nat → Option (BitVec 64)) (self : BitVec 64) : Out (Status × BitVec 64) :=
  if self.toNat = 0 then .ub .null
  else
    match mem self.toNat with
    | some x => .ret (stSuccess, x)
    | none => .ub .oob

/-- The keys, the values, and the destructor of each key (a number stands for the function). -/
structure DtState where
  tls : TlsState
  dtor : Nat → Option Nat

/-- No keys. -/
def DtState.start : DtState := ⟨.start, fun _ => none⟩

/-- A destructor call: the key, the destructor and the value it gets. -/
structure DtorCall where
  key : Nat
  fn : Nat
  val : Nat
deriving DecidableEq, Repr

/-- A step of a thread: a call without destructor, an allocation with a destructor, or the end of the
thread. -/
inductive DtStep where
  | call (c : TlsCall)
  | allocWith (reply : Except Errno Nat) (dtor : Nat)
  | exit (order : List Nat)

/-- The destructor of a key after an allocation: src/API/Thread.c lines 123-142 pass it to
`pthread_key_create`, which remembers it with the key. -/
def setDtor (s : DtState) (reply : Except Errno Nat) (d : Option Nat) : Nat → Option Nat :=
  match reply with
  | .error _ => s.dtor
  | .ok k => fun q => if q = k then d else s.dtor q

/-- The destructor calls at the exit of thread `t` (POSIX). -/
def exitCalls (s : DtState) (t : Nat) : List Nat → List DtorCall
  | [] => []
  | k :: ks =>
    if s.tls.used k ∧ s.tls.val t k ≠ 0 then
      match s.dtor k with
      | some f => ⟨k, f, s.tls.val t k⟩ :: exitCalls s t ks
      | none => exitCalls s t ks
    else exitCalls s t ks

/-- One step: the destructor calls and the new state. -/
def dtStep (s : DtState) (t : Nat) : DtStep → Out (List DtorCall × DtState)
  | .call c =>
    (tlsStep s.tls t c).bind fun r =>
    .ret ([], ⟨r.2, match c with | .alloc reply => setDtor s reply none | _ => s.dtor⟩)
  | .allocWith reply d =>
    (tlsStep s.tls t (.alloc reply)).bind fun r => .ret ([], ⟨r.2, setDtor s reply (some d)⟩)
  | .exit order =>
    .ret (exitCalls s t order,
      ⟨{ s.tls with val := fun u q => if u = t then 0 else s.tls.val u q }, s.dtor⟩)

/-- All steps, in the order in which the threads make them; the destructor calls of each step. -/
def dtRun (s : DtState) : List (Nat × DtStep) → Out (List (List DtorCall) × DtState)
  | [] => .ret ([], s)
  | (t, c) :: as =>
    (dtStep s t c).bind fun r => (dtRun r.2 as).bind fun q => .ret (r.1 :: q.1, q.2)

end Zy
