import Verif.Model.Atomic

/-!
# Model of the atomic operations for the Microsoft compiler

`include/Zycore/Internal/AtomicMSVC.h` lines 50-139. The interlocked intrinsics work on signed integers
(`LONG`, `LONG64`); the conversions between signed and unsigned integers keep the bits. The steps of a thread are
those of `Verif.Model.Atomic`.

Assumptions: the intrinsics are atomic and sequentially consistent (full barriers, as Microsoft documents
them), increments and decrements of the extreme values wrap around.
-/

namespace Zy

variable {w : Nat}

/-- `_InterlockedCompareExchange(destination, exchange, comparand)` and the 64-bit variant: the new value of
the variable, and the result, which is the old value. -/
def interlockedCompareExchange (v : BitVec w) (exchange comparand : Int) : BitVec w × Int :=
  (if v.toInt = comparand then BitVec.ofInt w exchange else v, v.toInt)

/-- `_InterlockedIncrement` and the 64-bit variant: the result is the new value. -/
def interlockedIncrement (v : BitVec w) : BitVec w × Int :=
  (BitVec.ofInt w (v.toInt + 1), (BitVec.ofInt w (v.toInt + 1)).toInt)

/-- `_InterlockedDecrement` and the 64-bit variant: the result is the new value. -/
def interlockedDecrement (v : BitVec w) : BitVec w × Int :=
  (BitVec.ofInt w (v.toInt - 1), (BitVec.ofInt w (v.toInt - 1)).toInt)

/-- The intrinsic of a call: AtomicMSVC.h lines 93-94 and 115-116, 99 and 121, 104 and 126. -/
def msvcRmw : AOp w → BitVec w → BitVec w × Int
  | .inc, v => interlockedIncrement v
  | .dec, v => interlockedDecrement v
  | .cas comparand value, v => interlockedCompareExchange v value.toInt comparand.toInt

/-- A thread: the calls that it has not begun, the register of a call in progress, and the results of the
completed calls, oldest first. -/
structure MThread (w : Nat) where
  prog : List (AOp w)
  reg : Option (AOp w × Int)
  rets : List (AOp w × BitVec w)
deriving DecidableEq, Repr

/-- The shared variable and the threads. -/
structure MSys (w : Nat) where
  value : BitVec w
  thr : List (MThread w)
deriving DecidableEq, Repr

/-- One step of a thread. The return converts the result of the intrinsic to an unsigned integer. -/
def msvcThreadStep (v : BitVec w) (t : MThread w) : BitVec w × MThread w :=
  match t.reg with
  | some (op, x) => (v, ⟨t.prog, none, t.rets ++ [(op, BitVec.ofInt w x)]⟩)
  | none =>
    match t.prog with
    | [] => (v, t)
    | op :: ops => ((msvcRmw op v).1, ⟨ops, some (op, (msvcRmw op v).2), t.rets⟩)

/-- One step of the thread number `i`. -/
def msvcStep (s : MSys w) (i : Nat) : MSys w :=
  match s.thr[i]? with
  | none => s
  | some t => ⟨(msvcThreadStep s.value t).1, s.thr.set i (msvcThreadStep s.value t).2⟩

/-- The steps of a schedule. -/
def msvcRun (s : MSys w) (sched : List Nat) : MSys w := sched.foldl msvcStep s

/-- All threads before their first step. -/
def msvcStart (v : BitVec w) (progs : List (List (AOp w))) : MSys w := ⟨v, progs.map fun p => ⟨p, none, []⟩⟩

/-- The calls that a thread has completed, with the results. -/
def msvcReturned (s : MSys w) (i : Nat) : List (AOp w × BitVec w) :=
  match s.thr[i]? with
  | none => []
  | some t => t.rets

end Zy
