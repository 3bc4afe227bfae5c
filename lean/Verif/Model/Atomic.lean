/-!
# Model of the atomic operations

`include/Zycore/Internal/AtomicGNU.h` lines 47-105 (`include/Zycore/Internal/AtomicMSVC.h` lines 50-139
has the same functions in terms of the interlocked intrinsics), for any number of threads.

A call of one of the functions has two steps: the atomic intrinsic, which reads and writes the shared
variable at once and leaves a value in a register of the thread, and the return, which computes the result
from the register. Steps of different threads interleave arbitrarily.

Assumptions: the intrinsics are atomic and sequentially consistent (full barriers, as GCC documents the
`__sync` functions); all threads use the same variable of `w` bits.
-/

namespace Zy

/-- A call of `ZyanAtomicIncrement`, `ZyanAtomicDecrement` or `ZyanAtomicCompareExchange` (also the 32-bit
and 64-bit variants). -/
inductive AOp (w : Nat) where
  | inc
  | dec
  | cas (comparand value : BitVec w)
deriving DecidableEq, Repr

variable {w : Nat}

/-- The intrinsic of a call: the new value of the variable, and the value it yields.
`__sync_fetch_and_add` (AtomicGNU.h lines 56, 78, 99) yields the old value, `__sync_sub_and_fetch` (lines
62, 83, 104) the new one, `__sync_val_compare_and_swap` (lines 50, 72, 93) the old one. -/
def rmw : AOp w → BitVec w → BitVec w × BitVec w
  | .inc, v => (v + 1, v)
  | .dec, v => (v - 1, v - 1)
  | .cas comparand value, v => (if v = comparand then value else v, v)

/-- The return value, computed from the result of the intrinsic: AtomicGNU.h lines 50-106. -/
def atomicReturn : AOp w → BitVec w → BitVec w
  | .inc, x => x + 1
  | .dec, x => x
  | .cas _ _, x => x

/-- A thread: the calls that it has not begun, the register of a call in progress, and the results of the
completed calls, oldest first. -/
structure AThread (w : Nat) where
  prog : List (AOp w)
  reg : Option (AOp w × BitVec w)
  rets : List (AOp w × BitVec w)
deriving DecidableEq, Repr

/-- The shared variable and the threads. -/
structure ASys (w : Nat) where
  value : BitVec w
  thr : List (AThread w)
deriving DecidableEq, Repr

/-- One step of a thread. -/
def threadStep (v : BitVec w) (t : AThread w) : BitVec w × AThread w :=
  match t.reg with
  | some (op, x) => (v, ⟨t.prog, none, t.rets ++ [(op, atomicReturn op x)]⟩)
  | none =>
    match t.prog with
    | [] => (v, t)
    | op :: ops => ((rmw op v).1, ⟨ops, some (op, (rmw op v).2), t.rets⟩)

/-- One step of the thread number `i`. -/
def sysStep (s : ASys w) (i : Nat) : ASys w :=
  match s.thr[i]? with
  | none => s
  | some t => ⟨(threadStep s.value t).1, s.thr.set i (threadStep s.value t).2⟩

/-- The steps of a schedule: the numbers of the threads in the order in which they run. -/
def sysRun (s : ASys w) (sched : List Nat) : ASys w := sched.foldl sysStep s

/-- All threads before their first step. -/
def sysStart (v : BitVec w) (progs : List (List (AOp w))) : ASys w := ⟨v, progs.map fun p => ⟨p, none, []⟩⟩

/-- All threads have completed all calls. -/
def sysDone (s : ASys w) : Prop := ∀ t ∈ s.thr, t.prog = [] ∧ t.reg = none

/-- The calls that a thread has completed, with the results. -/
def returned (s : ASys w) (i : Nat) : List (AOp w × BitVec w) :=
  match s.thr[i]? with
  | none => []
  | some t => t.rets

end Zy
