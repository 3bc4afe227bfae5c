import Verif.Model.Atomic

/-!
# Specification: client programs of the atomic operations

Threads that decide what to do next by the results of `ZyanAtomicIncrement`, `ZyanAtomicDecrement` and
`ZyanAtomicCompareExchange` (include/Zycore/Internal/AtomicGNU.h lines 47-105), and that share, besides the atomic
variable, ordinary data. As in `Model/Atomic`, a call has two steps, the intrinsic and the return, and the steps of
different threads interleave arbitrarily. An access to the ordinary data is a step of its own.
-/

namespace Zy

variable {w : Nat} {δ σ : Type}

/-- What a thread does next: a call, with what follows for each result; an access to the data; or nothing. -/
inductive Act (w : Nat) (δ σ : Type) where
  | call (op : AOp w) (k : BitVec w → σ)
  | plain (f : δ → δ × σ)
  | stop

/-- A thread: where it is in its program, and the result of the intrinsic of a call in progress. -/
structure CThr (w : Nat) (σ : Type) where
  st : σ
  reg : Option (BitVec w)

/-- The atomic variable, the ordinary data and the threads. -/
structure CSys (w : Nat) (δ σ : Type) where
  value : BitVec w
  data : δ
  thr : List (CThr w σ)

/-- One step of a thread. -/
def actThread (act : σ → Act w δ σ) (v : BitVec w) (d : δ) (t : CThr w σ) : BitVec w × δ × CThr w σ :=
  match act t.st with
  | .call op k =>
    match t.reg with
    | none => ((rmw op v).1, d, ⟨t.st, some (rmw op v).2⟩)
    | some x => (v, d, ⟨k (atomicReturn op x), none⟩)
  | .plain f => (v, (f d).1, ⟨(f d).2, none⟩)
  | .stop => (v, d, t)

/-- One step of the thread number `i`. -/
def actStep (act : σ → Act w δ σ) (s : CSys w δ σ) (i : Nat) : CSys w δ σ :=
  match s.thr[i]? with
  | none => s
  | some t =>
    let r := actThread act s.value s.data t
    ⟨r.1, r.2.1, s.thr.set i r.2.2⟩

/-- The steps of a schedule: the numbers of the threads in the order in which they run. -/
def actRun (act : σ → Act w δ σ) (s : CSys w δ σ) (sched : List Nat) : CSys w δ σ := sched.foldl (actStep act) s

/-- All threads before their first step. -/
def actStart (v : BitVec w) (d : δ) (sts : List σ) : CSys w δ σ := ⟨v, d, sts.map fun x => ⟨x, none⟩⟩

/-- The entries of one thread in a log. -/
def entriesOf {β : Type} (log : List (Nat × β)) (i : Nat) : List β := (log.filter (·.1 == i)).map (·.2)

/-! ## A spin lock -/

/-- Where a thread is that wants to apply functions to the data, each under the lock. -/
inductive LockSt (δ : Type) where
  | want (gs : List (δ → δ))
  | load (g : δ → δ) (gs : List (δ → δ))
  | store (g : δ → δ) (gs : List (δ → δ)) (x : δ)
  | leave (gs : List (δ → δ))

/-- `while (ZyanAtomicCompareExchange(&lock, 0, 1) != 0);`, a load, a store, and the call that unlocks. -/
def lockAct (unlock : AOp w) : LockSt δ → Act w δ (LockSt δ)
  | .want [] => .stop
  | .want (g :: gs) => .call (.cas 0 1) fun r => if r = 0 then .load g gs else .want (g :: gs)
  | .load g gs => .plain fun d => (d, .store g gs d)
  | .store g gs x => .plain fun _ => (g x, .leave gs)
  | .leave gs => .call unlock fun _ => .want gs

/-- The thread is between locking and unlocking and about to access the data. -/
def LockSt.inside : LockSt δ → Bool
  | .load _ _ => true
  | .store _ _ _ => true
  | _ => false

/-- The thread has nothing left to do. -/
def LockSt.finished : LockSt δ → Bool
  | .want [] => true
  | _ => false

/-! ## Updates by compare-exchange -/

/-- Where a thread is that wants to apply functions to the atomic variable: the functions that are left, and the
value that it expects. -/
structure UpdSt (w : Nat) where
  fs : List (BitVec w → BitVec w)
  old : BitVec w

/-- `while ((r = ZyanAtomicCompareExchange(&x, old, f(old))) != old) old = r;` for one function after the other. -/
def updAct : UpdSt w → Act w Unit (UpdSt w)
  | ⟨[], _⟩ => .stop
  | ⟨f :: fs, old⟩ => .call (.cas old (f old)) fun r => if r = old then ⟨fs, f old⟩ else ⟨f :: fs, r⟩

/-! ## Reference counts -/

/-- What an owner of references does: use the object, take another reference, give one back. -/
inductive RefCmd where
  | use
  | clone
  | drop
deriving DecidableEq

/-- An object: how often it was destroyed, and whether it was used afterwards. -/
structure RefObj where
  destroyed : Nat
  usedAfter : Bool
deriving DecidableEq

/-- Where an owner is: the references it has, its commands, and whether it is about to destroy the object. -/
structure RefSt where
  held : Nat
  cmds : List RefCmd
  destroying : Bool
deriving DecidableEq

/-- `ZyanAtomicIncrement(&count)` for another reference, `if (ZyanAtomicDecrement(&count) == 0) destroy(object)` for
one that is given back. -/
def refAct : RefSt → Act w RefObj RefSt
  | ⟨h, cs, true⟩ => .plain fun o => (⟨o.destroyed + 1, o.usedAfter⟩, ⟨h, cs, false⟩)
  | ⟨_, [], false⟩ => .stop
  | ⟨h, .use :: cs, false⟩ => .plain fun o => (⟨o.destroyed, o.usedAfter || decide (o.destroyed ≠ 0)⟩, ⟨h, cs, false⟩)
  | ⟨h, .clone :: cs, false⟩ => .call .inc fun _ => ⟨h + 1, cs, false⟩
  | ⟨h, .drop :: cs, false⟩ => .call .dec fun r => ⟨h - 1, cs, r == 0⟩

/-- An owner of `n` references never does anything without a reference. -/
def properRefs : Nat → List RefCmd → Prop
  | _, [] => True
  | n, .use :: cs => 0 < n ∧ properRefs n cs
  | n, .clone :: cs => 0 < n ∧ properRefs (n + 1) cs
  | n, .drop :: cs => 0 < n ∧ properRefs (n - 1) cs

/-- The references that an owner of `n` references has at the end. -/
def refsLeft (n : Nat) (cs : List RefCmd) : Nat := n + cs.count .clone - cs.count .drop

end Zy
