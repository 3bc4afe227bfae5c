import Verif.Spec.AtomicClients

/-!
# Specification: initialisation that happens once

A client program of the atomic operations: threads that need some data which the first of them has to initialise. The
state of the initialisation (0: not begun, 1: in progress, 2: complete) is changed with `ZyanAtomicCompareExchange`
(include/Zycore/Internal/AtomicGNU.h lines 47-52) only. The data is ordinary data.
-/

namespace Zy

variable {w : Nat} {δ : Type}

/-- Where a thread is. -/
inductive OnceSt (δ : Type) where
  /-- about to look at the state -/
  | ask
  /-- about to initialise the data -/
  | run
  /-- about to announce the end of the initialisation -/
  | publish
  /-- about to read the data -/
  | use
  /-- has read the data -/
  | got (x : δ)

/-- `while ((r = ZyanAtomicCompareExchange(&state, 0, 1)) != 2) if (r == 0) { data = f(data);
ZyanAtomicCompareExchange(&state, 1, 2); break; }`, then a read of the data. -/
def onceAct (f : δ → δ) : OnceSt δ → Act w δ (OnceSt δ)
  | .ask => .call (.cas 0 1) fun r => if r = 0 then .run else if r = 2 then .use else .ask
  | .run => .plain fun d => (f d, .publish)
  | .publish => .call (.cas 1 2) fun _ => .use
  | .use => .plain fun d => (d, .got d)
  | .got _ => .stop

/-- `threads` threads before their first step, with data that is not initialised. -/
def onceStart (a : δ) (threads : Nat) : CSys w δ (OnceSt δ) := actStart 0 a (List.replicate threads .ask)

end Zy
