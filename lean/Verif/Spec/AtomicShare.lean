import Verif.Spec.AtomicClients

/-!
# Specification: work distributed with an atomic counter

A client program of the atomic operations: threads that go through an array together. Each thread takes the next index
with `ZyanAtomicIncrement` (include/Zycore/Internal/AtomicGNU.h lines 54-57) and processes the element there, without a
lock, until there are no more elements. The elements are ordinary data; reading and writing one are separate steps.
-/

namespace Zy

variable {w : Nat} {β : Type}

/-- Where a thread is. -/
inductive ShareSt (β : Type) where
  /-- about to take an index -/
  | fetch
  /-- about to read element `i` -/
  | load (i : Nat)
  /-- about to write element `i`, whose value was `x` -/
  | store (i : Nat) (x : β)
  | done

/-- `while ((i = ZyanAtomicIncrement(&counter) - 1) < n) { x = a[i]; a[i] = f(x); }` -/
def shareAct (n : Nat) (f : β → β) : ShareSt β → Act w (Nat → β) (ShareSt β)
  | .fetch => .call .inc fun r => if (r - 1).toNat < n then .load (r - 1).toNat else .done
  | .load i => .plain fun a => (a, .store i (a i))
  | .store i x => .plain fun a => (fun k => if k = i then f x else a k, .fetch)
  | .done => .stop

/-- `threads` threads before their first step; the counter is 0. -/
def shareStart (a : Nat → β) (threads : Nat) : CSys w (Nat → β) (ShareSt β) :=
  actStart 0 a (List.replicate threads .fetch)

/-- The element that a thread is about to access. -/
def ShareSt.at : ShareSt β → Option Nat
  | .load i => some i
  | .store i _ => some i
  | _ => none

/-- A thread is through. -/
def ShareSt.isDone : ShareSt β → Bool
  | .done => true
  | _ => false

end Zy
