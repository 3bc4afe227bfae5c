import Verif.Spec.AtomicClients

/-!
# Specification: a barrier

A client program of the atomic operations: each of `T` threads prepares its element of an array, announces this with
`ZyanAtomicIncrement` (include/Zycore/Internal/AtomicGNU.h lines 54-58), waits until all have done so, and then reads the
whole array. It asks for the number of threads that have arrived with `ZyanAtomicCompareExchange` (lines 47-52 there). The
array is ordinary data.
-/

namespace Zy

variable {w : Nat} {β : Type}

/-- Where a thread is. -/
inductive BarSt (β : Type) where
  /-- about to prepare its element `i` -/
  | work (i : Nat)
  /-- about to announce it -/
  | arrive
  /-- about to look whether all have arrived -/
  | wait
  /-- about to read the array -/
  | read
  /-- has read the array -/
  | got (x : Nat → β)

/-- `a[i] = f(a[i]); ZyanAtomicIncrement(&n); while (ZyanAtomicCompareExchange(&n, T, T) != T);`, then a read of the
array. -/
def barAct (T : Nat) (f : β → β) : BarSt β → Act w (Nat → β) (BarSt β)
  | .work i => .plain fun a => (fun k => if k = i then f (a k) else a k, .arrive)
  | .arrive => .call .inc fun _ => .wait
  | .wait => .call (.cas (BitVec.ofNat w T) (BitVec.ofNat w T)) fun r => if r = BitVec.ofNat w T then .read else .wait
  | .read => .plain fun a => (a, .got a)
  | .got _ => .stop

/-- The threads before their first step. -/
def barStart (a : Nat → β) (T : Nat) : CSys w (Nat → β) (BarSt β) := actStart 0 a ((List.range T).map .work)

end Zy
