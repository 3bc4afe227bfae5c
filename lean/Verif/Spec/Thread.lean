import Verif.Model.Thread

/-!
# Specification of the status of failing system calls, of thread ids and of destructors

The functions on histories read off a list of steps, oldest first.
-/

namespace Zy.Spec

/-- The system calls below the critical sections and the thread-local storage. -/
inductive SysCall where
  | attrInit | mutexInit | mutexLock | mutexUnlock | mutexDestroy | keyCreate | setSpecific
deriving DecidableEq, Repr

/-- The errors that have a status of their own. -/
def errorTable : List (SysCall × Errno × Status) :=
  [(.attrInit, .ENOMEM, stNoMemory),
   (.mutexInit, .EAGAIN, stOutOfResources), (.mutexInit, .ENOMEM, stNoMemory),
   (.mutexInit, .EPERM, stAccessDenied), (.mutexInit, .EBUSY, stInvalidArgument),
   (.mutexInit, .EINVAL, stInvalidArgument),
   (.mutexLock, .EINVAL, stInvalidArgument), (.mutexLock, .EAGAIN, stInvalidOperation),
   (.mutexUnlock, .EINVAL, stInvalidArgument), (.mutexUnlock, .EPERM, stInvalidOperation),
   (.mutexDestroy, .EBUSY, stInvalidArgument), (.mutexDestroy, .EINVAL, stInvalidArgument),
   (.keyCreate, .EAGAIN, stOutOfResources), (.keyCreate, .ENOMEM, stNoMemory),
   (.setSpecific, .EINVAL, stInvalidArgument)]

/-- The status for an error of a system call: the one in the table, otherwise `BAD_SYSTEMCALL`. -/
def statusFor (c : SysCall) (e : Errno) : Status :=
  match errorTable.find? fun r => decide (r.1 = c ∧ r.2.1 = e) with
  | some r => r.2.2
  | none => stBadSystemcall

/-- What thread `t` has stored under key `k`: its last successful set since the last allocation of the key
and since the last exit of the thread; null if there was none. -/
def lastStored (t k : Nat) : List (Nat × DtStep) → Nat → Nat
  | [], d => d
  | (_, .call (.alloc (.ok q))) :: h, d => lastStored t k h (if q = k then 0 else d)
  | (_, .allocWith (.ok q) _) :: h, d => lastStored t k h (if q = k then 0 else d)
  | (u, .call (.set q x none)) :: h, d => lastStored t k h (if u = t ∧ q = k then x else d)
  | (u, .exit _) :: h, d => lastStored t k h (if u = t then 0 else d)
  | _ :: h, d => lastStored t k h d

/-- Whether key `k` is allocated. -/
def keyInUse (k : Nat) : List (Nat × DtStep) → Bool → Bool
  | [], b => b
  | (_, .call (.alloc (.ok q))) :: h, b => keyInUse k h (if q = k then true else b)
  | (_, .allocWith (.ok q) _) :: h, b => keyInUse k h (if q = k then true else b)
  | (_, .call (.free q)) :: h, b => keyInUse k h (if q = k then false else b)
  | _ :: h, b => keyInUse k h b

/-- The destructor that was given at the last allocation of key `k`. -/
def dtorOf (k : Nat) : List (Nat × DtStep) → Option Nat → Option Nat
  | [], d => d
  | (_, .call (.alloc (.ok q))) :: h, d => dtorOf k h (if q = k then none else d)
  | (_, .allocWith (.ok q) f) :: h, d => dtorOf k h (if q = k then some f else d)
  | _ :: h, d => dtorOf k h d

/-- The system visits each key in use once. -/
def CompleteOrder (h : List (Nat × DtStep)) (order : List Nat) : Prop :=
  order.Nodup ∧ ∀ k, keyInUse k h false = true → k ∈ order

end Zy.Spec
