import Verif.Model.Sync

/-!
# Specification of critical sections and thread-local storage

Everything is read off the history of calls.
-/

namespace Zy.Spec

/-- The call let the thread into the section. -/
def entered : CsCall × CsResult → Bool
  | (.enter, .status s) => s == stSuccess
  | (.tryEnter, .bool b) => b
  | _ => false

/-- The call was a leave that the section accepted. -/
def left : CsCall × CsResult → Bool
  | (.leave, .status s) => s == stSuccess
  | _ => false

/-- How often a thread has entered the section. -/
def enters (t : Nat) (h : List CsEvent) : Nat := h.countP fun e => e.1 == t && entered e.2

/-- How often a thread has left the section. -/
def leaves (t : Nat) (h : List CsEvent) : Nat := h.countP fun e => e.1 == t && left e.2

/-- The thread is inside of the section: it has entered more often than it has left. -/
def Inside (t : Nat) (h : List CsEvent) : Prop := leaves t h < enters t h

/-- The value that thread `t` has stored under key `k`: what its last successful set said, since the last
allocation of the key; null if there was none. Calls of other threads other than allocations do not
matter. -/
def stored (t k : Nat) : List (Nat × TlsCall) → Nat → Nat
  | [], d => d
  | (_, .alloc (.ok q)) :: h, d => stored t k h (if q = k then 0 else d)
  | (u, .set q x none) :: h, d => stored t k h (if u = t ∧ q = k then x else d)
  | _ :: h, d => stored t k h d

/-- The keys in use after a history. -/
def inUse (k : Nat) : List (Nat × TlsCall) → Bool → Bool
  | [], b => b
  | (_, .alloc (.ok q)) :: h, b => inUse k h (if q = k then true else b)
  | (_, .free q) :: h, b => inUse k h (if q = k then false else b)
  | _ :: h, b => inUse k h b

/-- A history that respects POSIX: gets and sets only for keys in use. -/
def KeysInUse (h : List (Nat × TlsCall)) : Prop :=
  ∀ p u c r, h = p ++ (u, c) :: r →
    (∀ k, c = .get k → inUse k p false = true) ∧ (∀ k d f, c = .set k d f → inUse k p false = true)

/-- The call does not belong to another thread's use of its own values: it is a call of thread `t`, or
allocates or frees an index. -/
def concerns (t : Nat) : Nat × TlsCall → Bool
  | (_, .alloc _) => true
  | (_, .free _) => true
  | (u, _) => u == t

end Zy.Spec
