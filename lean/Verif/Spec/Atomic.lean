import Verif.Model.Atomic

/-!
# Specification of the atomic operations

Calls that happen one after the other, each at once.
-/

namespace Zy.Spec

variable {w : Nat}

/-- What a call does if nothing else happens at the same time: the new value of the variable, and the
result. Increment and decrement return the new value, compare-exchange the old one. -/
def whole : AOp w → BitVec w → BitVec w × BitVec w
  | .inc, v => (v + 1, v + 1)
  | .dec, v => (v - 1, v - 1)
  | .cas comparand value, v => (if v = comparand then value else v, v)

/-- A completed call: the thread, the call and its result. -/
abbrev ACall (w : Nat) := Nat × AOp w × BitVec w

/-- The calls of the list, one after the other, take the variable from the first to the second value and
have the results listed. -/
inductive Sequential : BitVec w → List (ACall w) → BitVec w → Prop where
  | nil (v : BitVec w) : Sequential v [] v
  | cons {v v' : BitVec w} {op : AOp w} {i : Nat} {l : List (ACall w)} (h : Sequential (whole op v).1 l v') :
      Sequential v ((i, op, (whole op v).2) :: l) v'

/-- The calls of one thread. -/
def byThread (l : List (ACall w)) (i : Nat) : List (AOp w × BitVec w) := (l.filter (·.1 == i)).map (·.2)

/-- How many of all calls of all programs are of a kind. -/
def total (p : AOp w → Bool) (progs : List (List (AOp w))) : Nat := progs.flatten.countP p

end Zy.Spec
