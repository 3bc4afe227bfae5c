import Verif.Base

/-!
# Specification of lists: a double-ended queue

Nothing in this file refers to the model of the code. An abstract list is the sequence of its elements,
together with the number of requests for memory made so far and the elements handed to the destructor
so far.
-/

namespace Zy.Spec

open Zy

/-- Where the nodes of a list come from: an allocator, whose answer to the `k`-th request is given, or a
buffer with room for `n` nodes. -/
inductive Source where
  | dynamic (answer : Nat → Status)
  | fixed (n : Nat)

/-- An abstract list. `dead` lists the elements the destructor has received, oldest first. -/
structure Deque (α : Type) where
  elems : List (Cell α)
  asked : Nat
  dead : List (Cell α)
deriving DecidableEq, Repr

/-- Operations of the list API. -/
inductive LOp (α : Type) where
  | pushBack (x : Cell α)
  | pushFront (x : Cell α)
  /-- push a copy of the `i`-th element of the list itself -/
  | pushBackOf (i : Nat)
  | pushFrontOf (i : Nat)
  | emplaceBack (c : Ctor α)
  | emplaceFront (c : Ctor α)
  | popBack
  | popFront
  | set (i : Nat) (x : Cell α)
  | clear
  | resize (n : Nat) (init : Option (Cell α))

variable {α : Type}

/-- The answer to a request for one more node. -/
def answerOf (K : Source) (s : Deque α) : Status :=
  match K with
  | .dynamic answer => answer s.asked
  | .fixed n => if s.elems.length < n then stSuccess else stInsufficient

/-- Insert one element at the back, if a node can be had. -/
def addBack (K : Source) (s : Deque α) (x : Cell α) : Status × Deque α :=
  if failed (answerOf K s) then (answerOf K s, { s with asked := s.asked + 1 })
  else (stSuccess, { s with elems := s.elems ++ [x], asked := s.asked + 1 })

/-- Insert one element at the front, if a node can be had. -/
def addFront (K : Source) (s : Deque α) (x : Cell α) : Status × Deque α :=
  if failed (answerOf K s) then (answerOf K s, { s with asked := s.asked + 1 })
  else (stSuccess, { s with elems := x :: s.elems, asked := s.asked + 1 })

/-- Insert elements at the back one after the other until a request is refused. -/
def addMany (K : Source) (s : Deque α) : List (Cell α) → Status × Deque α
  | [] => (stSuccess, s)
  | x :: xs =>
    let r := addBack K s x
    if failed r.1 then r else addMany K r.2 xs

/-- What a constructor callback makes of an unspecified slot. -/
def constructed (c : Ctor α) (junk : Cell α) : Cell α :=
  match c with
  | none => junk
  | some f => (f junk).2

/-- The `k` new elements of a growing `resize`: copies of the initializer if there is one, otherwise
unspecified. -/
def fresh (init : Option (Cell α)) (k : Nat) (junk : List (Cell α)) : List (Cell α) :=
  match init with
  | some x => List.replicate k x
  | none => junk

/-- Elements handed to the destructor, if there is one. -/
def buried (dtor : Bool) (xs : List (Cell α)) : List (Cell α) := if dtor then xs else []

/-- What a double-ended queue would do. `junk` supplies the content of new elements that the operation
leaves unspecified. A pointer to an element that does not exist is a null pointer. The status of a
constructor callback is ignored. -/
def lstep (K : Source) (dtor : Bool) (junk : List (Cell α)) (s : Deque α) :
    LOp α → Status × Deque α
  | .pushBack x => addBack K s x
  | .pushFront x => addFront K s x
  | .pushBackOf i =>
    match s.elems[i]? with
    | none => (stInvalidArgument, s)
    | some x => addBack K s x
  | .pushFrontOf i =>
    match s.elems[i]? with
    | none => (stInvalidArgument, s)
    | some x => addFront K s x
  | .emplaceBack c => addBack K s (constructed c junk.head?.join)
  | .emplaceFront c => addFront K s (constructed c junk.head?.join)
  | .popBack =>
    if s.elems = [] then (stInvalidOperation, s)
    else (stSuccess, { s with elems := s.elems.dropLast,
                              dead := s.dead ++ buried dtor s.elems.getLast?.toList })
  | .popFront =>
    match s.elems with
    | [] => (stInvalidOperation, s)
    | x :: xs => (stSuccess, { s with elems := xs, dead := s.dead ++ buried dtor [x] })
  | .set i x =>
    match s.elems[i]? with
    | none => (stInvalidArgument, s)
    | some old =>
      (stSuccess, { s with elems := s.elems.set i x, dead := s.dead ++ buried dtor [old] })
  | .clear => (stSuccess, { s with elems := [], dead := s.dead ++ buried dtor s.elems })
  | .resize n init =>
    if n = 0 then (stSuccess, { s with elems := [], dead := s.dead ++ buried dtor s.elems })
    else if n ≤ s.elems.length then
      (stSuccess, { s with elems := s.elems.take n,
                           dead := s.dead ++ buried dtor (s.elems.drop n).reverse })
    else addMany K s (fresh init (n - s.elems.length) junk)

/-- How many unspecified elements the operation needs. -/
def ljunk (s : Deque α) : LOp α → Nat
  | .emplaceBack _ => 1
  | .emplaceFront _ => 1
  | .resize n _ => n - s.elems.length
  | _ => 0

/-- A list of `n` elements can count one more in 64 bits. (Only a matter of dynamic lists; a buffer
cannot hold that many.) -/
def OneMore (K : Source) (n : Nat) : Prop :=
  match K with
  | .dynamic _ => n + 1 < 18446744073709551616
  | .fixed _ => True

/-- The number of elements of the list stays countable in 64 bits. -/
def LFits (K : Source) (s : Deque α) : LOp α → Prop
  | .resize n _ => n < 18446744073709551616
  | _ => OneMore K s.elems.length

/-- A history of operations with the statuses they return: every step is the step of the queue, with
some unspecified elements of the right number. -/
inductive LRuns (K : Source) (dtor : Bool) :
    Deque α → List (LOp α) → List Status → Deque α → Prop where
  | nil (s : Deque α) : LRuns K dtor s [] [] s
  | cons {s s' s'' : Deque α} {op : LOp α} {ops : List (LOp α)} {st : Status} {sts : List Status}
      (junk : List (Cell α)) (hj : junk.length = ljunk s op)
      (h : lstep K dtor junk s op = (st, s')) (t : LRuns K dtor s' ops sts s'') :
      LRuns K dtor s (op :: ops) (st :: sts) s''

/-- No operation of the history makes the list too long, whatever the unspecified elements are. -/
inductive LAllFit (K : Source) (dtor : Bool) : Deque α → List (LOp α) → Prop where
  | nil (s : Deque α) : LAllFit K dtor s []
  | cons {s : Deque α} {op : LOp α} {ops : List (LOp α)} (h : LFits K s op)
      (t : ∀ junk, junk.length = ljunk s op → LAllFit K dtor (lstep K dtor junk s op).2 ops) :
      LAllFit K dtor s (op :: ops)

end Zy.Spec
