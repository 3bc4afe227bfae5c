import Verif.Spec.ListRun

/-!
# Specification: several lists that share the memory and the allocators

The first part does not refer to the model of the code: a program with several lists is a program with several
queues. What they have in common is the number of requests for memory made so far (the answers of the allocators
depend on it) and the record of destroyed elements. The second part says how the operations are calls of the
modelled functions in one memory.
-/

namespace Zy.Spec

open Zy

variable {α : Type}

/-- Operations of a program with several lists, which are numbered in the order of their creation. -/
inductive SLOp (α : Type) where
  /-- create a list of elements of `esz` bytes with allocator `a` -/
  | create (esz : Nat) (dtor : Bool) (a : Nat)
  /-- an operation on list `i` -/
  | on (i : Nat) (op : LOp α)
  /-- push a copy of the `k`-th element of list `j` to the back of list `i` -/
  | copyBack (i j k : Nat)
  /-- push a copy of the `k`-th element of list `j` to the front of list `i` -/
  | copyFront (i j k : Nat)
  /-- destroy list `i` -/
  | destroy (i : Nat)

/-- The queues of the program: for each one whether it has a destructor, and its elements (`none` if it has been
destroyed). -/
structure Deques (α : Type) where
  lists : List (Option (Bool × List (Cell α)))
  asked : Nat
  dead : List (Cell α)
deriving DecidableEq, Repr

/-- The queue with number `i`. -/
def Deques.get (s : Deques α) (i : Nat) : Option (Bool × List (Cell α)) := s.lists[i]?.join

/-- Replace the queue with number `i`. -/
def Deques.put (s : Deques α) (i : Nat) (dt : Bool) (d : Deque α) : Deques α :=
  ⟨s.lists.set i (some (dt, d.elems)), d.asked, d.dead⟩

/-- What the program with queues does. A list that does not exist is a null pointer. -/
def slstep (answer : Nat → Status) (junk : List (Cell α)) (s : Deques α) : SLOp α → Status × Deques α
  | .create esz dt _ =>
    if esz = 0 then (stInvalidArgument, s) else (stSuccess, { s with lists := s.lists ++ [some (dt, [])] })
  | .on i op =>
    match s.get i with
    | none => (stInvalidArgument, s)
    | some (dt, es) =>
      let r := lstep (.dynamic answer) dt junk ⟨es, s.asked, s.dead⟩ op
      (r.1, s.put i dt r.2)
  | .copyBack i j k =>
    match s.get i, (s.get j).bind (·.2[k]?) with
    | some (dt, es), some x =>
      let r := addBack (.dynamic answer) ⟨es, s.asked, s.dead⟩ x
      (r.1, s.put i dt r.2)
    | _, _ => (stInvalidArgument, s)
  | .copyFront i j k =>
    match s.get i, (s.get j).bind (·.2[k]?) with
    | some (dt, es), some x =>
      let r := addFront (.dynamic answer) ⟨es, s.asked, s.dead⟩ x
      (r.1, s.put i dt r.2)
    | _, _ => (stInvalidArgument, s)
  | .destroy i =>
    match s.get i with
    | none => (stInvalidArgument, s)
    | some (dt, es) => (stSuccess, { s with lists := s.lists.set i none, dead := s.dead ++ buried dt es })

/-- How many unspecified elements the operation needs. -/
def sljunk (s : Deques α) : SLOp α → Nat
  | .on i op =>
    match s.get i with
    | none => 0
    | some (_, es) => ljunk ⟨es, s.asked, s.dead⟩ op
  | _ => 0

/-- A history of operations with the statuses they return. -/
inductive SLRuns (answer : Nat → Status) : Deques α → List (SLOp α) → List Status → Deques α → Prop where
  | nil (s : Deques α) : SLRuns answer s [] [] s
  | cons {s s' s'' : Deques α} {op : SLOp α} {ops : List (SLOp α)} {st : Status} {sts : List Status}
      (junk : List (Cell α)) (hj : junk.length = sljunk s op) (h : slstep answer junk s op = (st, s'))
      (t : SLRuns answer s' ops sts s'') : SLRuns answer s (op :: ops) (st :: sts) s''

/-- The list that an operation changes. -/
def SLOp.target : SLOp α → Option Nat
  | .create .. => none
  | .on i _ => some i
  | .copyBack i _ _ => some i
  | .copyFront i _ _ => some i
  | .destroy i => some i

/-- No queues yet. -/
def noDeques : Deques α := ⟨[], 0, []⟩

end Zy.Spec

namespace Zy

open Spec

variable {α : Type}

/-- Several lists in one memory (`none` for a list that has been destroyed). -/
structure LHeap (α : Type) where
  lists : List (Option ZList)
  mem : Nat → Option (LNode α)
  w : LWorld α

/-- The list with number `i`. -/
def LHeap.get (h : LHeap α) (i : Nat) : Option ZList := h.lists[i]?.join

/-- A list structure in the memory of the program. -/
def LHeap.with (h : LHeap α) (l : ZList) : LS α := ⟨l, h.mem, h.w⟩

/-- The state after a call for the list with number `i`. -/
def LHeap.store (h : LHeap α) (i : Nat) (s : LS α) : LHeap α := ⟨h.lists.set i (some s.l), s.mem, s.w⟩

/-- Reading of an operation as a call of the modelled function (`ZyanListInitEx`, a function of the list,
`ZyanListPushBack`/`ZyanListPushFront` with the data of a node of another list, `ZyanListDestroy`). -/
def slOp (h : LHeap α) : SLOp α → Out (Status × LHeap α)
  | .create esz dt a =>
    let r := listInitEx esz dt (some a)
    .ret (r.1, { h with lists := h.lists ++ (r.2.map some).toList })
  | .on i op =>
    match h.get i with
    | none => .ret (stInvalidArgument, h)
    | some l => (listOp (h.with l) op).bind fun r => .ret (r.1, h.store i r.2)
  | .copyBack i j k =>
    match h.get i, h.get j with
    | some l, some m =>
      (nodeAt (h.with m) k).bind fun p =>
      (listPushBack (h.with l) (listNodeData p)).bind fun r => .ret (r.1, h.store i r.2)
    | _, _ => .ret (stInvalidArgument, h)
  | .copyFront i j k =>
    match h.get i, h.get j with
    | some l, some m =>
      (nodeAt (h.with m) k).bind fun p =>
      (listPushFront (h.with l) (listNodeData p)).bind fun r => .ret (r.1, h.store i r.2)
    | _, _ => .ret (stInvalidArgument, h)
  | .destroy i =>
    match h.get i with
    | none => .ret (stInvalidArgument, h)
    | some l => (listDestroy (h.with l)).bind fun r => .ret (r.1, ⟨h.lists.set i none, r.2.mem, r.2.w⟩)

/-- A history of calls: the statuses returned and the final state. -/
def runSL (h : LHeap α) : List (SLOp α) → Out (List Status × LHeap α)
  | [] => .ret ([], h)
  | op :: ops => (slOp h op).bind fun r => (runSL r.2 ops).bind fun q => .ret (r.1 :: q.1, q.2)

/-- By how many elements an operation can make a list longer at most. -/
def slcost : SLOp α → Nat
  | .on _ op => lcost op
  | .copyBack .. => 1
  | .copyFront .. => 1
  | _ => 0

/-- The size of a node, which consists of two pointers and an element, can be computed. -/
def SLSizes (ops : List (SLOp α)) : Prop :=
  ∀ esz dt a, SLOp.create esz dt a ∈ ops → 16 + esz < 18446744073709551616

/-- The lists show what the queues contain: the same ones exist, walking from the head shows the elements,
walking from the tail shows them in reverse, and the reported size is their number. -/
def ShowsAll (h : LHeap α) (d : Deques α) : Prop :=
  h.lists.length = d.lists.length ∧ ∀ i,
    match h.get i, d.get i with
    | none, none => True
    | some l, some (_, es) => forward (h.with l) = .ret es ∧ backward (h.with l) = .ret es.reverse ∧
        listGetSize (h.with l) = (stSuccess, es.length)
    | _, _ => False

/-- The nodes of the lists: allocator, address and number of bytes. -/
def NodeOf (h : LHeap α) (x : Nat × Nat × Nat) : Prop :=
  ∃ i l k, h.get i = some l ∧ l.allocator = some x.1 ∧ nodeAt (h.with l) k = .ret (some x.2.1) ∧ x.2.2 = 16 + l.esz

end Zy
