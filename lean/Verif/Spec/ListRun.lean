import Verif.Model.List
import Verif.Spec.List

/-!
# How the list specification is applied to the model

API operations as calls of the modelled functions, histories of calls, traversals by a caller, and the
checker for the allocation trace.
-/

namespace Zy

open Spec

variable {α : Type}

/-- A caller walks from the head to the `i`-th node, stopping at the end of the list. -/
def seek (s : LS α) (p : Option Nat) : Nat → Out (Option Nat)
  | 0 => .ret p
  | i + 1 =>
    if p.isNone then .ret p
    else (listGetNext s p).bind fun r => seek s r.2 i

/-- The `i`-th node, null if there is none. -/
def nodeAt (s : LS α) (i : Nat) : Out (Option Nat) := seek s (listGetHead s).2 i

/-- The initializer argument of `ZyanListResizeEx`. -/
def linit : Option (Cell α) → LSrc α
  | some x => .ext x
  | none => .null

/-- Reading of an API operation as a call of the modelled function. -/
def listOp (s : LS α) : LOp α → Out (Status × LS α)
  | .pushBack x => listPushBack s (.ext x)
  | .pushFront x => listPushFront s (.ext x)
  | .pushBackOf i => (nodeAt s i).bind fun p => listPushBack s (listNodeData p)
  | .pushFrontOf i => (nodeAt s i).bind fun p => listPushFront s (listNodeData p)
  | .emplaceBack c => listEmplaceBack s c
  | .emplaceFront c => listEmplaceFront s c
  | .popBack => listPopBack s
  | .popFront => listPopFront s
  | .set i x => (nodeAt s i).bind fun p => listSetNodeData s p (.ext x)
  | .clear => listClear s
  | .resize n init => listResizeEx s n (linit init)

/-- A history of API calls: the statuses returned and the final state. -/
def runList (s : LS α) : List (LOp α) → Out (List Status × LS α)
  | [] => .ret ([], s)
  | op :: ops =>
    (listOp s op).bind fun r => (runList r.2 ops).bind fun q => .ret (r.1 :: q.1, q.2)

/-- A caller visits up to `k` nodes with `step` (next or previous) and reads their data. Being shown a
null pointer ends the walk; not reaching the end within `k` nodes is reported as divergence. -/
def walk (s : LS α) (step : Option Nat → Out (Status × Option Nat)) (p : Option Nat) :
    Nat → Out (List (Cell α))
  | 0 => if p.isNone then .ret [] else .ub .diverge
  | k + 1 =>
    if p.isNone then .ret []
    else
      (readSrc s (listNodeData p)).bind fun x =>
      (step p).bind fun r =>
      (walk s step r.2 k).bind fun xs => .ret (x :: xs)

/-- The elements seen when walking from the head along the next pointers, at most `size` nodes. -/
def forward (s : LS α) : Out (List (Cell α)) :=
  walk s (listGetNext s) (listGetHead s).2 (listGetSize s).2

/-- The elements seen when walking from the tail along the previous pointers, at most `size` nodes. -/
def backward (s : LS α) : Out (List (Cell α)) :=
  walk s (listGetPrev s) (listGetTail s).2 (listGetSize s).2

/-- The elements that were handed to the destructor according to a trace. -/
def lDestroyed (t : List (Event α)) : List (Cell α) :=
  t.filterMap fun | .destroy x => some x | _ => none

/-- One step of replaying an allocation history of nodes: the live nodes (allocator, address, bytes).
`none` means that the history is illegal: an address was handed out twice without being given back, or
something was given back that is not live, or with another size or to another allocator. -/
def nodesStep (st : Option (List (Nat × Nat × Nat))) (e : Event α) :
    Option (List (Nat × Nat × Nat)) :=
  match st, e with
  | none, _ => none
  | some l, .destroy _ => some l
  | some l, .refused _ => some l
  | some l, .alloc a p bytes n =>
    if (∃ x ∈ l, x.2.1 = p) ∨ n ≠ 1 then none else some ((a, p, bytes) :: l)
  | some _, .realloc .. => none
  | some l, .dealloc a p bytes n =>
    if (a, p, bytes) ∈ l ∧ n = 1 then some (l.erase (a, p, bytes)) else none

/-- Replay of a whole trace, starting without live nodes. -/
def liveNodes (t : List (Event α)) : Option (List (Nat × Nat × Nat)) := t.foldl nodesStep (some [])

/-- No event of the trace involves an allocator. -/
def noAllocator (t : List (Event α)) : Prop := ∀ e ∈ t, ∃ x, e = .destroy x

/-- An environment in which nothing has happened yet. -/
def LFresh (w : LWorld α) : Prop := w.calls = 0 ∧ w.frees = 0 ∧ w.trace = []

/-- No request to give memory back ever fails. -/
def FreesSucceed (w : LWorld α) : Prop := ∀ k, failed (w.freeSt k) = false

/-- A freshly initialised list: either a dynamic one, whose element size leaves room for the node
header and whose allocator always takes memory back, or one on a caller buffer with the stated number
of bytes at a place where the end of one more node is still addressable. `K` tells where its nodes come
from: a buffer of `cap` bytes has room for `cap / (16 + esz)` nodes. -/
inductive Created : Source → Bool → LS α → Prop where
  | dynamic {esz a : Nat} {dtor : Bool} {w : LWorld α} {st : Status} {l : ZList} (hw : LFresh w)
      (hf : FreesSucceed w) (he : 16 + esz < 18446744073709551616)
      (h : listInitEx esz dtor (some a) = (st, some l)) :
      Created (.dynamic w.allocSt) dtor ⟨l, fun _ => none, w⟩
  | fixed {esz b cap bytes : Nat} {dtor : Bool} {w : LWorld α} {st : Status} {l : ZList}
      (hw : LFresh w) (hc : cap + (16 + esz) < 18446744073709551616) (hb : cap ≤ bytes)
      (h : listInitBuffer esz dtor (some b) cap = (st, some l)) :
      Created (.fixed (cap / (16 + esz))) dtor ⟨l, bufferMem bytes esz, w⟩

/-- The links are consistent: there is a sequence of different addresses, as many as the list reports
elements, that starts at the head, ends at the tail, and whose nodes point to their neighbours in the
sequence (and to nothing at both ends). -/
def LinkedBy (s : LS α) (as : List Nat) : Prop :=
  as.Nodup ∧ as.length = (listGetSize s).2 ∧ (listGetHead s).2 = as.head? ∧
    (listGetTail s).2 = as.getLast? ∧
    ∀ i (h : i < as.length), ∃ nd, s.mem as[i] = some nd ∧ nd.next = some as[i + 1]? ∧
      nd.prev = some (if i = 0 then none else as[i - 1]?)

/-- The node addresses lie inside of a buffer of `cap` bytes and do not overlap, for nodes of `bytes`
bytes. -/
def InBuffer (cap bytes : Nat) (as : List Nat) : Prop :=
  (∀ a ∈ as, a + bytes ≤ cap) ∧ ∀ a ∈ as, ∀ b ∈ as, a ≠ b → a + bytes ≤ b ∨ b + bytes ≤ a

/-- The elements that one call put into the list, judged by the request, the returned status and the
elements before (`a`) and after (`a'`). -/
def lstored (a : List (Cell α)) (op : LOp α) (st : Status) (a' : List (Cell α)) : List (Cell α) :=
  match op with
  | .resize _ _ => a'.drop a.length
  | .pushBack x => if failed st then [] else [x]
  | .pushFront x => if failed st then [] else [x]
  | .pushBackOf i => if failed st then [] else a[i]?.toList
  | .pushFrontOf i => if failed st then [] else a[i]?.toList
  | .emplaceBack _ => if failed st then [] else a'.getLast?.toList
  | .emplaceFront _ => if failed st then [] else a'.head?.toList
  | .set _ x => if failed st then [] else [x]
  | _ => []

/-- All elements that a history of calls puts into the list. -/
def lstoredRun (s : LS α) : List (LOp α) → List (Cell α)
  | [] => []
  | op :: ops =>
    match listOp s op with
    | .ret (st, s') =>
      match forward s, forward s' with
      | .ret a, .ret a' => lstored a op st a' ++ lstoredRun s' ops
      | _, _ => []
    | .ub _ => []

/-- The same list with an allocator that from now on answers requests to give memory back as `f` says. -/
def LS.withFrees (s : LS α) (f : Nat → Status) : LS α := { s with w := { s.w with freeSt := f } }

/-- By how many elements an operation can make a list longer at most. -/
def lcost : LOp α → Nat
  | .resize n _ => n
  | _ => 1

/-- The empty queue. -/
def emptyDeque : Deque α := ⟨[], 0, []⟩

end Zy
