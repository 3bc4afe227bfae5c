import Verif.Spec.AtomicClients

/-!
# Specification: a stack whose head is exchanged atomically

A client program of the atomic operations: a singly linked stack that several threads use without a lock. The atomic
variable is the pointer to the first node, 0 if the stack is empty. `next` is the field of the nodes that points to the
following node. The library has no atomic read; a thread reads the head with `ZyanAtomicCompareExchange(&head, 0, 0)`
(include/Zycore/Internal/AtomicGNU.h lines 47-51). The nodes are never given back to an allocator.
-/

namespace Zy

variable {w : Nat}

/-- What a thread wants to do: push a node, or pop one. -/
inductive TCmd (w : Nat) where
  | push (a : BitVec w)
  | pop
deriving DecidableEq

/-- Where a thread is. -/
inductive TPhase (w : Nat) where
  | idle
  /-- about to write `a->next = old` -/
  | link (a old : BitVec w)
  /-- about to exchange the head `old` for `a` -/
  | swing (a old : BitVec w)
  /-- about to read `h->next` -/
  | look (h : BitVec w)
  /-- about to exchange the head `h` for `n` -/
  | take (h n : BitVec w)
deriving DecidableEq

/-- A thread: where it is, the commands after the one in progress, and what its pops gave so far (nothing if the stack was
empty). -/
structure TSt (w : Nat) where
  phase : TPhase w
  cmds : List (TCmd w)
  got : List (Option (BitVec w))
deriving DecidableEq

/-- Push: `old = head; do { a->next = old; r = CompareExchange(&head, old, a); } while (r != old && (old = r, 1));`
Pop: `h = head; while (h) { n = h->next; r = CompareExchange(&head, h, n); if (r == h) return h; h = r; } return 0;` -/
def stackAct : TSt w → Act w (BitVec w → BitVec w) (TSt w)
  | ⟨.idle, [], _⟩ => .stop
  | ⟨.idle, .push a :: cs, g⟩ => .call (.cas 0 0) fun r => ⟨.link a r, cs, g⟩
  | ⟨.idle, .pop :: cs, g⟩ =>
    .call (.cas 0 0) fun r => if r = 0 then ⟨.idle, cs, g ++ [none]⟩ else ⟨.look r, cs, g⟩
  | ⟨.link a old, cs, g⟩ => .plain fun next => (fun x => if x = a then old else next x, ⟨.swing a old, cs, g⟩)
  | ⟨.swing a old, cs, g⟩ => .call (.cas old a) fun r => if r = old then ⟨.idle, cs, g⟩ else ⟨.link a r, cs, g⟩
  | ⟨.look h, cs, g⟩ => .plain fun next => (next, ⟨.take h (next h), cs, g⟩)
  | ⟨.take h n, cs, g⟩ =>
    .call (.cas h n) fun r =>
      if r = h then ⟨.idle, cs, g ++ [some h]⟩
      else if r = 0 then ⟨.idle, cs, g ++ [none]⟩
      else ⟨.look r, cs, g⟩

/-- The threads at the beginning, with their programs. -/
def stackStart (next : BitVec w → BitVec w) (progs : List (List (TCmd w))) : CSys w (BitVec w → BitVec w) (TSt w) :=
  actStart 0 next (progs.map fun p => ⟨.idle, p, []⟩)

/-- A thread is through with its program. -/
def TSt.finished (t : TSt w) : Prop := t.phase = .idle ∧ t.cmds = []

/-! ## A stack used by one at a time -/

/-- Something that happens to a stack. -/
inductive TEv (w : Nat) where
  | pushed (a : BitVec w)
  | popped (r : Option (BitVec w))
deriving DecidableEq

/-- The stack after an event, with the top in front; nothing if the event cannot happen. -/
def stackStep (s : List (BitVec w)) : TEv w → Option (List (BitVec w))
  | .pushed a => some (a :: s)
  | .popped none => if s = [] then some [] else none
  | .popped (some a) => match s with
    | [] => none
    | x :: r => if x = a then some r else none

/-- The stack after some events, oldest first, at the beginning empty. -/
def stackAfter (es : List (TEv w)) : Option (List (BitVec w)) :=
  es.foldl (fun s e => s.bind fun s => stackStep s e) (some [])

/-- The command of an event. -/
def TEv.cmd : TEv w → TCmd w
  | .pushed a => .push a
  | .popped _ => .pop

/-- What a pop gave. -/
def TEv.result : TEv w → Option (Option (BitVec w))
  | .pushed _ => none
  | .popped r => some r

/-- The nodes from `v` on are those of the list, up to the null pointer. -/
def linked (next : BitVec w → BitVec w) : BitVec w → List (BitVec w) → Prop
  | v, [] => v = 0
  | v, a :: as => v = a ∧ a ≠ 0 ∧ linked next (next a) as

/-- The nodes that a program pushes. -/
def pushes (p : List (TCmd w)) : List (BitVec w) := p.filterMap fun | .push a => some a | .pop => none

/-- No node is pushed twice, by the same or by different threads, and none is the null pointer. -/
def PushedOnce (progs : List (List (TCmd w))) : Prop :=
  (∀ p ∈ progs, (pushes p).Nodup ∧ (0 : BitVec w) ∉ pushes p) ∧
    progs.Pairwise fun p q => ∀ a ∈ pushes p, a ∉ pushes q

/-- The nodes that were pushed, and those that were popped. -/
def pushedIn (es : List (TEv w)) : List (BitVec w) := es.filterMap fun | .pushed a => some a | .popped _ => none
def poppedIn (es : List (TEv w)) : List (BitVec w) := es.filterMap fun | .pushed _ => none | .popped r => r

end Zy
