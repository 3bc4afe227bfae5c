import Verif.Model.Vector
import Verif.Spec.Vector

/-!
# How the vector specification is applied to the model

API operations as calls of the modelled functions, histories of calls, what a caller can observe of a
vector, and the checkers for the allocator and destructor traces.
-/

namespace Zy

open Spec

variable {α : Type}

/-- The elements that were handed to the destructor according to a trace. -/
def destroyedOf (t : List (Event α)) : List (Cell α) :=
  t.filterMap fun | .destroy x => some x | _ => none

/-- The one live block of a single-vector allocation history: allocator, block, element size, count. -/
structure Live where
  a : Nat
  blk : Nat
  esz : Nat
  n : Nat
deriving DecidableEq, Repr

/-- One step of replaying an allocation history. The outer `none` means that the history is illegal
(double allocation, reallocation or deallocation of something that is not the live block). -/
def replayStep (st : Option (Option Live)) (e : Event α) : Option (Option Live) :=
  match st, e with
  | none, _ => none
  | some l, .destroy _ => some l
  | some l, .refused _ => some l
  | some none, .alloc a b esz n => some (some ⟨a, b, esz, n⟩)
  | some (some _), .alloc .. => none
  | some (some l), .realloc a o b esz n =>
    if l.a = a ∧ l.blk = o ∧ l.esz = esz ∧ b ≠ o then some (some ⟨a, b, esz, n⟩) else none
  | some none, .realloc .. => none
  | some (some l), .dealloc a b esz n => if l = ⟨a, b, esz, n⟩ then some none else none
  | some none, .dealloc .. => none

/-- Replay of a whole trace, starting without a live block. -/
def replay (t : List (Event α)) : Option (Option Live) := t.foldl replayStep (some none)

/-- The initializer argument of `ZyanVectorResizeEx`: a null pointer or a pointer to one element. -/
def initSrc : Option (Cell α) → Src α
  | some x => .ext [x]
  | none => .null

/-- Reading of an API operation as a call of the modelled function. -/
def vecOp (s : VS α) : VOp α → Out (Status × VS α)
  | .push x => vecPushBack s (.ext [x])
  | .insertRange i xs => vecInsertRange s i (.ext xs) xs.length
  | .emplace i c => vecEmplaceEx s i c
  | .set i x => vecSet s i (.ext [x])
  | .swap i j => vecSwap s i j
  | .deleteRange i n => vecDeleteRange s i n
  | .pop => vecPopBack s
  | .clear => vecClear s
  | .resize n init => vecResizeEx s n (initSrc init)
  | .reserve c => vecReserve s c
  | .shrinkToFit => vecShrinkToFit s

/-- A history of API calls: the statuses returned and the final state. -/
def runVec (s : VS α) : List (VOp α) → Out (List Status × VS α)
  | [] => .ret ([], s)
  | op :: ops =>
    (vecOp s op).bind fun r => (runVec r.2 ops).bind fun q => .ret (r.1 :: q.1, q.2)

/-- The elements of the vector: slots `0 .. size-1` of its storage. Reading them is undefined behaviour
if they are not all inside of the block. -/
def contents (s : VS α) : Out (List (Cell α)) :=
  withData s.v.data fun b => readRange b.cells 0 s.v.size

/-- What is observable of a vector: elements, capacity, and the elements destroyed so far. -/
def absOf (s : VS α) : LState α :=
  { elems := match s.v.data with | some b => b.cells.take s.v.size | none => []
    cap := s.v.cap
    dead := destroyedOf s.w.trace }

/-- The elements that one call put into the vector, judged by the request, the returned status and the
observable vector before (`a`) and after (`a'`). -/
def stored (a : LState α) (op : VOp α) (st : Status) (a' : LState α) : List (Cell α) :=
  if failed st then [] else
  match op with
  | .push x => [x]
  | .insertRange _ xs => xs
  | .emplace i _ => (a'.elems.drop i).take 1
  | .set _ x => [x]
  | .resize _ _ => a'.elems.drop a.elems.length
  | _ => []

/-- All elements that a history of calls puts into the vector. -/
def storedRun (s : VS α) : List (VOp α) → List (Cell α)
  | [] => []
  | op :: ops =>
    match vecOp s op with
    | .ret (st, s') => stored (absOf s) op st (absOf s') ++ storedRun s' ops
    | .ub _ => []

/-- No allocator call ever fails. -/
def Reliable (w : World α) : Prop := ∀ k, failed (w.oracle k) = false

/-- No event of the trace involves an allocator. -/
def onlyDestroys (t : List (Event α)) : Prop := ∀ e ∈ t, ∃ x, e = .destroy x

/-- A world in which nothing has happened yet. -/
def Fresh (w : World α) : Prop := w.calls = 0 ∧ w.trace = []

/-- Vectors that a program can obtain: by initialising a dynamic vector (with the parameters `P`) or a
vector on a caller buffer that really has the claimed capacity, or by duplicating such a vector in
either way, followed by any number of API calls whose requests are in the domain of the specification,
with an allocator that does not fail. -/
inductive Reach : Params → VS α → Prop where
  | init {P : Params} {w w' : World α} {cap a : Nat} {st : Status} {v : Vec α} (hw : Fresh w)
      (hr : Reliable w) (hP : P.allocator = some a ∧ P.growth ≤ 255 ∧ P.thr ≤ 255)
      (hc : max 1 cap * P.esz < 18446744073709551616)
      (h : vecInitEx w P.esz cap P.dtor (some a) P.growth P.thr = (st, some v, w')) :
      Reach P ⟨v, w'⟩
  | initBuffer {P : Params} {w : World α} {cap : Nat} {b : Block α} {st : Status} {v : Vec α}
      (hw : Fresh w) (hr : Reliable w) (hP : P.allocator = none ∧ P.growth = 1 ∧ P.thr = 0)
      (hb : cap ≤ b.cells.length) (he : P.esz < 18446744073709551616)
      (h : vecInitBuffer P.esz (some b) cap P.dtor = (st, some v)) :
      Reach P ⟨v, w⟩
  | dup {P P₀ : Params} {s : VS α} {w w' : World α} {cap a : Nat} {st : Status} {v : Vec α}
      (h : Reach P₀ s) (hw : Fresh w) (hr : Reliable w)
      (hP : P.allocator = some a ∧ P.growth ≤ 255 ∧ P.thr ≤ 255 ∧ P.esz = P₀.esz ∧ P.dtor = P₀.dtor)
      (hc : max 1 cap * P.esz < 18446744073709551616)
      (hd : vecDuplicateEx w s.v cap (some a) P.growth P.thr = .ret (st, some v, w')) :
      Reach P ⟨v, w'⟩
  | dupBuffer {P P₀ : Params} {s : VS α} {w : World α} {cap : Nat} {b : Block α} {st : Status}
      {v : Vec α} (h : Reach P₀ s) (hw : Fresh w) (hr : Reliable w)
      (hP : P.allocator = none ∧ P.growth = 1 ∧ P.thr = 0 ∧ P.esz = P₀.esz ∧ P.dtor = P₀.dtor)
      (hb : cap ≤ b.cells.length)
      (hd : vecDuplicateBuffer s.v (some b) cap = .ret (st, some v)) :
      Reach P ⟨v, w⟩
  | step {P : Params} {s s' : VS α} {st : Status} {op : VOp α} (h : Reach P s)
      (hd : InDomain P (absOf s) op) (hs : vecOp s op = .ret (st, s')) : Reach P s'

/-- The state `s` in an environment where the next allocator call returns `st`. -/
def refuseNext (s : VS α) (st : Status) : VS α :=
  { s with w := { s.w with oracle := fun k => if k = s.w.calls then st else s.w.oracle k } }

end Zy
