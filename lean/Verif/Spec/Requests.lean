import Verif.Spec.StringRun
import Verif.Spec.BitsetRun
import Verif.Spec.ListRun

/-!
# What an allocator may expect of its callers

The functions of an allocator are called with a pointer, an element size and a number of elements. The
default allocator asserts that the last two are not zero (src/Allocator.c lines 43-46, 62-65, 82-85).
-/

namespace Zy

open Spec

variable {α : Type}

/-- A block that a container holds: the allocator it came from, the block, and the size of its elements. -/
structure Holding where
  allocator : Nat
  block : Nat
  esz : Nat
deriving DecidableEq, Repr

/-- One event, for a container that holds at most one block. The outer `none` means that the request was
improper: an element size or number of zero, a block that is not held, another allocator than the one the
block came from, another element size, or a second block. Refused requests change nothing. -/
def requestStep (st : Option (Option Holding)) (e : Event α) : Option (Option Holding) :=
  match st, e with
  | none, _ => none
  | some h, .destroy _ => some h
  | some h, .refused _ => some h
  | some none, .alloc a b e n => if e ≠ 0 ∧ n ≠ 0 then some (some ⟨a, b, e⟩) else none
  | some (some _), .alloc .. => none
  | some none, .realloc .. => none
  | some (some h), .realloc a old new e n =>
    if h = ⟨a, old, e⟩ ∧ e ≠ 0 ∧ n ≠ 0 then some (some ⟨a, new, e⟩) else none
  | some none, .dealloc .. => none
  | some (some h), .dealloc a b e n => if h = ⟨a, b, e⟩ ∧ e ≠ 0 ∧ n ≠ 0 then some none else none

/-- What the container holds after the events, if all of its requests were proper. -/
def requests (t : List (Event α)) : Option (Option Holding) := t.foldl requestStep (some none)

/-- The event is a call of the destructor of an element. -/
def isDestroy : Event α → Bool
  | .destroy _ => true
  | _ => false

/-- The container was created at a time when `pre` had happened; since then all requests were proper, and
it now holds its own memory. A container on a buffer of the caller has not called any allocator. -/
def Proper (pre : List (Event α)) (s : VS α) : Prop :=
  ∃ es, s.w.trace = pre ++ es ∧
    match s.v.allocator with
    | none => ∀ e ∈ es, isDestroy e = true
    | some a => ∃ b, s.v.data = some b ∧ requests es = some (some ⟨a, b.id, s.v.esz⟩)

/-- The vector was created successfully by one of the four constructors, when the world was `w`. -/
inductive Made (w : World α) : VS α → Prop where
  | init {esz cap g th : Nat} {dt : Bool} {al : Option Nat} {st : Status} {v : Vec α} {w' : World α}
      (h : vecInitEx w esz cap dt al g th = (st, some v, w')) (hst : failed st = false) : Made w ⟨v, w'⟩
  | buffer {esz cap : Nat} {dt : Bool} {b : Option (Block α)} {st : Status} {v : Vec α}
      (h : vecInitBuffer esz b cap dt = (st, some v)) : Made w ⟨v, w⟩
  | duplicate {src : Vec α} {cap g th : Nat} {al : Option Nat} {st : Status} {v : Vec α} {w' : World α}
      (h : vecDuplicateEx w src cap al g th = .ret (st, some v, w')) (hst : failed st = false) : Made w ⟨v, w'⟩
  | duplicateBuffer {src : Vec α} {cap : Nat} {b : Option (Block α)} {st : Status} {v : Vec α}
      (h : vecDuplicateBuffer src b cap = .ret (st, some v)) : Made w ⟨v, w⟩

/-- The string was created by one of the six constructors, when the world was `w`. -/
inductive MadeStr (w : World Byte) : Str → Prop where
  | init {cap g th : Nat} {al : Option Nat} {st : Status} {t : Str} {w' : World Byte}
      (h : strInitEx w cap al g th = .ret (st, some t, w')) : MadeStr w t
  | buffer {cap : Nat} {b : Option (Block Byte)} {st : Status} {t : Str}
      (h : strInitBuffer w b cap = .ret (st, some t)) : MadeStr w t
  | duplicate {src : View} {cap g th : Nat} {al : Option Nat} {st : Status} {t : Str} {w' : World Byte}
      (h : strDuplicateEx w src cap al g th = .ret (st, some t, w')) : MadeStr w t
  | duplicateBuffer {src : View} {cap : Nat} {b : Option (Block Byte)} {st : Status} {t : Str}
      (h : strDuplicateBuffer w src b cap = .ret (st, some t)) : MadeStr w t
  | concat {x y : View} {cap g th : Nat} {al : Option Nat} {st : Status} {t : Str} {w' : World Byte}
      (h : strConcatEx w x y cap al g th = .ret (st, some t, w')) : MadeStr w t
  | concatBuffer {x y : View} {cap : Nat} {b : Option (Block Byte)} {st : Status} {t : Str}
      (h : strConcatBuffer w x y b cap = .ret (st, some t)) : MadeStr w t

/-- The bitset was created by one of the two constructors, when the world was `w`. -/
inductive MadeBits (w : World Byte) : Bits → Prop where
  | init {count g th : Nat} {al : Option Nat} {st : Status} {t : Bits} {w' : World Byte}
      (h : bsInitEx w count al g th = .ret (st, some t, w')) : MadeBits w t
  | buffer {count cap : Nat} {b : Option (Block Byte)} {st : Status} {t : Bits}
      (h : bsInitBuffer w count b cap = .ret (st, some t)) : MadeBits w t

/-- All memory was given back with proper requests since `pre`. -/
def Released (pre trace : List (Event α)) : Prop := ∃ es, trace = pre ++ es ∧ requests es = some none

/-- `s'` results from `s` by any calls of the functions that modify a vector. The elements to store may come
from anywhere, also from the vector itself. -/
inductive LaterVec : VS α → VS α → Prop where
  | refl (s : VS α) : LaterVec s s
  | step {s u v : VS α} {op : VOp α} {st : Status} (h : LaterVec s u) (hs : vecOp u op = .ret (st, v)) :
      LaterVec s v
  | push {s u v : VS α} {x : Src α} {st : Status} (h : LaterVec s u) (hs : vecPushBack u x = .ret (st, v)) :
      LaterVec s v
  | insert {s u v : VS α} {x : Src α} {i n : Nat} {st : Status} (h : LaterVec s u)
      (hs : vecInsertRange u i x n = .ret (st, v)) : LaterVec s v
  | set {s u v : VS α} {x : Src α} {i : Nat} {st : Status} (h : LaterVec s u)
      (hs : vecSet u i x = .ret (st, v)) : LaterVec s v
  | resize {s u v : VS α} {x : Src α} {n : Nat} {st : Status} (h : LaterVec s u)
      (hs : vecResizeEx u n x = .ret (st, v)) : LaterVec s v

/-- `t'` results from `t` by any calls of the functions that modify a string. -/
inductive Later : Str → Str → Prop where
  | refl (t : Str) : Later t t
  | step {t u v : Str} {op : SOp} {st : Status} (h : Later t u) (hs : strOp u op = .ret (st, v)) : Later t v
  | appendSelf {t u v : Str} {src : Src Byte} {n : Nat} {st : Status} (h : Later t u)
      (hs : strAppendSrc u src n = .ret (st, v)) : Later t v
  | decU {t u v : Str} {value padding : Nat} {st : Status} (h : Later t u)
      (hs : strAppendDecU u value padding = .ret (st, v)) : Later t v
  | hexU {t u v : Str} {value padding : Nat} {upper : Bool} {st : Status} (h : Later t u)
      (hs : strAppendHexU u value padding upper = .ret (st, v)) : Later t v
  | decS {t u v : Str} {value : BitVec 64} {padding : Nat} {sign : Bool} {pre : Option View} {st : Status}
      (h : Later t u) (hs : strAppendDecS u value padding sign pre = .ret (st, v)) : Later t v
  | hexS {t u v : Str} {value : BitVec 64} {padding : Nat} {upper sign : Bool} {pre : Option View}
      {st : Status} (h : Later t u) (hs : strAppendHexS u value padding upper sign pre = .ret (st, v)) :
      Later t v
  | format {t u v : Str} {fmt : Fmt} {st : Status} (h : Later t u)
      (hs : strAppendFormat u fmt = .ret (st, v)) : Later t v

/-- `t'` results from `t` by any calls of the functions that modify a bitset. -/
inductive LaterBits : Bits → Bits → Prop where
  | refl (t : Bits) : LaterBits t t
  | step {t u v : Bits} {op : BOp} {st : Status} (h : LaterBits t u) (hs : bsOp u op = .ret (st, v)) :
      LaterBits t v
  | perform {t u v src : Bits} {op : Byte → Byte → Status × Byte} {st : Status} (h : LaterBits t u)
      (hs : bsPerform op u src = .ret (st, v)) : LaterBits t v

/-- One event, for a container that holds any number of blocks (a linked list has one for every node). The
outer `none` means that the request was improper. -/
def nodeStep (st : Option (List Holding)) (e : Event α) : Option (List Holding) :=
  match st, e with
  | none, _ => none
  | some l, .destroy _ => some l
  | some l, .refused _ => some l
  | some l, .alloc a b e n => if e ≠ 0 ∧ n ≠ 0 then some (⟨a, b, e⟩ :: l) else none
  | some _, .realloc .. => none
  | some l, .dealloc a b e n => if ⟨a, b, e⟩ ∈ l ∧ e ≠ 0 ∧ n ≠ 0 then some (l.erase ⟨a, b, e⟩) else none

/-- The blocks that the container holds after the events, if all of its requests were proper. -/
def nodeRequests (t : List (Event α)) : Option (List Holding) := t.foldl nodeStep (some [])

end Zy
