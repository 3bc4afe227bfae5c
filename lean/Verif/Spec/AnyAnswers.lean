import Verif.Spec.Mixed
import Verif.Spec.Requests

/-!
# Specification: programs whose allocators may refuse

The allocators may grant or refuse every single request. The program may go on after a failure, use its objects
in any way, and try again.
-/

namespace Zy.Spec

open Zy

variable {α : Type}

/-- Whose a block is: the allocator that handed it out and the size of an element. -/
structure Owner where
  a : Nat
  esz : Nat
deriving DecidableEq, Repr

/-- The blocks in use. -/
abbrev Blocks := Nat → Option Owner

/-- No block is in use. -/
def Blocks.empty : Blocks := fun _ => none

/-- Another entry for one block. -/
def Blocks.put (h : Blocks) (b : Nat) (e : Option Owner) : Blocks := fun k => if k = b then e else h k

/-- The effect of one request on the blocks in use. There is none (`none`) for an improper request: an element
size or number of elements of zero; a block number is handed out that is in use; a block is moved or given back
that is not in use, or with another allocator or element size. (The number of elements with which a block is
given back is not compared with the number with which it was handed out.) -/
def blockStep (h : Blocks) : Event α → Option Blocks
  | .destroy _ => some h
  | .refused _ => some h
  | .alloc a b esz n => if esz ≠ 0 ∧ n ≠ 0 ∧ h b = none then some (h.put b (some ⟨a, esz⟩)) else none
  | .realloc a o b esz n =>
    if esz ≠ 0 ∧ n ≠ 0 ∧ h o = some ⟨a, esz⟩ ∧ h b = none then some ((h.put o none).put b (some ⟨a, esz⟩)) else none
  | .dealloc a b esz n => if esz ≠ 0 ∧ n ≠ 0 ∧ h b = some ⟨a, esz⟩ then some (h.put b none) else none

/-- The blocks in use after a log of requests, if all of them were proper. -/
def blocksOf (t : List (Event α)) : Option Blocks :=
  t.foldl (fun h e => h.bind fun h => blockStep h e) (some .empty)

end Zy.Spec

namespace Zy

open Spec

/-- The memory of an object: its block, and whose it is. -/
structure Seat where
  blk : Nat
  own : Option Owner
deriving DecidableEq, Repr

/-- The memory of a vector. -/
def seatOf (v : Vec Byte) : Option Seat :=
  v.data.map fun b => ⟨b.id, v.allocator.map fun a => ⟨a, v.esz⟩⟩

/-- The memory of the objects of a program. -/
def Desk.seats (p : Desk) : List (Option Seat) := p.objs.map fun o => o.bind fun o => seatOf o.store

/-- No two objects are in the same memory; all requests were proper; and the blocks in use are those of the
objects. -/
structure Disjoint (seats : List (Option Seat)) (t : List (Event Byte)) : Prop where
  apart : ∀ {i j : Nat} {p q : Seat}, seats[i]? = some (some p) → seats[j]? = some (some q) →
    p.blk = q.blk → i = j
  blocks : ∃ h, blocksOf t = some h ∧ ∀ k x, h k = some x ↔ ∃ i : Nat, seats[i]? = some (some ⟨k, some x⟩)

/-- The world after the program has set memory aside for a container; its number is the next one. -/
def World.aside (w : World Byte) : World Byte := { w with nextBlk := w.nextBlk + 1 }

/-- What remains of an object after the call that destroys it. The call may be repeated when it failed. -/
def remains (st : Status) (o : Obj) : Option Obj := if failed st then some o else none

/-- One call of a function of the library, or several calls for the same object, in a program. Nothing is assumed of
the arguments, of the answers of the allocators, or of the results, except that the call returns. -/
inductive Happens (p : Desk) : Desk → Prop where
  /-- A new vector with an allocator. -/
  | newVec {s : VS Byte} (h : Made p.w s) (ha : s.v.allocator ≠ none) :
      Happens p ⟨p.objs ++ [some (.vec s.v)], s.w⟩
  /-- A new vector in memory of the program. -/
  | newVecOn {s : VS Byte} (h : Made p.w.aside s) (ha : s.v.allocator = none)
      (hb : s.v.data.map Block.id = some p.w.nextBlk) : Happens p ⟨p.objs ++ [some (.vec s.v)], s.w⟩
  /-- A new string with an allocator. -/
  | newStr {t : Str} (h : MadeStr p.w t) (ha : t.s.v.allocator ≠ none) :
      Happens p ⟨p.objs ++ [some t.obj], t.s.w⟩
  /-- A new string in memory of the program. -/
  | newStrOn {t : Str} (h : MadeStr p.w.aside t) (ha : t.s.v.allocator = none)
      (hb : t.s.v.data.map Block.id = some p.w.nextBlk) : Happens p ⟨p.objs ++ [some t.obj], t.s.w⟩
  /-- A new bitset with an allocator. -/
  | newBits {t : Bits} (h : MadeBits p.w t) (ha : t.s.v.allocator ≠ none) :
      Happens p ⟨p.objs ++ [some t.obj], t.s.w⟩
  /-- A new bitset in memory of the program. -/
  | newBitsOn {t : Bits} (h : MadeBits p.w.aside t) (ha : t.s.v.allocator = none)
      (hb : t.s.v.data.map Block.id = some p.w.nextBlk) : Happens p ⟨p.objs ++ [some t.obj], t.s.w⟩
  /-- A vector cannot be created. -/
  | noVec {esz cap g th : Nat} {dt : Bool} {al : Option Nat} {st : Status} {o : Option (Vec Byte)} {w : World Byte}
      (h : vecInitEx p.w esz cap dt al g th = (st, o, w)) (hst : failed st = true) : Happens p ⟨p.objs, w⟩
  /-- A vector cannot be copied. -/
  | noCopy {src : Vec Byte} {cap g th : Nat} {al : Option Nat} {st : Status} {o : Option (Vec Byte)} {w : World Byte}
      (h : vecDuplicateEx p.w src cap al g th = .ret (st, o, w)) (hst : failed st = true) : Happens p ⟨p.objs, w⟩
  /-- A string cannot be created. -/
  | noStr {cap g th : Nat} {al : Option Nat} {st : Status} {o : Option Str} {w : World Byte}
      (h : strInitEx p.w cap al g th = .ret (st, o, w)) (hst : failed st = true) : Happens p ⟨p.objs, w⟩
  /-- A string cannot be copied. -/
  | noStrCopy {src : View} {cap g th : Nat} {al : Option Nat} {st : Status} {o : Option Str} {w : World Byte}
      (h : strDuplicateEx p.w src cap al g th = .ret (st, o, w)) (hst : failed st = true) : Happens p ⟨p.objs, w⟩
  /-- Strings cannot be concatenated. -/
  | noStrConcat {x y : View} {cap g th : Nat} {al : Option Nat} {st : Status} {o : Option Str} {w : World Byte}
      (h : strConcatEx p.w x y cap al g th = .ret (st, o, w)) (hst : failed st = true) : Happens p ⟨p.objs, w⟩
  /-- A bitset cannot be created. -/
  | noBits {count g th : Nat} {al : Option Nat} {st : Status} {o : Option Bits} {w : World Byte}
      (h : bsInitEx p.w count al g th = .ret (st, o, w)) (hst : failed st = true) : Happens p ⟨p.objs, w⟩
  /-- Calls that modify a vector. -/
  | vec {i : Nat} {v : Vec Byte} {s : VS Byte} (hi : p.objs[i]? = some (some (.vec v))) (h : LaterVec ⟨v, p.w⟩ s) :
      Happens p ⟨p.objs.set i (some (.vec s.v)), s.w⟩
  /-- Calls that modify a string. -/
  | str {i : Nat} {v : Vec Byte} {fx : Bool} {t : Str} (hi : p.objs[i]? = some (some (.str v fx)))
      (h : Later ⟨⟨v, p.w⟩, fx⟩ t) : Happens p ⟨p.objs.set i (some t.obj), t.s.w⟩
  /-- Calls that modify a bitset. -/
  | bits {i n : Nat} {v : Vec Byte} {t : Bits} (hi : p.objs[i]? = some (some (.bits n v)))
      (h : LaterBits ⟨n, ⟨v, p.w⟩⟩ t) : Happens p ⟨p.objs.set i (some t.obj), t.s.w⟩
  /-- A vector is destroyed, or the allocator refuses to take the memory back. -/
  | vecEnd {i : Nat} {v : Vec Byte} {st : Status} {s : VS Byte} (hi : p.objs[i]? = some (some (.vec v)))
      (h : vecDestroy ⟨v, p.w⟩ = .ret (st, s)) : Happens p ⟨p.objs.set i (remains st (.vec s.v)), s.w⟩
  /-- A string is destroyed, or the allocator refuses to take the memory back. -/
  | strEnd {i : Nat} {v : Vec Byte} {fx : Bool} {st : Status} {t : Str}
      (hi : p.objs[i]? = some (some (.str v fx))) (h : strDestroy ⟨⟨v, p.w⟩, fx⟩ = .ret (st, t)) :
      Happens p ⟨p.objs.set i (remains st t.obj), t.s.w⟩
  /-- A bitset is destroyed, or the allocator refuses to take the memory back. -/
  | bitsEnd {i n : Nat} {v : Vec Byte} {st : Status} {t : Bits} (hi : p.objs[i]? = some (some (.bits n v)))
      (h : bsDestroy ⟨n, ⟨v, p.w⟩⟩ = .ret (st, t)) : Happens p ⟨p.objs.set i (remains st t.obj), t.s.w⟩

/-- A program: any number of calls, beginning without objects in the world `w`. -/
inductive Program (w : World Byte) : Desk → Prop where
  | start : Program w ⟨[], w⟩
  | next {p q : Desk} (t : Program w p) (h : Happens p q) : Program w q

end Zy
