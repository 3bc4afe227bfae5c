import Verif.Model.VectorBytes
import Verif.Spec.VectorRun

/-!
# Elements and their bytes

What it means that a piece of memory holds a list of elements, and that a vector on bytes is in the state
of a vector on elements. An element that was never written (`none`) may have any bytes.
-/

namespace Zy

open Spec

/-- `bs` are the bytes of the element slot `x`; each element has `e` bytes. -/
def BytesOf (e : Nat) (x : Cell Elem) (bs : Elem) : Prop := bs.length = e ∧ ∀ c, x = some c → bs = c

/-- The memory holds the elements one after the other and then less than one element. -/
inductive Packs (e : Nat) : List (Cell Elem) → List (Cell Byte) → Prop where
  | rest (tail : List (Cell Byte)) (h : tail.length < e) : Packs e [] tail
  | elem {x : Cell Elem} {bs : Elem} {xs : List (Cell Elem)} {mem : List (Cell Byte)}
      (hx : BytesOf e x bs) (h : Packs e xs mem) : Packs e (x :: xs) (bs ++ mem)

/-- The same event; the destructor gets an element, or its bytes. -/
def SameEvent (e : Nat) : Event Elem → Event Elem → Prop
  | .destroy x, .destroy y => ∃ bs, y = some bs ∧ BytesOf e x bs
  | a, b => a = b

/-- The same events in the same order. -/
inductive SameTrace (e : Nat) : List (Event Elem) → List (Event Elem) → Prop where
  | nil : SameTrace e [] []
  | snoc {t t' : List (Event Elem)} {x y : Event Elem} (h : SameTrace e t t') (hx : SameEvent e x y) :
      SameTrace e (t ++ [x]) (t' ++ [y])

/-- The same allocator in the same state, and the same events so far. -/
def SameWorld (e : Nat) (w w' : World Elem) : Prop :=
  w'.oracle = w.oracle ∧ w'.calls = w.calls ∧ w'.nextBlk = w.nextBlk ∧
    SameTrace e w.trace w'.trace

/-- The same block, which holds the elements; a block is smaller than the address space. -/
def SameData (e : Nat) : Option (Block Elem) → Option (Block Byte) → Prop
  | none, none => True
  | some b, some b' => b'.id = b.id ∧ Packs e b.cells b'.cells ∧ b'.cells.length < 2 ^ 64
  | _, _ => False

/-- The same vector, with elements and with bytes. -/
structure SameVec (v : Vec Elem) (v' : Vec Byte) : Prop where
  allocator : v'.allocator = v.allocator
  growth : v'.growth = v.growth
  shrink : v'.shrink = v.shrink
  size : v'.size = v.size
  cap : v'.cap = v.cap
  esz : v'.esz = v.esz
  hasDtor : v'.hasDtor = v.hasDtor
  data : SameData v.esz v.data v'.data
  pos : 1 ≤ v.esz

/-- The same vector in the same world. -/
def SameState (s : VS Elem) (t : VB) : Prop := SameVec s.v t.v ∧ SameWorld s.v.esz s.w t.w

/-- The same pointer argument: elements elsewhere, or a place in a block. -/
def SameSrc (e : Nat) : Src Elem → Src Byte → Prop
  | .null, .null => True
  | .ext xs, .ext mem => Packs e xs mem
  | .self blk i, .self blk' i' => blk' = blk ∧ i' = i * e
  | _, _ => False

/-- The same constructor: on the same slot it gives the same status and the same new content. -/
def SameCtor (e : Nat) : Ctor Elem → CtorB → Prop
  | none, none => True
  | some c, some c' => ∀ x bs, BytesOf e x bs → (c' bs).1 = (c x).1 ∧ BytesOf e (c x).2 (c' bs).2
  | _, _ => False

/-- The API operations, with elements given by their bytes. -/
inductive VOpB where
  | push (bytes : Elem)
  | insertRange (i : Nat) (bytes : List (Cell Byte)) (count : Nat)
  | emplace (i : Nat) (c : CtorB)
  | set (i : Nat) (bytes : Elem)
  | swap (i j : Nat)
  | deleteRange (i n : Nat)
  | pop
  | clear
  | resize (n : Nat) (init : Option Elem)
  | reserve (c : Nat)
  | shrinkToFit

/-- An initializer: a null pointer or a pointer to the bytes of one element. -/
def initSrcB : Option Elem → Src Byte
  | some bs => .ext bs
  | none => .null

/-- Reading of an operation as a call of the function of `Model/VectorBytes.lean`. -/
def vecOpB (s : VB) : VOpB → Out (Status × VB)
  | .push bs => vecPushBackB s (.ext bs)
  | .insertRange i bs n => vecInsertRangeB s i (.ext bs) n
  | .emplace i c => vecEmplaceExB s i c
  | .set i bs => vecSetB s i (.ext bs)
  | .swap i j => vecSwapB s i j
  | .deleteRange i n => vecDeleteRangeB s i n
  | .pop => vecPopBackB s
  | .clear => vecResizeExB s 0 .null
  | .resize n init => vecResizeExB s n (initSrcB init)
  | .reserve c => vecReserveB s c
  | .shrinkToFit => vecShrinkToFitB s

/-- A history of API calls on bytes. -/
def runVecB (s : VB) : List VOpB → Out (List Status × VB)
  | [] => .ret ([], s)
  | op :: ops =>
    (vecOpB s op).bind fun r => (runVecB r.2 ops).bind fun q => .ret (r.1 :: q.1, q.2)

/-- The same initializer. -/
def SameInit (e : Nat) : Option (Cell Elem) → Option Elem → Prop
  | none, none => True
  | some x, some bs => BytesOf e x bs
  | _, _ => False

/-- The same operation. -/
def SameOp (e : Nat) : VOp Elem → VOpB → Prop
  | .push x, .push bs => BytesOf e x bs
  | .insertRange i xs, .insertRange i' bs n =>
    i' = i ∧ n = xs.length ∧ Packs e xs bs
  | .emplace i c, .emplace i' c' => i' = i ∧ SameCtor e c c'
  | .set i x, .set i' bs => i' = i ∧ BytesOf e x bs
  | .swap i j, .swap i' j' => i' = i ∧ j' = j
  | .deleteRange i n, .deleteRange i' n' => i' = i ∧ n' = n
  | .pop, .pop => True
  | .clear, .clear => True
  | .resize n init, .resize n' init' => n' = n ∧ SameInit e init init'
  | .reserve c, .reserve c' => c' = c
  | .shrinkToFit, .shrinkToFit => True
  | _, _ => False

/-- The same operations in the same order. -/
inductive SameOps (e : Nat) : List (VOp Elem) → List VOpB → Prop where
  | nil : SameOps e [] []
  | cons {op : VOp Elem} {op' : VOpB} {ops : List (VOp Elem)} {ops' : List VOpB} (h : SameOp e op op')
      (hs : SameOps e ops ops') : SameOps e (op :: ops) (op' :: ops')

/-- The same result: the status, and the states. -/
def SameResult (r : Status × VS Elem) (r' : Status × VB) : Prop := r'.1 = r.1 ∧ SameState r.2 r'.2

end Zy
