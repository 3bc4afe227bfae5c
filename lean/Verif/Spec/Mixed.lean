import Verif.Spec.BitsetRun
import Verif.Spec.StringRun
import Verif.Spec.Together

/-!
# Specification: a program with vectors, strings and bitsets

They share the allocators. Objects are numbered in the order of their creation; a destroyed object keeps its
number.
-/

namespace Zy.Spec

open Zy

/-- The logical operations of bitsets. -/
inductive Logic where
  | and
  | or
  | xor

/-- What they do to one bit. -/
def Logic.bit : Logic → Bool → Bool → Bool
  | .and, x, y => x && y
  | .or, x, y => x || y
  | .xor, x, y => x != y

/-- What a program does next. -/
inductive Deed where
  /-- A new vector with memory from allocator `a`. -/
  | newVector (a growth thr esz cap : Nat) (dtor : Bool)
  /-- A new vector in memory of the program, which has these contents. -/
  | newVectorOn (cells : List (Cell Byte)) (esz cap : Nat) (dtor : Bool)
  /-- A copy of vector `i` with memory from allocator `a`. -/
  | copyVector (i a growth thr cap : Nat)
  /-- A new string with memory from allocator `a`. -/
  | newString (a growth thr cap : Nat)
  /-- A new string in memory of the program. -/
  | newStringOn (cells : List (Cell Byte)) (cap : Nat)
  /-- A copy of string `i`. -/
  | copyString (i a growth thr cap : Nat)
  /-- The concatenation of strings `i` and `j`. -/
  | joinStrings (i j a growth thr cap : Nat)
  /-- A new bitset with `n` bits and memory from allocator `a`. -/
  | newBits (n a growth thr : Nat)
  /-- A new bitset in memory of the program. -/
  | newBitsOn (n : Nat) (cells : List (Cell Byte)) (cap : Nat)
  /-- An operation on vector `i`. -/
  | vectorCall (i : Nat) (op : VOp Byte)
  /-- An operation on string `i`. -/
  | stringCall (i : Nat) (op : SOp)
  /-- String `j` is appended to string `i`. -/
  | appendString (i j : Nat)
  /-- An operation on bitset `i`. -/
  | bitsCall (i : Nat) (op : BOp)
  /-- Bitset `i` is combined with bitset `j`. -/
  | logic (f : Logic) (i j : Nat)
  /-- The end of object `i`. -/
  | destroy (i : Nat)

/-! ## What should happen -/

/-- An object of the specification. -/
inductive AObj where
  | vec (x : AVec Byte)
  | str (P : Params) (s : SState)
  | bits (P : Params) (s : BState)

/-- The elements that go to the destructor when an object ends. -/
def AObj.killed : AObj → List (Cell Byte)
  | .vec x => Spec.killed x.P x.elems
  | _ => []

/-- The objects of the program (`none` after the end), and the elements that went to the destructor. -/
structure Shelf where
  objs : List (Option AObj)
  dead : List (Cell Byte)

/-- One more object. -/
def Shelf.add (S : Shelf) (x : AObj) : Shelf := { S with objs := S.objs ++ [some x] }

/-- Object `i` is replaced. -/
def Shelf.put (S : Shelf) (i : Nat) (x : AObj) : Shelf := { S with objs := S.objs.set i (some x) }

/-- Parameters of strings and bitsets with an allocator. -/
def bytesFrom (a growth thr : Nat) : Params := ⟨some a, growth, thr, 1, false⟩

/-- Parameters of strings and bitsets in memory of the program. -/
def bytesOn : Params := ⟨none, 1, 0, 1, false⟩

/-- One command concerns one object, which behaves as if it were alone. (`ZyanVectorInitEx` returns the status of
the allocator, which is not a failure.) -/
inductive Done (S : Shelf) : Deed → Status → Shelf → Prop where
  | newVector {a growth thr esz cap : Nat} {dtor : Bool} {st : Status} (h : failed st = false) :
      Done S (.newVector a growth thr esz cap dtor) st
        (S.add (.vec ⟨⟨some a, growth, thr, esz, dtor⟩, [], max 1 cap⟩))
  | newVectorOn {cells : List (Cell Byte)} {esz cap : Nat} {dtor : Bool} :
      Done S (.newVectorOn cells esz cap dtor) stSuccess (S.add (.vec ⟨⟨none, 1, 0, esz, dtor⟩, [], cap⟩))
  | copyVector {i a growth thr cap : Nat} {x : AVec Byte} (h : S.objs[i]? = some (some (.vec x))) :
      Done S (.copyVector i a growth thr cap) stSuccess
        (S.add (.vec ⟨⟨some a, growth, thr, x.P.esz, x.P.dtor⟩, x.elems, max 1 (max cap x.elems.length)⟩))
  | newString {a growth thr cap : Nat} :
      Done S (.newString a growth thr cap) stSuccess (S.add (.str (bytesFrom a growth thr) ⟨[], max 32 cap + 1⟩))
  | newStringOn {cells : List (Cell Byte)} {cap : Nat} :
      Done S (.newStringOn cells cap) stSuccess (S.add (.str bytesOn ⟨[], cap⟩))
  | copyString {i a growth thr cap : Nat} {P : Params} {x : SState} (h : S.objs[i]? = some (some (.str P x))) :
      Done S (.copyString i a growth thr cap) stSuccess
        (S.add (.str (bytesFrom a growth thr) ⟨x.text, max 32 (max cap x.text.length) + 1⟩))
  | joinStrings {i j a growth thr cap : Nat} {P P' : Params} {x y : SState}
      (h : S.objs[i]? = some (some (.str P x))) (h' : S.objs[j]? = some (some (.str P' y))) :
      Done S (.joinStrings i j a growth thr cap) stSuccess
        (S.add (.str (bytesFrom a growth thr)
          ⟨x.text ++ y.text, max 32 (max cap (x.text.length + y.text.length)) + 1⟩))
  | newBits {n a growth thr : Nat} :
      Done S (.newBits n a growth thr) stSuccess
        (S.add (.bits (bytesFrom a growth thr) ⟨List.replicate n false, [], max 1 (n / 8)⟩))
  | newBitsOn {n : Nat} {cells : List (Cell Byte)} {cap : Nat} :
      Done S (.newBitsOn n cells cap) stSuccess (S.add (.bits bytesOn ⟨List.replicate n false, [], cap⟩))
  | vectorCall {i : Nat} {op : VOp Byte} {x : AVec Byte} {y : LState Byte} {st : Status}
      (h : S.objs[i]? = some (some (.vec x))) (junk : List (Cell Byte))
      (hj : junk.length = junkLen ⟨x.elems, x.cap, []⟩ op)
      (hs : step x.P junk ⟨x.elems, x.cap, []⟩ op = (st, y)) :
      Done S (.vectorCall i op) st ⟨S.objs.set i (some (.vec ⟨x.P, y.elems, y.cap⟩)), S.dead ++ y.dead⟩
  | stringCall {i : Nat} {op : SOp} {P : Params} {x y : SState} {st : Status}
      (h : S.objs[i]? = some (some (.str P x))) (junk : List (Cell Byte)) (hj : junk.length = sjunkLen x op)
      (hs : sstep P junk x op = (st, y)) : Done S (.stringCall i op) st (S.put i (.str P y))
  | appendString {i j : Nat} {P P' : Params} {x y : SState} (h : S.objs[i]? = some (some (.str P x)))
      (h' : S.objs[j]? = some (some (.str P' y))) :
      Done S (.appendString i j) (appendText P x y.text).1 (S.put i (.str P (appendText P x y.text).2))
  | bitsCall {i : Nat} {op : BOp} {P : Params} {x : BState} (h : S.objs[i]? = some (some (.bits P x))) :
      Done S (.bitsCall i op) (bstep P x op).1 (S.put i (.bits P (bstep P x op).2))
  | logic {f : Logic} {i j : Nat} {P P' : Params} {x y : BState} (h : S.objs[i]? = some (some (.bits P x)))
      (h' : S.objs[j]? = some (some (.bits P' y))) :
      Done S (.logic f i j) stSuccess (S.put i (.bits P
        ⟨(combine f.bit (x.bits ++ x.stray) (y.bits ++ y.stray)).take x.bits.length,
          (combine f.bit (x.bits ++ x.stray) (y.bits ++ y.stray)).drop x.bits.length, x.cap⟩))
  | destroy {i : Nat} {x : AObj} (h : S.objs[i]? = some (some x)) :
      Done S (.destroy i) stSuccess ⟨S.objs.set i none, S.dead ++ x.killed⟩

/-- Growth factor and threshold are what a machine byte can hold. -/
def Factors (growth thr : Nat) : Prop := 1 ≤ growth ∧ growth ≤ 255 ∧ thr ≤ 255

/-- The commands for which the library keeps its promises: growth factors and thresholds are bytes, sizes fit into
the machine word, memory of the program is as large as it is said to be, bitsets are created with whole bytes,
only objects of the right kind are used that exist, and no string is appended to itself. -/
def Reasonable (S : Shelf) : Deed → Prop
  | .newVector _ growth thr esz cap _ =>
    Factors growth thr ∧ 1 ≤ esz ∧ max 1 cap * esz < 18446744073709551616
  | .newVectorOn cells esz cap _ => 1 ≤ esz ∧ esz < 18446744073709551616 ∧ 1 ≤ cap ∧ cap ≤ cells.length
  | .copyVector i _ growth thr cap =>
    Factors growth thr ∧ ∃ x, S.objs[i]? = some (some (.vec x)) ∧ max 1 cap * x.P.esz < 18446744073709551616
  | .newString _ growth thr cap => Factors growth thr ∧ max 32 cap + 1 < 18446744073709551616
  | .newStringOn cells cap => 1 ≤ cap ∧ cap ≤ cells.length
  | .copyString i _ growth thr cap =>
    Factors growth thr ∧ max 32 cap + 1 < 18446744073709551616 ∧
      ∃ P x, S.objs[i]? = some (some (.str P x)) ∧ SFits (x.text.length + 1)
  | .joinStrings i j _ growth thr cap =>
    Factors growth thr ∧ max 32 cap + 1 < 18446744073709551616 ∧
      ∃ P P' x y, S.objs[i]? = some (some (.str P x)) ∧ S.objs[j]? = some (some (.str P' y)) ∧
        SFits (x.text.length + y.text.length + 1)
  | .newBits n _ growth thr => Factors growth thr ∧ n % 8 = 0 ∧ n < 34359738368
  | .newBitsOn n cells cap => n % 8 = 0 ∧ n < 34359738368 ∧ 1 ≤ cap ∧ n / 8 ≤ cap ∧ cap ≤ cells.length
  | .vectorCall i op => ∃ x, S.objs[i]? = some (some (.vec x)) ∧ InDomain x.P ⟨x.elems, x.cap, []⟩ op
  | .stringCall i op => ∃ P x, S.objs[i]? = some (some (.str P x)) ∧ SInDomain x op
  | .appendString i j => i ≠ j ∧
      ∃ P P' x y, S.objs[i]? = some (some (.str P x)) ∧ S.objs[j]? = some (some (.str P' y)) ∧
        SFits (x.text.length + y.text.length + 1)
  | .bitsCall i op => ∃ P x, S.objs[i]? = some (some (.bits P x)) ∧ BInDomain P x op
  | .logic _ i j => i ≠ j ∧
      ∃ P P' x y, S.objs[i]? = some (some (.bits P x)) ∧ S.objs[j]? = some (some (.bits P' y))
  | .destroy i => ∃ x, S.objs[i]? = some (some x)

/-- A whole program. -/
inductive Story : Shelf → List Deed → List Status → Shelf → Prop where
  | nil (S : Shelf) : Story S [] [] S
  | cons {S S' S'' : Shelf} {c : Deed} {cs : List Deed} {st : Status} {sts : List Status}
      (h : Done S c st S') (t : Story S' cs sts S'') : Story S (c :: cs) (st :: sts) S''

/-- Every command of the program is reasonable, whatever the unspecified elements are. -/
inductive AllReasonable : Shelf → List Deed → Prop where
  | nil (S : Shelf) : AllReasonable S []
  | cons {S : Shelf} {c : Deed} {cs : List Deed} (h : Reasonable S c)
      (t : ∀ st S', Done S c st S' → AllReasonable S' cs) : AllReasonable S (c :: cs)

end Zy.Spec

namespace Zy

open Spec

/-! ## What the library does -/

/-- An object of the program; its environment is that of the program. -/
inductive Obj where
  | vec (v : Vec Byte)
  | str (v : Vec Byte) (fixed : Bool)
  | bits (n : Nat) (v : Vec Byte)

/-- The vector inside. -/
def Obj.store : Obj → Vec Byte
  | .vec v => v
  | .str v _ => v
  | .bits _ v => v

/-- A string of the model as an object. -/
def Str.obj (t : Str) : Obj := .str t.s.v t.fixed

/-- A bitset of the model as an object. -/
def Bits.obj (t : Bits) : Obj := .bits t.size t.s.v

/-- The objects of a program, and its world. -/
structure Desk where
  objs : List (Option Obj)
  w : World Byte

/-- The string of a program. -/
def Desk.str (p : Desk) (i : Nat) : Out Str :=
  match p.objs[i]? with
  | some (some (.str v fx)) => .ret ⟨⟨v, p.w⟩, fx⟩
  | _ => .ub .uaf

/-- The bitset of a program. -/
def Desk.bits (p : Desk) (i : Nat) : Out Bits :=
  match p.objs[i]? with
  | some (some (.bits n v)) => .ret ⟨n, ⟨v, p.w⟩⟩
  | _ => .ub .uaf

/-- The vector of a program. -/
def Desk.vec (p : Desk) (i : Nat) : Out (VS Byte) :=
  match p.objs[i]? with
  | some (some (.vec v)) => .ret ⟨v, p.w⟩
  | _ => .ub .uaf

/-- The functions for the logical operations. -/
def Logic.call : Logic → Bits → Bits → Out (Status × Bits)
  | .and => bsAnd
  | .or => bsOr
  | .xor => bsXor

/-- One command as a call of the modelled function. A source string is passed as its view. (Strings that are
appended to themselves are the subject of `Model/StringAlias`, bitsets combined with themselves that of
`Model/BitsetAlias`.) -/
def Desk.exec (p : Desk) : Deed → Out (Status × Desk)
  | .newVector a growth thr esz cap dtor =>
    let r := vecInitEx p.w esz cap dtor (some a) growth thr
    .ret (r.1, ⟨p.objs ++ [r.2.1.map .vec], r.2.2⟩)
  | .newVectorOn cells esz cap dtor =>
    let r := vecInitBuffer esz (some ⟨p.w.nextBlk, cells⟩) cap dtor
    .ret (r.1, ⟨p.objs ++ [r.2.map .vec], { p.w with nextBlk := p.w.nextBlk + 1 }⟩)
  | .copyVector i a growth thr cap =>
    (p.vec i).bind fun s => (vecDuplicateEx p.w s.v cap (some a) growth thr).bind fun r =>
      .ret (r.1, ⟨p.objs ++ [r.2.1.map .vec], r.2.2⟩)
  | .newString a growth thr cap =>
    (strInitEx p.w cap (some a) growth thr).bind fun r => .ret (r.1, ⟨p.objs ++ [r.2.1.map Str.obj], r.2.2⟩)
  | .newStringOn cells cap =>
    (strInitBuffer p.w (some ⟨p.w.nextBlk, cells⟩) cap).bind fun r =>
      .ret (r.1, ⟨p.objs ++ [r.2.map Str.obj], { p.w with nextBlk := p.w.nextBlk + 1 }⟩)
  | .copyString i a growth thr cap =>
    (p.str i).bind fun t => (strDuplicateEx p.w (strView t) cap (some a) growth thr).bind fun r =>
      .ret (r.1, ⟨p.objs ++ [r.2.1.map Str.obj], r.2.2⟩)
  | .joinStrings i j a growth thr cap =>
    (p.str i).bind fun t => (p.str j).bind fun u =>
      (strConcatEx p.w (strView t) (strView u) cap (some a) growth thr).bind fun r =>
        .ret (r.1, ⟨p.objs ++ [r.2.1.map Str.obj], r.2.2⟩)
  | .newBits n a growth thr =>
    (bsInitEx p.w n (some a) growth thr).bind fun r => .ret (r.1, ⟨p.objs ++ [r.2.1.map Bits.obj], r.2.2⟩)
  | .newBitsOn n cells cap =>
    (bsInitBuffer p.w n (some ⟨p.w.nextBlk, cells⟩) cap).bind fun r =>
      .ret (r.1, ⟨p.objs ++ [r.2.map Bits.obj], { p.w with nextBlk := p.w.nextBlk + 1 }⟩)
  | .vectorCall i op =>
    (p.vec i).bind fun s => (vecOp s op).bind fun r => .ret (r.1, ⟨p.objs.set i (some (.vec r.2.v)), r.2.w⟩)
  | .stringCall i op =>
    (p.str i).bind fun t => (strOp t op).bind fun r => .ret (r.1, ⟨p.objs.set i (some r.2.obj), r.2.s.w⟩)
  | .appendString i j =>
    (p.str i).bind fun t => (p.str j).bind fun u => (strAppend t (strView u)).bind fun r =>
      .ret (r.1, ⟨p.objs.set i (some r.2.obj), r.2.s.w⟩)
  | .bitsCall i op =>
    (p.bits i).bind fun t => (bsOp t op).bind fun r => .ret (r.1, ⟨p.objs.set i (some r.2.obj), r.2.s.w⟩)
  | .logic f i j =>
    (p.bits i).bind fun t => (p.bits j).bind fun u => (Logic.call f t u).bind fun r =>
      .ret (r.1, ⟨p.objs.set i (some r.2.obj), r.2.s.w⟩)
  | .destroy i =>
    match p.objs[i]? with
    | some (some (.vec v)) => (vecDestroy ⟨v, p.w⟩).bind fun r => .ret (r.1, ⟨p.objs.set i none, r.2.w⟩)
    | some (some (.str v fx)) => (strDestroy ⟨⟨v, p.w⟩, fx⟩).bind fun r => .ret (r.1, ⟨p.objs.set i none, r.2.s.w⟩)
    | some (some (.bits n v)) => (bsDestroy ⟨n, ⟨v, p.w⟩⟩).bind fun r => .ret (r.1, ⟨p.objs.set i none, r.2.s.w⟩)
    | _ => .ub .uaf

/-- A whole program. -/
def Desk.run (p : Desk) : List Deed → Out (List Status × Desk)
  | [] => .ret ([], p)
  | c :: cs => (p.exec c).bind fun r => (r.2.run cs).bind fun q => .ret (r.1 :: q.1, q.2)

/-- The memory of the objects of a program. -/
def Desk.places (p : Desk) : List (Option Place) := p.objs.map fun o => o.bind fun o => placeOf o.store

/-- One object is what the specification says. -/
def Obj.shows (w : World Byte) : Obj → AObj → Prop
  | .vec v, .vec x => contents ⟨v, w⟩ = .ret x.elems ∧ v.cap = x.cap ∧ v.size = x.elems.length ∧
      v.allocator = x.P.allocator ∧ v.esz = x.P.esz
  | .str v fx, .str P x => sabsOf ⟨⟨v, w⟩, fx⟩ = x ∧ Terminated ⟨⟨v, w⟩, fx⟩ ∧ v.allocator = P.allocator ∧
      fx = P.allocator.isNone
  | .bits n v, .bits P x => babsOf ⟨n, ⟨v, w⟩⟩ = x ∧ n = x.bits.length ∧ v.allocator = P.allocator
  | _, _ => False

/-- The objects of the program are those of the specification. -/
def Desk.shows (p : Desk) (S : Shelf) : Prop :=
  p.objs.length = S.objs.length ∧ destroyedOf p.w.trace = S.dead ∧
  ∀ i : Nat, match p.objs[i]?, S.objs[i]? with
    | some (some o), some (some x) => o.shows p.w x
    | some none, some none => True
    | none, none => True
    | _, _ => False

end Zy
