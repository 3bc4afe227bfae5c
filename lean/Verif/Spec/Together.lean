import Verif.Spec.Heap
import Verif.Spec.VectorRun

/-!
# Specification: a program with any number of vectors

The vectors share the allocators. Vectors are numbered in the order of their creation; a destroyed vector keeps
its number.
-/

namespace Zy.Spec

open Zy

variable {α : Type}

/-- What a program with vectors does next. -/
inductive Cmd (α : Type) where
  /-- A new vector with memory from allocator `a`. -/
  | create (a growth thr esz cap : Nat) (dtor : Bool)
  /-- A new vector in memory of the program, which has these contents. -/
  | createOn (cells : List (Cell α)) (esz cap : Nat) (dtor : Bool)
  /-- A copy of vector `i` with memory from allocator `a`. -/
  | duplicate (i a growth thr cap : Nat)
  /-- An operation on vector `i`. -/
  | call (i : Nat) (op : VOp α)
  /-- The end of vector `i`. -/
  | destroy (i : Nat)

/-! ## What should happen -/

/-- A vector of the specification. -/
structure AVec (α : Type) where
  P : Params
  elems : List (Cell α)
  cap : Nat

/-- The vectors of the program (`none` after the end), and the elements that went to the destructor. -/
structure Tableau (α : Type) where
  vecs : List (Option (AVec α))
  dead : List (Cell α)

/-- One command concerns one vector, which behaves as if it were alone. (`ZyanVectorInitEx` returns the status of
the allocator, which is not a failure.) -/
inductive Does : Tableau α → Cmd α → Status → Tableau α → Prop where
  | create {S : Tableau α} {a growth thr esz cap : Nat} {dtor : Bool} {st : Status} (h : failed st = false) :
      Does S (.create a growth thr esz cap dtor) st
        { S with vecs := S.vecs ++ [some ⟨⟨some a, growth, thr, esz, dtor⟩, [], max 1 cap⟩] }
  | createOn {S : Tableau α} {cells : List (Cell α)} {esz cap : Nat} {dtor : Bool} :
      Does S (.createOn cells esz cap dtor) stSuccess
        { S with vecs := S.vecs ++ [some ⟨⟨none, 1, 0, esz, dtor⟩, [], cap⟩] }
  | duplicate {S : Tableau α} {i a growth thr cap : Nat} {x : AVec α} (h : S.vecs[i]? = some (some x)) :
      Does S (.duplicate i a growth thr cap) stSuccess
        { S with vecs := S.vecs ++ [some ⟨⟨some a, growth, thr, x.P.esz, x.P.dtor⟩, x.elems,
            max 1 (max cap x.elems.length)⟩] }
  | call {S : Tableau α} {i : Nat} {op : VOp α} {x : AVec α} {y : LState α} {st : Status}
      (h : S.vecs[i]? = some (some x)) (junk : List (Cell α))
      (hj : junk.length = junkLen ⟨x.elems, x.cap, []⟩ op)
      (hs : step x.P junk ⟨x.elems, x.cap, []⟩ op = (st, y)) :
      Does S (.call i op) st ⟨S.vecs.set i (some ⟨x.P, y.elems, y.cap⟩), S.dead ++ y.dead⟩
  | destroy {S : Tableau α} {i : Nat} {x : AVec α} (h : S.vecs[i]? = some (some x)) :
      Does S (.destroy i) stSuccess ⟨S.vecs.set i none, S.dead ++ killed x.P x.elems⟩

/-- The commands for which the library keeps its promises: growth factors and thresholds are what a machine word
can hold in the sense of `Fits`, memory of the program is as large as it is said to be, and only vectors are
used that exist. -/
def Sensible (S : Tableau α) : Cmd α → Prop
  | .create _ growth thr esz cap _ =>
    1 ≤ growth ∧ growth ≤ 255 ∧ thr ≤ 255 ∧ 1 ≤ esz ∧ max 1 cap * esz < 18446744073709551616
  | .createOn cells esz cap _ => 1 ≤ esz ∧ esz < 18446744073709551616 ∧ 1 ≤ cap ∧ cap ≤ cells.length
  | .duplicate i _ growth thr cap =>
    1 ≤ growth ∧ growth ≤ 255 ∧ thr ≤ 255 ∧
      ∃ x, S.vecs[i]? = some (some x) ∧ max 1 cap * x.P.esz < 18446744073709551616
  | .call i op => ∃ x, S.vecs[i]? = some (some x) ∧ InDomain x.P ⟨x.elems, x.cap, []⟩ op
  | .destroy i => ∃ x, S.vecs[i]? = some (some x)

/-- A whole program. -/
inductive Tells : Tableau α → List (Cmd α) → List Status → Tableau α → Prop where
  | nil (S : Tableau α) : Tells S [] [] S
  | cons {S S' S'' : Tableau α} {c : Cmd α} {cs : List (Cmd α)} {st : Status} {sts : List Status}
      (h : Does S c st S') (t : Tells S' cs sts S'') : Tells S (c :: cs) (st :: sts) S''

/-- Every command of the program is sensible, whatever the unspecified elements are. -/
inductive AllSensible : Tableau α → List (Cmd α) → Prop where
  | nil (S : Tableau α) : AllSensible S []
  | cons {S : Tableau α} {c : Cmd α} {cs : List (Cmd α)} (h : Sensible S c)
      (t : ∀ st S', Does S c st S' → AllSensible S' cs) : AllSensible S (c :: cs)

end Zy.Spec

namespace Zy

open Spec

variable {α : Type}

/-! ## What the library does -/

/-- The vector objects of a program, and its world. -/
structure Prog (α : Type) where
  vecs : List (Option (Vec α))
  w : World α

/-- One command as a call of the modelled function. -/
def Prog.exec (p : Prog α) : Cmd α → Out (Status × Prog α)
  | .create a growth thr esz cap dtor =>
    let r := vecInitEx p.w esz cap dtor (some a) growth thr
    .ret (r.1, ⟨p.vecs ++ [r.2.1], r.2.2⟩)
  | .createOn cells esz cap dtor =>
    let r := vecInitBuffer esz (some ⟨p.w.nextBlk, cells⟩) cap dtor
    .ret (r.1, ⟨p.vecs ++ [r.2], { p.w with nextBlk := p.w.nextBlk + 1 }⟩)
  | .duplicate i a growth thr cap =>
    match p.vecs[i]? with
    | some (some v) =>
      (vecDuplicateEx p.w v cap (some a) growth thr).bind fun r => .ret (r.1, ⟨p.vecs ++ [r.2.1], r.2.2⟩)
    | _ => .ub .uaf
  | .call i op =>
    match p.vecs[i]? with
    | some (some v) => (vecOp ⟨v, p.w⟩ op).bind fun r => .ret (r.1, ⟨p.vecs.set i (some r.2.v), r.2.w⟩)
    | _ => .ub .uaf
  | .destroy i =>
    match p.vecs[i]? with
    | some (some v) => (vecDestroy ⟨v, p.w⟩).bind fun r => .ret (r.1, ⟨p.vecs.set i none, r.2.w⟩)
    | _ => .ub .uaf

/-- A whole program. -/
def Prog.run (p : Prog α) : List (Cmd α) → Out (List Status × Prog α)
  | [] => .ret ([], p)
  | c :: cs => (p.exec c).bind fun r => (r.2.run cs).bind fun q => .ret (r.1 :: q.1, q.2)

/-! ## Who holds which memory -/

/-- The memory of a container: its block, and what its allocator knows of it. -/
structure Place where
  blk : Nat
  own : Option Extent
deriving DecidableEq, Repr

/-- The memory of a vector. -/
def placeOf (v : Vec α) : Option Place :=
  v.data.map fun b => ⟨b.id, v.allocator.map fun a => ⟨a, v.esz, v.cap⟩⟩

/-- No two containers are in the same memory, and the blocks that are in use are those of the containers, with
the extent that the container has in mind. -/
structure Separate (places : List (Option Place)) (t : List (Event α)) : Prop where
  apart : ∀ {i j : Nat} {p q : Place}, places[i]? = some (some p) → places[j]? = some (some q) →
    p.blk = q.blk → i = j
  heap : ∃ h, heapOf t = some h ∧ ∀ k e, h k = some e ↔ ∃ i : Nat, places[i]? = some (some ⟨k, some e⟩)

/-- The memory of the vectors of a program. -/
def Prog.places (p : Prog α) : List (Option Place) := p.vecs.map fun o => o.bind placeOf

/-- The objects of the program are the vectors of the specification. -/
def Prog.shows (p : Prog α) (S : Tableau α) : Prop :=
  p.vecs.length = S.vecs.length ∧ destroyedOf p.w.trace = S.dead ∧
  ∀ i : Nat, match p.vecs[i]?, S.vecs[i]? with
    | some (some v), some (some x) => contents ⟨v, p.w⟩ = .ret x.elems ∧ v.cap = x.cap ∧ v.size = x.elems.length ∧
        v.allocator = x.P.allocator ∧ v.esz = x.P.esz
    | some none, some none => True
    | none, none => True
    | _, _ => False

end Zy
