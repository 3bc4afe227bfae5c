import Verif.Base

/-!
# Specification of vectors: a list with an explicit capacity policy

Nothing in this file refers to the model of the code. An abstract vector is its list of elements, its
capacity, and the list of elements that were handed to the destructor so far.
-/

namespace Zy.Spec

open Zy

/-- The creation parameters of a vector. `allocator = none` describes a fixed caller-supplied buffer. -/
structure Params where
  allocator : Option Nat
  growth : Nat
  thr : Nat
  esz : Nat
  dtor : Bool
deriving DecidableEq, Repr

/-- An abstract vector. `dead` lists the elements the destructor has received, oldest first. -/
structure LState (α : Type) where
  elems : List (Cell α)
  cap : Nat
  dead : List (Cell α)
deriving DecidableEq, Repr

/-- Operations of the vector API. -/
inductive VOp (α : Type) where
  | push (x : Cell α)
  | insertRange (i : Nat) (xs : List (Cell α))
  | emplace (i : Nat) (c : Ctor α)
  | set (i : Nat) (x : Cell α)
  | swap (i j : Nat)
  | deleteRange (i n : Nat)
  | pop
  | clear
  | resize (n : Nat) (init : Option (Cell α))
  | reserve (c : Nat)
  | shrinkToFit

variable {α : Type}

/-- The capacity after making room for `need` elements: unchanged if they fit; otherwise a dynamic
vector reserves `need * growth`, and a fixed one refuses. -/
def room (P : Params) (cap need : Nat) : Option Nat :=
  if need ≤ cap then some cap
  else if P.allocator.isSome then some (need * P.growth)
  else none

/-- The capacity after the length dropped to `len`: a dynamic vector whose length times the shrink
threshold is below the capacity releases memory. -/
def trim (P : Params) (cap len : Nat) : Nat :=
  if P.allocator.isSome ∧ P.thr ≠ 0 ∧ len * P.thr < cap then max 1 (len * P.growth) else cap

/-- Elements handed to the destructor, if there is one. -/
def killed (P : Params) (xs : List (Cell α)) : List (Cell α) := if P.dtor then xs else []

/-- The `k` new elements of a growing `resize`: copies of the initializer if there is one, otherwise
unspecified. -/
def newElems (init : Option (Cell α)) (k : Nat) (junk : List (Cell α)) : List (Cell α) :=
  match init with
  | some x => List.replicate k x
  | none => junk

/-- What a list would do. `junk` supplies the content of new elements that the operation leaves
unspecified (`resize` without initializer, and the slot a constructor callback is given). -/
def step (P : Params) (junk : List (Cell α)) (s : LState α) : VOp α → Status × LState α
  | .push x =>
    match room P s.cap (s.elems.length + 1) with
    | none => (stInsufficient, s)
    | some c => (stSuccess, { s with elems := s.elems ++ [x], cap := c })
  | .insertRange i xs =>
    if xs = [] then (stInvalidArgument, s)
    else if i > s.elems.length then (stOutOfRange, s)
    else match room P s.cap (s.elems.length + xs.length) with
      | none => (stInsufficient, s)
      | some c => (stSuccess, { s with elems := s.elems.take i ++ xs ++ s.elems.drop i, cap := c })
  | .emplace i ctor =>
    if i > s.elems.length then (stOutOfRange, s)
    else match room P s.cap (s.elems.length + 1) with
      | none => (stInsufficient, s)
      | some c =>
        match ctor with
        | none => (stSuccess, { s with elems := s.elems.take i ++ junk ++ s.elems.drop i, cap := c })
        | some f =>
          let r := f junk.head?.join
          if failed r.1 then (r.1, { s with cap := c })
          else (stSuccess,
            { s with elems := s.elems.take i ++ [r.2] ++ s.elems.drop i, cap := c })
  | .set i x =>
    match s.elems[i]? with
    | none => (stOutOfRange, s)
    | some old => (stSuccess, { s with elems := s.elems.set i x, dead := s.dead ++ killed P [old] })
  | .swap i j =>
    match s.elems[i]?, s.elems[j]? with
    | some x, some y =>
      if s.elems.length = s.cap then (stInsufficient, s)
      else (stSuccess, { s with elems := (s.elems.set i y).set j x })
    | _, _ => (stOutOfRange, s)
  | .deleteRange i n =>
    if n = 0 then (stInvalidArgument, s)
    else if i + n > s.elems.length then (stOutOfRange, s)
    else (stSuccess, { elems := s.elems.take i ++ s.elems.drop (i + n),
                       cap := trim P s.cap (s.elems.length - n),
                       dead := s.dead ++ killed P ((s.elems.drop i).take n) })
  | .pop =>
    if s.elems = [] then (stOutOfRange, s)
    else (stSuccess, { elems := s.elems.dropLast,
                       cap := trim P s.cap (s.elems.length - 1),
                       dead := s.dead ++ killed P s.elems.getLast?.toList })
  | .clear =>
    if s.elems = [] then (stSuccess, s)
    else (stSuccess, { elems := [], cap := trim P s.cap 0, dead := s.dead ++ killed P s.elems })
  | .resize n init =>
    if n = s.elems.length then (stSuccess, s)
    else match room P s.cap n with
      | none => (stInsufficient, s)
      | some c =>
        if n ≤ s.elems.length then
          (stSuccess, { elems := s.elems.take n, cap := trim P s.cap n,
                        dead := s.dead ++ killed P (s.elems.drop n) })
        else
          (stSuccess,
            { s with
              elems := s.elems ++ newElems init (n - s.elems.length) junk
              cap := if n ≤ s.cap then trim P s.cap n else c })
  | .reserve c =>
    if c ≤ s.cap then (stSuccess, s)
    else if P.allocator.isSome then (stSuccess, { s with cap := c }) else (stInsufficient, s)
  | .shrinkToFit =>
    (stSuccess, if P.allocator.isSome then { s with cap := max 1 s.elems.length } else s)

/-- How many unspecified elements the operation needs. -/
def junkLen (s : LState α) : VOp α → Nat
  | .emplace _ _ => 1
  | .resize n _ => n - s.elems.length
  | _ => 0

/-- `n` elements are few enough that the size computations of the library fit into 64 bits. -/
def Fits (P : Params) (n : Nat) : Prop := n * 255 * P.esz < 18446744073709551616

/-- The requests for which the library keeps the promise of `step`: the requested sizes fit into the
machine word (see `Fits`), and a constructor callback used in the middle of the vector does not fail. -/
def InDomain (P : Params) (s : LState α) : VOp α → Prop
  | .push _ => Fits P (s.elems.length + 1)
  | .insertRange _ xs => Fits P (s.elems.length + xs.length)
  | .emplace i c =>
    Fits P (s.elems.length + 1) ∧
      ∀ f, c = some f → i < s.elems.length → ∀ x, failed (f x).1 = false
  | .deleteRange i n => i + n < 18446744073709551616
  | .resize n _ => Fits P n
  | .reserve c => c * P.esz < 18446744073709551616
  | _ => True

/-- A history of operations with the statuses they return: every step is the step of the list, with
some unspecified elements of the right number. -/
inductive Runs (P : Params) : LState α → List (VOp α) → List Status → LState α → Prop where
  | nil (s : LState α) : Runs P s [] [] s
  | cons {s s' s'' : LState α} {op : VOp α} {ops : List (VOp α)} {st : Status} {sts : List Status}
      (junk : List (Cell α)) (hj : junk.length = junkLen s op)
      (h : step P junk s op = (st, s')) (t : Runs P s' ops sts s'') :
      Runs P s (op :: ops) (st :: sts) s''

/-- Every operation of the history is in the domain, whatever the unspecified elements are. -/
inductive AllInDomain (P : Params) : LState α → List (VOp α) → Prop where
  | nil (s : LState α) : AllInDomain P s []
  | cons {s : LState α} {op : VOp α} {ops : List (VOp α)} (h : InDomain P s op)
      (t : ∀ junk, junk.length = junkLen s op → AllInDomain P (step P junk s op).2 ops) :
      AllInDomain P s (op :: ops)

end Zy.Spec
