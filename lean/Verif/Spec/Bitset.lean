import Verif.Spec.Vector

/-!
# Specification of bitsets: a sequence of booleans

Nothing in this file refers to the model of the code. Storage comes in whole bytes, so behind the valid
bits there are up to seven *stray* bits; they are invisible to the bit access functions, but the counting
functions and the operations on whole bytes see them, and the specification keeps track of them.
-/

namespace Zy.Spec

open Zy

/-- An abstract bitset: the valid bits, the stray bits behind them, the capacity in bytes. -/
structure BState where
  bits : List Bool
  stray : List Bool
  cap : Nat
deriving DecidableEq, Repr

/-- Operations of the bitset API on one bitset. -/
inductive BOp where
  | push (v : Bool)
  | pop
  | set (i : Nat)
  | reset (i : Nat)
  | assign (i : Nat) (v : Bool)
  | toggle (i : Nat)
  | setAll
  | resetAll
  | flip
  | clear
  | reserve (n : Nat)
  | shrinkToFit
deriving DecidableEq, Repr

/-- Replace one bit by a function of it; indices outside are refused. -/
def change (s : BState) (i : Nat) (f : Bool → Bool) : Status × BState :=
  match s.bits[i]? with
  | none => (stOutOfRange, s)
  | some b => (stSuccess, { s with bits := s.bits.set i (f b) })

/-- Apply a function to all bits. -/
def changeAll (s : BState) (f : Bool → Bool) : Status × BState :=
  (stSuccess, { s with bits := s.bits.map f, stray := s.stray.map f })

/-- Number of bytes that hold `n` bits. -/
def bytesFor (n : Nat) : Nat := (n + 7) / 8

/-- What a sequence of booleans would do. -/
def bstep (P : Params) (s : BState) : BOp → Status × BState
  | .push v =>
    match s.stray with
    | _ :: rest => (stSuccess, { s with bits := s.bits ++ [v], stray := rest })
    | [] =>
      match room P s.cap (bytesFor s.bits.length + 1) with
      | none => (stInsufficient, s)
      | some c => (stSuccess, ⟨s.bits ++ [v], List.replicate 7 false, c⟩)
  | .pop =>
    match s.bits.getLast? with
    | none => (stOutOfRange, s)
    | some b =>
      if s.bits.length % 8 = 1 then
        (stSuccess, ⟨s.bits.dropLast, [], trim P s.cap (bytesFor (s.bits.length - 1))⟩)
      else (stSuccess, { s with bits := s.bits.dropLast, stray := b :: s.stray })
  | .set i => change s i fun _ => true
  | .reset i => change s i fun _ => false
  | .assign i v => change s i fun _ => v
  | .toggle i => change s i fun b => !b
  | .setAll => changeAll s fun _ => true
  | .resetAll => changeAll s fun _ => false
  | .flip => changeAll s fun b => !b
  | .clear => (stSuccess, ⟨[], [], if s.bits = [] then s.cap else trim P s.cap 0⟩)
  | .reserve n =>
    if n / 8 ≤ s.cap then (stSuccess, s)
    else if P.allocator.isSome then (stSuccess, { s with cap := n / 8 }) else (stInsufficient, s)
  | .shrinkToFit =>
    (stSuccess, if P.allocator.isSome then { s with cap := max 1 (bytesFor s.bits.length) } else s)

/-- The requests for which the library keeps the promise of `bstep`: a push that needs a new byte has room
for it and the sizes fit into the machine word; pop is not applied to the empty bitset; fewer than `2^35`
bits are reserved. -/
def BInDomain (P : Params) (s : BState) : BOp → Prop
  | .push _ => s.stray = [] →
      Fits P (bytesFor s.bits.length + 1) ∧ (room P s.cap (bytesFor s.bits.length + 1)).isSome
  | .pop => s.bits ≠ []
  | .reserve n => n < 34359738368
  | _ => True

/-- The answer to a question about one bit: it is set, it is not set, there is no such bit. -/
def answer : Option Bool → Status
  | some true => stTrue
  | some false => stFalse
  | none => stOutOfRange

/-- Bitwise combination of two bit sequences, the second of which may be shorter or longer. -/
def combine (f : Bool → Bool → Bool) (x y : List Bool) : List Bool :=
  List.zipWith f x y ++ x.drop y.length

/-- A history of operations with the statuses they return. -/
def brun (P : Params) (s : BState) : List BOp → List Status × BState
  | [] => ([], s)
  | op :: ops =>
    let r := bstep P s op
    let q := brun P r.2 ops
    (r.1 :: q.1, q.2)

/-- What an operation does to the sequence of valid bits, and nothing else: no bytes, no capacity. -/
def plain (l : List Bool) : BOp → List Bool
  | .push v => l ++ [v]
  | .pop => l.dropLast
  | .set i => l.set i true
  | .reset i => l.set i false
  | .assign i v => l.set i v
  | .toggle i => l.modify i fun b => !b
  | .setAll => l.map fun _ => true
  | .resetAll => l.map fun _ => false
  | .flip => l.map fun b => !b
  | .clear => []
  | .reserve _ => l
  | .shrinkToFit => l

/-- The operations that never put a set bit behind the valid bits. -/
def Tidy : BOp → Prop
  | .pop => False
  | .setAll => False
  | .flip => False
  | _ => True

/-- Every operation of the history is in the domain. -/
def BAllInDomain (P : Params) (s : BState) : List BOp → Prop
  | [] => True
  | op :: ops => BInDomain P s op ∧ BAllInDomain P (bstep P s op).2 ops

end Zy.Spec
