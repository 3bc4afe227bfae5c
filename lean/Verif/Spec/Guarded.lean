import Verif.Model.Guarded

/-!
# Specification: programs that guard data with a critical section

The threads take turns: each turn is one whole section of one thread.
-/

namespace Zy.Spec

open Zy

variable {S L : Type}

/-- The calls inside of a section are nested properly: seen from depth `d`, each leave belongs to an enter of the
section, all of them are left at the end, and the depth stays within the limit of the system. -/
def Nests (limit : Nat) : Nat → List (GItem S L) → Prop
  | d, [] => d = 1
  | d, .act _ :: n => Nests limit d n
  | d, .enter _ :: n => d < limit ∧ Nests limit (d + 1) n
  | d, .leave :: n => 1 < d ∧ Nests limit (d - 1) n

/-- The accesses of a section, without interruption. -/
def performs : List (GItem S L) → S → L → S × L
  | [], s, l => (s, l)
  | .act f :: n, s, l => performs n (f s l).1 (f s l).2
  | _ :: n, s, l => performs n s l

/-- The data, the variables of the threads and the sections that they have not executed yet. -/
structure Turns (S L : Type) where
  shared : S
  loc : Nat → L
  rest : Nat → List (GSection S L)

/-- The turn of thread `t`: its next section as a whole. -/
def turn (p : Turns S L) (t : Nat) : Turns S L :=
  match p.rest t with
  | [] => p
  | b :: r =>
    ⟨(performs b.2 p.shared (p.loc t)).1,
     fun u => if u = t then (performs b.2 p.shared (p.loc t)).2 else p.loc u,
     fun u => if u = t then r else p.rest u⟩

/-- Several turns. -/
def takeTurns (p : Turns S L) (order : List Nat) : Turns S L := order.foldl turn p

/-- The thread has done nothing since its last turn: it is between two sections, or waits to enter the next one. -/
def Outside (p : Turns S L) (g : GState S L) (t : Nat) : Prop :=
  (g.thr t).loc = p.loc t ∧
    (((g.thr t).now = [] ∧ (g.thr t).rest = p.rest t) ∨
     ∃ b, (g.thr t).now = .enter b.1 :: (b.2 ++ [.leave]) ∧ p.rest t = b :: (g.thr t).rest)

/-- The state of the program is the one after the turns `p`, except that one thread may have executed a part of its
next section. -/
inductive Midway (p : Turns S L) (g : GState S L) : Prop where
  | nobody (hs : g.shared = p.shared) (ho : ∀ t, Outside p g t)
  | inside (t : Nat) (b : GSection S L) (done todo : List (GItem S L)) (hb : b.2 = done ++ todo)
      (hr : p.rest t = b :: (g.thr t).rest) (hn : (g.thr t).now = todo ++ [.leave])
      (hp : (g.shared, (g.thr t).loc) = performs done p.shared (p.loc t)) (ho : ∀ u, u ≠ t → Outside p g u)

/-- The thread has executed all its sections. -/
def Finished (g : GState S L) (t : Nat) : Prop := (g.thr t).now = [] ∧ (g.thr t).rest = []

/-- A thread that adds one to a number `k` times, each time in a section: it reads the number into its variable and
then writes the number plus one. -/
def counting (k : Nat) : List (GSection Nat Nat) :=
  List.replicate k (false, [.act fun s _ => (s, s), .act fun _ l => (l + 1, l)])

end Zy.Spec
