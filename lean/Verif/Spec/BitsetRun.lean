import Verif.Model.Bitset
import Verif.Spec.Bitset
import Verif.Spec.VectorRun

/-!
# How the bitset specification is applied to the model
-/

namespace Zy

open Spec

/-- Reading of an API operation as a call of the modelled function. -/
def bsOp (t : Bits) : BOp → Out (Status × Bits)
  | .push v => bsPush t v
  | .pop => bsPop t
  | .set i => bsSet t i
  | .reset i => bsReset t i
  | .assign i v => bsAssign t i v
  | .toggle i => bsToggle t i
  | .setAll => bsSetAll t
  | .resetAll => bsResetAll t
  | .flip => bsFlip t
  | .clear => bsClear t
  | .reserve n => bsReserve t n
  | .shrinkToFit => bsShrinkToFit t

/-- A history of API calls: the statuses returned and the final state. -/
def runBits (t : Bits) : List BOp → Out (List Status × Bits)
  | [] => .ret ([], t)
  | op :: ops => (bsOp t op).bind fun r => (runBits r.2 ops).bind fun q => .ret (r.1 :: q.1, q.2)

/-- The bits of a byte in index order: the most significant bit has the lowest index. -/
def byteBits (b : Byte) : List Bool := (List.range 8).map fun j => b.getLsbD (7 - j)

/-- All bits in the storage of the bitset. -/
def flatOf (t : Bits) : List Bool :=
  match t.s.v.data with
  | none => []
  | some b => (b.cells.take t.s.v.size).flatMap fun c =>
      match c with
      | some x => byteBits x
      | none => List.replicate 8 false

/-- The observable bitset: valid bits, stray bits, capacity in bytes. -/
def babsOf (t : Bits) : BState := ⟨(flatOf t).take t.size, (flatOf t).drop t.size, t.s.v.cap⟩

/-- Creation parameters of a bitset: one-byte elements without destructor. -/
def BParams (P : Params) : Prop := P.esz = 1 ∧ P.dtor = false

/-- Bitsets that a program can obtain in a regular way: initialised with a multiple of eight bits (dynamic,
or on a caller buffer that really has the claimed capacity), followed by API calls in the domain of the
specification and logical operations with other such bitsets, with an allocator that does not fail. -/
inductive BReach : Params → Bits → Prop where
  | init {P : Params} {w w' : World Byte} {n a : Nat} {st : Status} {t : Bits} (hw : Fresh w)
      (hr : Reliable w) (hP : P.allocator = some a ∧ P.growth ≤ 255 ∧ P.thr ≤ 255) (hB : BParams P)
      (hn : n % 8 = 0 ∧ n < 34359738368)
      (h : bsInitEx w n (some a) P.growth P.thr = .ret (st, some t, w')) : BReach P t
  | initBuffer {P : Params} {w : World Byte} {n cap : Nat} {b : Block Byte} {st : Status} {t : Bits}
      (hw : Fresh w) (hr : Reliable w) (hP : P.allocator = none ∧ P.growth = 1 ∧ P.thr = 0)
      (hB : BParams P) (hn : n % 8 = 0 ∧ n < 34359738368) (hb : cap ≤ b.cells.length)
      (h : bsInitBuffer w n (some b) cap = .ret (st, some t)) : BReach P t
  | step {P : Params} {t t' : Bits} {st : Status} {op : BOp} (h : BReach P t)
      (hd : BInDomain P (babsOf t) op) (hs : bsOp t op = .ret (st, t')) : BReach P t'
  | logic {P P' : Params} {t t' u : Bits} {st : Status} (f : Byte → Byte → Byte) (h : BReach P t)
      (hu : BReach P' u) (hs : bsPerform (fun x y => (stSuccess, f x y)) t u = .ret (st, t')) : BReach P t'

/-- All bitsets a program can obtain, with whatever number of bits it was initialised and whatever calls were
made, including those that failed half-way; the only restriction is that a push may not ask for more bytes
than the machine word can count. -/
inductive BAny : Params → Bits → Prop where
  | init {P : Params} {w w' : World Byte} {n a : Nat} {st : Status} {t : Bits} (hw : Fresh w)
      (hr : Reliable w) (hP : P.allocator = some a ∧ P.growth ≤ 255 ∧ P.thr ≤ 255) (hB : BParams P)
      (hn : n < 18446744073709551616)
      (h : bsInitEx w n (some a) P.growth P.thr = .ret (st, some t, w')) : BAny P t
  | initBuffer {P : Params} {w : World Byte} {n cap : Nat} {b : Block Byte} {st : Status} {t : Bits}
      (hw : Fresh w) (hr : Reliable w) (hP : P.allocator = none ∧ P.growth = 1 ∧ P.thr = 0)
      (hB : BParams P) (hn : n < 18446744073709551616) (hb : cap ≤ b.cells.length)
      (h : bsInitBuffer w n (some b) cap = .ret (st, some t)) : BAny P t
  | step {P : Params} {t t' : Bits} {st : Status} {op : BOp} (h : BAny P t)
      (hd : Fits P (t.s.v.size + 1)) (hs : bsOp t op = .ret (st, t')) : BAny P t'
  | logic {P P' : Params} {t t' u : Bits} {st : Status} (f : Byte → Byte → Status × Byte) (h : BAny P t)
      (hu : BAny P' u) (hs : bsPerform f t u = .ret (st, t')) : BAny P t'

end Zy
