import Verif.Model.BitsetWord
import Verif.Spec.VectorWord

/-!
# Requests to bitsets that fit into a `size_t` with `m` values

The domain of the bitset specification (`BInDomain` and `BAllInDomain` in `Spec/Bitset.lean`, `BReach` in
`Spec/BitsetRun.lean`), with the number `m` of values of `size_t` as a parameter.
-/

namespace Zy

open Spec

/-- The requests for which the library keeps the promise of `Spec.bstep` on a target whose `size_t` has
`m` values. -/
def BInDomainW (m : Nat) (P : Params) (s : BState) : BOp → Prop
  | .push _ => s.stray = [] →
      FitsW m P (bytesFor s.bits.length + 1) ∧ (room P s.cap (bytesFor s.bits.length + 1)).isSome
  | .pop => s.bits ≠ []
  | .reserve n => n < 34359738368 ∧ n < m
  | _ => True

/-- Every operation of the history is in the domain. -/
def BAllInDomainW (m : Nat) (P : Params) (s : BState) : List BOp → Prop
  | [] => True
  | op :: ops => BInDomainW m P s op ∧ BAllInDomainW m P (bstep P s op).2 ops

/-- Bitsets that a program can obtain on a target whose `size_t` has `m` values (compare `BReach`). -/
inductive BReachW (m : Nat) : Params → Bits → Prop where
  | init {P : Params} {w w' : World Byte} {n a : Nat} {st : Status} {t : Bits} (hw : Fresh w)
      (hr : Reliable w) (hP : P.allocator = some a ∧ P.growth ≤ 255 ∧ P.thr ≤ 255) (hB : BParams P)
      (hn : n % 8 = 0 ∧ n < 34359738368) (hf : FitsW m P (max 1 (n / 8)))
      (h : bsInitExW m w n (some a) P.growth P.thr = .ret (st, some t, w')) : BReachW m P t
  | initBuffer {P : Params} {w : World Byte} {n cap : Nat} {b : Block Byte} {st : Status} {t : Bits}
      (hw : Fresh w) (hr : Reliable w) (hP : P.allocator = none ∧ P.growth = 1 ∧ P.thr = 0)
      (hB : BParams P) (hn : n % 8 = 0 ∧ n < 34359738368) (hf : FitsW m P (max 1 (n / 8)))
      (hb : cap ≤ b.cells.length)
      (h : bsInitBufferW m w n (some b) cap = .ret (st, some t)) : BReachW m P t
  | step {P : Params} {t t' : Bits} {st : Status} {op : BOp} (h : BReachW m P t)
      (hd : BInDomainW m P (babsOf t) op) (hs : bsOpW m t op = .ret (st, t')) : BReachW m P t'
  | logic {P P' : Params} {t t' u : Bits} {st : Status} (f : Byte → Byte → Byte) (h : BReachW m P t)
      (hu : BReachW m P' u) (hs : bsPerform (fun x y => (stSuccess, f x y)) t u = .ret (st, t')) :
      BReachW m P t'

end Zy
