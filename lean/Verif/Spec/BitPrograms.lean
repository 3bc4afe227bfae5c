import Verif.Model.BitsetAlias
import Verif.Spec.BitsetRun

/-!
# Specification: programs that combine bitsets

A program works on any number of bitsets, which it calls by numbers. `onOneBit` says what a command means when every
bitset is a single boolean; `runBitCmds` calls the library.
-/

namespace Zy

/-- Commands that combine or change whole bitsets. -/
inductive BitCmd where
  | and (a b : Nat)
  | or (a b : Nat)
  | xor (a b : Nat)
  | flip (a : Nat)
  | setAll (a : Nat)
  | resetAll (a : Nat)
deriving DecidableEq, Repr

namespace Spec

/-- Change the value of one name. -/
def assignAt {α : Type} (f : Nat → α) (a : Nat) (x : α) : Nat → α := fun c => if c = a then x else f c

/-- What a command does when every bitset is one boolean. -/
def onOneBit (f : Nat → Bool) : BitCmd → Nat → Bool
  | .and a b => assignAt f a (f a && f b)
  | .or a b => assignAt f a (f a || f b)
  | .xor a b => assignAt f a (xor (f a) (f b))
  | .flip a => assignAt f a (!f a)
  | .setAll a => assignAt f a true
  | .resetAll a => assignAt f a false

end Spec

open Spec

/-- One command as a call of the library; when a bitset is combined with itself, both arguments are the same object. -/
def bitCmd (env : Nat → Bits) : BitCmd → Out (Status × (Nat → Bits))
  | .and a b => (if a = b then bsAndSelf (env a) else bsAnd (env a) (env b)).bind fun r =>
      .ret (r.1, assignAt env a r.2)
  | .or a b => (if a = b then bsOrSelf (env a) else bsOr (env a) (env b)).bind fun r => .ret (r.1, assignAt env a r.2)
  | .xor a b => (if a = b then bsXorSelf (env a) else bsXor (env a) (env b)).bind fun r =>
      .ret (r.1, assignAt env a r.2)
  | .flip a => (bsFlip (env a)).bind fun r => .ret (r.1, assignAt env a r.2)
  | .setAll a => (bsSetAll (env a)).bind fun r => .ret (r.1, assignAt env a r.2)
  | .resetAll a => (bsResetAll (env a)).bind fun r => .ret (r.1, assignAt env a r.2)

/-- A program, which stops at the first call that does not succeed. -/
def runBitCmds (env : Nat → Bits) : List BitCmd → Out (Status × (Nat → Bits))
  | [] => .ret (stSuccess, env)
  | c :: cs => (bitCmd env c).bind fun r => if failed r.1 then .ret (r.1, r.2) else runBitCmds r.2 cs

end Zy
