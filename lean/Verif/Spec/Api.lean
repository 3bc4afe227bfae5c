import Verif.Model.Api

/-!
# Specification of the memory, process and terminal functions
-/

namespace Zy.Spec

/-- A byte of the range lies in page `q`. -/
def Touches (ps addr size q : Nat) : Prop := ∃ b, addr ≤ b ∧ b < addr + size ∧ b / ps = q

/-- Kinds of access. -/
inductive Access where
  | read | write | execute
deriving DecidableEq, Repr

/-- The accesses that the names of the protections promise. -/
def promises : PageProt → List Access
  | .readonly => [.read]
  | .readwrite => [.read, .write]
  | .execute => [.execute]
  | .executeRead => [.execute, .read]
  | .executeReadwrite => [.execute, .read, .write]

/-- The bit of an access in a protection of POSIX. -/
def accessBit : Access → Nat
  | .read => 0
  | .write => 1
  | .execute => 2

/-- The processor permits an access to a byte: its page is mapped and has the bit. -/
def Permits (ps : Nat) (s : Pages) (b : Nat) (a : Access) : Prop :=
  ∃ v, s (b / ps) = some v ∧ v.getLsbD (accessBit a) = true

end Zy.Spec
