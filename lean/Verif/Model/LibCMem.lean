import Verif.Base

/-!
# Memory for the replacements of the C library

A flat memory: addresses are natural numbers. Several objects can live in one memory, so that
overlapping arguments can be expressed; addresses that belong to no object are `gone`.
-/

namespace Zy

/-- One byte of memory: not accessible, accessible with an indeterminate value, or with a value. -/
inductive MCell where
  | gone
  | raw
  | byte (b : Byte)
deriving DecidableEq, Repr

/-- The memory; addresses behind its end are not accessible. -/
abbrev Mem := List MCell

end Zy
