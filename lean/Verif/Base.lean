/-!
# Base definitions shared by all models

Outcomes with explicit undefined behaviour, status codes and 64-bit `size_t` arithmetic.
-/

namespace Zy

/-- Reasons for undefined behaviour that the models distinguish. -/
inductive UB where
  /-- access outside of a memory block -/
  | oob
  /-- dereference of a null pointer -/
  | null
  /-- access to a block that was freed or moved by a reallocation -/
  | uaf
  /-- an indeterminate value decides the control flow -/
  | indet
  /-- `memcpy` on partially overlapping regions -/
  | overlap
  /-- a loop ran longer than the bound the model supplies (non-termination) -/
  | diverge
  /-- other undefined behaviour (for example signed overflow) -/
  | other
  /-- a failed `ZYAN_ASSERT` (the process is aborted); only in the models of the debug build -/
  | assertion
deriving DecidableEq, Repr

/-- The outcome of a C function: a normal return, or undefined behaviour. -/
inductive Out (α : Type u) where
  | ret (a : α)
  | ub (why : UB)
deriving DecidableEq, Repr

namespace Out

/-- Sequencing of outcomes. -/
def bind {α : Type u} {β : Type v} (x : Out α) (f : α → Out β) : Out β :=
  match x with
  | .ret a => f a
  | .ub w => .ub w

instance : Monad Out where
  pure := Out.ret
  bind := Out.bind

/-- The outcome is a normal return (no undefined behaviour). -/
def defined {α : Type u} : Out α → Prop
  | .ret _ => True
  | .ub _ => False

@[simp] theorem pure_eq {α : Type u} (a : α) : (pure a : Out α) = Out.ret a := rfl
@[simp] theorem ret_bind {α β : Type u} (a : α) (f : α → Out β) : (Out.ret a >>= f) = f a := rfl
@[simp] theorem ub_bind {α β : Type u} (w : UB) (f : α → Out β) : (Out.ub w >>= f) = .ub w := rfl
@[simp] theorem ret_bind' {α : Type u} {β : Type v} (a : α) (f : α → Out β) :
    (Out.ret a).bind f = f a := rfl
@[simp] theorem ub_bind' {α : Type u} {β : Type v} (w : UB) (f : α → Out β) :
    (Out.ub w : Out α).bind f = .ub w := rfl

end Out

/-! ## Status codes -/

/-- `ZyanStatus`: include/Zycore/Status.h line 45, `typedef ZyanU32 ZyanStatus`. -/
abbrev Status := BitVec 32

/-- `ZYAN_MAKE_STATUS`: include/Zycore/Status.h lines 67-68. -/
def makeStatus (error modul code : BitVec 32) : Status :=
  ((error &&& 0x01#32) <<< 31) ||| ((modul &&& 0x7FF#32) <<< 20) ||| (code &&& 0xFFFFF#32)

/-- `ZYAN_FAILED`: include/Zycore/Status.h lines 91-92 (the macro yields the masked value, used as a
truth value); `ZYAN_CHECK` (lines 99-108) returns early exactly when this is true. -/
def failed (s : Status) : Bool := (s &&& 0x80000000#32) != 0#32

/-- `ZYAN_SUCCESS`: include/Zycore/Status.h lines 81-82. -/
def succeeded (s : Status) : Bool := !((s &&& 0x80000000#32) != 0#32)

/-- `ZYAN_MODULE_ZYCORE`, Status.h. -/
def modZycore : BitVec 32 := 0x001
/-- `ZYAN_MODULE_ARGPARSE`, Status.h. -/
def modArgparse : BitVec 32 := 0x003
/-- `ZYAN_MODULE_USER`, Status.h. -/
def modUser : BitVec 32 := 0x3FF

/-- `ZYAN_STATUS_SUCCESS`, Status.h. -/
def stSuccess : Status := makeStatus 0 modZycore 0x00
/-- `ZYAN_STATUS_FAILED`, Status.h. -/
def stFailed : Status := makeStatus 1 modZycore 0x01
/-- `ZYAN_STATUS_TRUE`, Status.h. -/
def stTrue : Status := makeStatus 0 modZycore 0x02
/-- `ZYAN_STATUS_FALSE`, Status.h. -/
def stFalse : Status := makeStatus 0 modZycore 0x03
/-- `ZYAN_STATUS_INVALID_ARGUMENT`, Status.h. -/
def stInvalidArgument : Status := makeStatus 1 modZycore 0x04
/-- `ZYAN_STATUS_INVALID_OPERATION`, Status.h. -/
def stInvalidOperation : Status := makeStatus 1 modZycore 0x05
/-- `ZYAN_STATUS_ACCESS_DENIED`, Status.h. -/
def stAccessDenied : Status := makeStatus 1 modZycore 0x06
/-- `ZYAN_STATUS_NOT_FOUND`, Status.h. -/
def stNotFound : Status := makeStatus 1 modZycore 0x07
/-- `ZYAN_STATUS_OUT_OF_RANGE`, Status.h. -/
def stOutOfRange : Status := makeStatus 1 modZycore 0x08
/-- `ZYAN_STATUS_INSUFFICIENT_BUFFER_SIZE`, Status.h. -/
def stInsufficient : Status := makeStatus 1 modZycore 0x09
/-- `ZYAN_STATUS_NOT_ENOUGH_MEMORY`, Status.h. -/
def stNoMemory : Status := makeStatus 1 modZycore 0x0A
/-- `ZYAN_STATUS_BAD_SYSTEMCALL`, Status.h. -/
def stBadSystemcall : Status := makeStatus 1 modZycore 0x0B
/-- `ZYAN_STATUS_OUT_OF_RESOURCES`, Status.h. -/
def stOutOfResources : Status := makeStatus 1 modZycore 0x0C
/-- `ZYAN_STATUS_MISSING_DEPENDENCY`, Status.h. -/
def stMissingDependency : Status := makeStatus 1 modZycore 0x0D
/-- `ZYAN_STATUS_ARG_NOT_UNDERSTOOD`, Status.h. -/
def stArgNotUnderstood : Status := makeStatus 1 modArgparse 0x00
/-- `ZYAN_STATUS_TOO_FEW_ARGS`, Status.h. -/
def stTooFewArgs : Status := makeStatus 1 modArgparse 0x01
/-- `ZYAN_STATUS_TOO_MANY_ARGS`, Status.h. -/
def stTooManyArgs : Status := makeStatus 1 modArgparse 0x02
/-- `ZYAN_STATUS_ARG_MISSES_VALUE`, Status.h. -/
def stArgMissesValue : Status := makeStatus 1 modArgparse 0x03
/-- `ZYAN_STATUS_REQUIRED_ARG_MISSING`, Status.h. -/
def stRequiredArgMissing : Status := makeStatus 1 modArgparse 0x04

@[simp] theorem failed_success : failed stSuccess = false := by decide
@[simp] theorem failed_failed : failed stFailed = true := by decide
@[simp] theorem failed_true : failed stTrue = false := by decide
@[simp] theorem failed_false : failed stFalse = false := by decide
@[simp] theorem failed_invalid : failed stInvalidArgument = true := by decide
@[simp] theorem failed_range : failed stOutOfRange = true := by decide
@[simp] theorem failed_insufficient : failed stInsufficient = true := by decide
@[simp] theorem failed_nomem : failed stNoMemory = true := by decide

/-! ## Memory cells and callbacks -/

/-- One element slot of memory. `none` is an indeterminate (never written) slot. -/
abbrev Cell (α : Type) := Option α

/-- An element constructor callback (`ZyanMemberFunction`, include/Zycore/Object.h): it sees the present
content of the slot and returns a status and the new content. `none` is the null callback. -/
abbrev Ctor (α : Type) := Option (Cell α → Status × Cell α)

/-- A character (`char`). -/
abbrev Byte := BitVec 8

/-! ## 64-bit unsigned arithmetic on naturals

`ZyanUSize` values are naturals below `2^64`; these are the C operators on them. -/

/-- `2^64`. -/
abbrev W : Nat := 18446744073709551616

/-- `a + b` in `ZyanUSize`. -/
def add64 (a b : Nat) : Nat := (a + b) % 18446744073709551616
/-- `a - b` in `ZyanUSize`. -/
def sub64 (a b : Nat) : Nat :=
  (a + (18446744073709551616 - b % 18446744073709551616)) % 18446744073709551616
/-- `a * b` in `ZyanUSize`. -/
def mul64 (a b : Nat) : Nat := (a * b) % 18446744073709551616
/-- Conversion of a `ZyanUSize` to `ZyanISize` (two's complement). -/
def toI64 (a : Nat) : Int := if a < 9223372036854775808 then a else (a : Int) - 18446744073709551616
/-- Conversion of a `ZyanISize` to `ZyanUSize`. -/
def toU64 (a : Int) : Nat := (a % 18446744073709551616).toNat

theorem add64_eq {a b : Nat} (h : a + b < 18446744073709551616) : add64 a b = a + b :=
  Nat.mod_eq_of_lt h
theorem mul64_eq {a b : Nat} (h : a * b < 18446744073709551616) : mul64 a b = a * b :=
  Nat.mod_eq_of_lt h
theorem sub64_eq {a b : Nat} (h : b ≤ a) (ha : a < 18446744073709551616) : sub64 a b = a - b := by
  unfold sub64; omega
theorem add64_lt (a b : Nat) : add64 a b < 18446744073709551616 := by unfold add64; omega
theorem sub64_lt (a b : Nat) : sub64 a b < 18446744073709551616 := by unfold sub64; omega
theorem mul64_lt (a b : Nat) : mul64 a b < 18446744073709551616 := by unfold mul64; omega

end Zy
