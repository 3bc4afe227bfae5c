import Verif.Model.Sync

/-!
# Model of the memory, process and terminal functions (POSIX)

`src/API/Memory.c`, `src/API/Process.c`, `src/API/Terminal.c`, `include/Zycore/API/Memory.h` lines 56-75.

The system below them is a table of pages, as POSIX describes `mprotect`, `munmap` and `msync`. The system
may refuse any request (`deny`). A failing `mprotect` may have changed some of the pages (`done`).
-/

namespace Zy

/-- Protection of each mapped page: the bits `PROT_READ` (1), `PROT_WRITE` (2) and `PROT_EXEC` (4). -/
abbrev Pages := Nat → Option (BitVec 32)

/-- `ZyanMemoryPageProtection`: include/Zycore/API/Memory.h lines 56-75 (POSIX). -/
inductive PageProt where
  | readonly | readwrite | execute | executeRead | executeReadwrite
deriving DecidableEq, Repr

/-- The values of the enumeration: include/Zycore/API/Memory.h lines 68-72. -/
def PageProt.bits : PageProt → BitVec 32
  | .readonly => 1#32
  | .readwrite => 1#32 ||| 2#32
  | .execute => 4#32
  | .executeRead => 4#32 ||| 1#32
  | .executeReadwrite => 4#32 ||| 1#32 ||| 2#32

/-! ## POSIX -/

/-- Number of pages of a range that begins at a page boundary. -/
def pageCount (ps size : Nat) : Nat := (size + (ps - 1)) / ps

/-- All of `n` pages are mapped. -/
def allMapped (s : Pages) (first : Nat) : Nat → Bool
  | 0 => true
  | n + 1 => (s first).isSome && allMapped s (first + 1) n

/-- `n` pages get the value `v`; `onlyMapped` leaves out those that are not mapped. -/
def setPages (s : Pages) (first n : Nat) (v : Option (BitVec 32)) (onlyMapped : Bool) : Pages := fun q =>
  if first ≤ q ∧ q < first + n ∧ (onlyMapped = true → (s q).isSome = true) then v else s q

/-- `mprotect` with pages of `ps` bytes. -/
def mprotect (ps : Nat) (s : Pages) (addr size : Nat) (prot : BitVec 32) (deny : Option Errno) (done : Nat) :
    Option Errno × Pages :=
  if addr % ps ≠ 0 then (some .EINVAL, s)
  else if 2 ^ 64 < addr + size then (some .ENOMEM, s)
  else
    match deny with
    | some e => (some e, setPages s (addr / ps) (min done (pageCount ps size)) (some prot) true)
    | none =>
      if allMapped s (addr / ps) (pageCount ps size) then
        (none, setPages s (addr / ps) (pageCount ps size) (some prot) true)
      else (some .ENOMEM, setPages s (addr / ps) (min done (pageCount ps size)) (some prot) true)

/-- `munmap`. Pages of the range that are not mapped do not matter. -/
def munmap (ps : Nat) (s : Pages) (addr size : Nat) (deny : Option Errno) : Option Errno × Pages :=
  if addr % ps ≠ 0 ∨ size = 0 ∨ 2 ^ 64 < addr + size then (some .EINVAL, s)
  else
    match deny with
    | some e => (some e, s)
    | none => (none, setPages s (addr / ps) (pageCount ps size) none false)

/-- `msync`: changes no page table. -/
def msync (ps : Nat) (s : Pages) (addr size : Nat) (deny : Option Errno) : Option Errno :=
  if addr % ps ≠ 0 then some .EINVAL
  else if 2 ^ 64 < addr + size then some .ENOMEM
  else
    match deny with
    | some e => some e
    | none => if allMapped s (addr / ps) (pageCount ps size) then none else some .ENOMEM

/-! ## Memory and process -/

/-- A function that only distinguishes success and failure of the system call. -/
def sysStatus : Option Errno → Status
  | none => stSuccess
  | some _ => stBadSystemcall

/-- `ZyanMemoryVirtualProtect`: src/API/Memory.c lines 83-104. -/
def virtualProtect (ps : Nat) (s : Pages) (addr size : Nat) (p : PageProt) (deny : Option Errno) (done : Nat) :
    Status × Pages :=
  (sysStatus (mprotect ps s addr size p.bits deny done).1, (mprotect ps s addr size p.bits deny done).2)

/-- `ZyanMemoryVirtualFree`: src/API/Memory.c lines 106-126. -/
def virtualFree (ps : Nat) (s : Pages) (addr size : Nat) (deny : Option Errno) : Status × Pages :=
  (sysStatus (munmap ps s addr size deny).1, (munmap ps s addr size deny).2)

/-- `ZyanProcessFlushInstructionCache`: src/API/Process.c lines 52-71. -/
def flushInstructionCache (ps : Nat) (s : Pages) (addr size : Nat) (deny : Option Errno) : Status :=
  sysStatus (msync ps s addr size deny)

/-- `ZyanMemoryGetSystemPageSize`: src/API/Memory.c lines 47-61. `v` is the result of `sysconf`, a `long`;
the conversion to `ZyanU32` keeps the low half. -/
def getSystemPageSize (v : BitVec 64) : BitVec 32 := v.setWidth 32

/-- `ZyanMemoryGetSystemAllocationGranularity`: src/API/Memory.c lines 63-77. -/
def getSystemAllocationGranularity (v : BitVec 64) : BitVec 32 := v.setWidth 32

/-! ## Terminal -/

/-- `isatty`: the file descriptors that are terminals, and the error for the others. -/
abbrev Ttys := Nat → Except Errno Unit

/-- `ZyanTerminalEnableVT100`: src/API/Terminal.c lines 51-98 (POSIX). Streams are the values of the
enumeration (`IN` 0, `OUT` 1, `ERR` 2); any other integer can be passed. -/
def enableVT100 (stream : BitVec 32) : Status :=
  if stream ≠ 1#32 ∧ stream ≠ 2#32 then stInvalidArgument else stSuccess

/-- `ZyanTerminalIsTTY`: src/API/Terminal.c lines 100-156 (POSIX). `ZYAN_UNREACHABLE` for other streams. -/
def isTTY (sys : Ttys) (stream : BitVec 32) : Out Status :=
  let check (file : Nat) : Out Status :=
    match sys file with
    | .ok () => .ret stTrue
    | .error .EBADF => .ret stInvalidArgument
    | .error _ => .ret stFalse
  if stream = 0#32 then check 0
  else if stream = 1#32 then check 1
  else if stream = 2#32 then check 2
  else .ub .other

end Zy
