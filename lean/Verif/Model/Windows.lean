import Verif.Model.Api

/-!
# Model of the Windows branches of the system functions

`src/API/Synchronization.c` lines 157-200, `src/API/Thread.c` lines 197-234, `src/API/Memory.c` lines
106-126, `src/API/Terminal.c` lines 51-98.

The system below them is modelled as Windows describes it: a `CRITICAL_SECTION` has an owner and a count
(leaving it without owning it is undefined); fiber-local storage is a table of values for each thread and
index (no thread uses fibers); memory is released in the regions in which it was allocated; a console has a
mode word.
-/

namespace Zy

/-! ## Critical sections -/

/-- A `CRITICAL_SECTION`. -/
structure WinCs where
  owner : Option Nat
  count : Nat
deriving DecidableEq, Repr

/-- `ZyanCriticalSectionInitialize`: src/API/Synchronization.c lines 163-168. -/
def winCsInitialize : Status × WinCs := (stSuccess, ⟨none, 0⟩)

/-- `ZyanCriticalSectionEnter`: src/API/Synchronization.c lines 170-175. `none`: the call waits. -/
def winCsEnter (m : WinCs) (t : Nat) : Option (Status × WinCs) :=
  match m.owner with
  | none => some (stSuccess, ⟨some t, 1⟩)
  | some o => if o = t then some (stSuccess, ⟨some t, m.count + 1⟩) else none

/-- `ZyanCriticalSectionTryEnter`: src/API/Synchronization.c lines 177-180. -/
def winCsTryEnter (m : WinCs) (t : Nat) : Bool × WinCs :=
  match m.owner with
  | none => (true, ⟨some t, 1⟩)
  | some o => if o = t then (true, ⟨some t, m.count + 1⟩) else (false, m)

/-- `ZyanCriticalSectionLeave`: src/API/Synchronization.c lines 182-187. -/
def winCsLeave (m : WinCs) (t : Nat) : Out (Status × WinCs) :=
  if m.owner = some t then
    if m.count ≤ 1 then .ret (stSuccess, ⟨none, 0⟩) else .ret (stSuccess, ⟨some t, m.count - 1⟩)
  else .ub .other

/-- One attempt of a call by a thread, as `csStep`. -/
def winCsStep (m : WinCs) (t : Nat) : CsCall → Out (Option CsResult × WinCs)
  | .enter =>
    match winCsEnter m t with
    | none => .ret (none, m)
    | some (st, m) => .ret (some (.status st), m)
  | .tryEnter => .ret (some (.bool (winCsTryEnter m t).1), (winCsTryEnter m t).2)
  | .leave => (winCsLeave m t).bind fun r => .ret (some (.status r.1), r.2)

/-- All attempts, as `csRun`. -/
def winCsRun (m : WinCs) : List (Nat × CsCall) → Out (List CsEvent × WinCs)
  | [] => .ret ([], m)
  | (t, c) :: as =>
    (winCsStep m t c).bind fun r =>
    (winCsRun r.2 as).bind fun q =>
    .ret ((r.1.toList.map fun x => (t, c, x)) ++ q.1, q.2)

/-! ## Thread-local storage -/

/-- `ZyanThreadTlsAlloc`: src/API/Thread.c lines 197-207. -/
def winTlsAlloc (s : TlsState) (reply : Except Errno Nat) : Status × Option Nat × TlsState :=
  match pthreadKeyCreate s reply with
  | (.error _, s) => (stOutOfResources, none, s)
  | (.ok k, s) => (stSuccess, some k, s)

/-- `ZyanThreadTlsFree`: src/API/Thread.c lines 209-212. -/
def winTlsFree (s : TlsState) (k : Nat) : Status × TlsState :=
  if s.used k then (stSuccess, { s with used := fun q => if q = k then false else s.used q })
  else (stBadSystemcall, s)

/-- `ZyanThreadTlsGetValue`: src/API/Thread.c lines 214-219. `FlsGetValue` yields null for an index that is
not allocated. -/
def winTlsGetValue (s : TlsState) (t k : Nat) : Status × Nat := (stSuccess, if s.used k then s.val t k else 0)

/-- `ZyanThreadTlsSetValue`: src/API/Thread.c lines 221-234. `FlsSetValue` fails with
`ERROR_INVALID_PARAMETER` (`EINVAL` here) for an index that is not allocated. -/
def winTlsSetValue (s : TlsState) (t k d : Nat) (fail : Option Errno) : Status × TlsState :=
  if s.used k then
    match fail with
    | none => (stSuccess, { s with val := fun u q => if u = t ∧ q = k then d else s.val u q })
    | some .EINVAL => (stInvalidArgument, s)
    | some _ => (stBadSystemcall, s)
  else (stInvalidArgument, s)

/-- One call, as `tlsStep`. -/
def winTlsStep (s : TlsState) (t : Nat) : TlsCall → TlsResult × TlsState
  | .alloc reply => (.index (winTlsAlloc s reply).1 (winTlsAlloc s reply).2.1, (winTlsAlloc s reply).2.2)
  | .free k => (.status (winTlsFree s k).1, (winTlsFree s k).2)
  | .get k => (.value (winTlsGetValue s t k).1 (winTlsGetValue s t k).2, s)
  | .set k d fail => (.status (winTlsSetValue s t k d fail).1, (winTlsSetValue s t k d fail).2)

/-- All calls, as `tlsRun`. -/
def winTlsRun (s : TlsState) : List (Nat × TlsCall) → List (Nat × TlsResult) × TlsState
  | [] => ([], s)
  | (t, c) :: as => ((t, (winTlsStep s t c).1) :: (winTlsRun (winTlsStep s t c).2 as).1,
      (winTlsRun (winTlsStep s t c).2 as).2)

/-! ## Memory -/

/-- A region of memory as it was allocated: first page and number of pages. -/
structure Region where
  first : Nat
  pages : Nat
deriving DecidableEq, Repr

/-- `ZyanMemoryVirtualFree`: src/API/Memory.c lines 106-126 (Windows). `VirtualFree` with `MEM_RELEASE`
releases the region that begins at the address; the size is not used. -/
def winVirtualFree (ps : Nat) (m : List Region) (addr _size : Nat) (deny : Bool) : Status × List Region :=
  if deny then (stBadSystemcall, m)
  else if m.any (fun r => r.first * ps == addr) then (stSuccess, m.filter fun r => r.first * ps != addr)
  else (stBadSystemcall, m)

/-! ## Terminal -/

/-- What a standard stream is bound to: nothing, a handle that is not a console, or a console with a mode
that can or cannot be changed. -/
inductive WinStream where
  | closed
  | noHandle
  | file
  | console (mode : BitVec 32) (writable : Bool)
deriving DecidableEq, Repr

/-- `ZyanTerminalEnableVT100`: src/API/Terminal.c lines 51-98 (Windows). -/
def winEnableVT100 (streams : BitVec 32 → WinStream) (stream : BitVec 32) :
    Status × (BitVec 32 → WinStream) :=
  if stream ≠ 1#32 ∧ stream ≠ 2#32 then (stInvalidArgument, streams)
  else
    match streams stream with
    | .closed => (stInvalidArgument, streams)
    | .noHandle => (stInvalidArgument, streams)
    | .file => (stInvalidArgument, streams)
    | .console _ false => (stBadSystemcall, streams)
    | .console mode true => (stSuccess, fun q => if q = stream then .console (mode ||| 4#32) true else streams q)

end Zy
