import Verif.Base

/-!
# Model of critical sections and thread-local storage (POSIX)

`src/API/Synchronization.c` lines 55-153, `src/API/Thread.c` lines 123-169.

The POSIX functions below them are modelled as POSIX describes them: `pthread_mutex_*` by a mutex with an
owner and a count, `pthread_key_*` by a table of values for each thread and key. Calls of different
threads interleave arbitrarily, each call of a POSIX function is atomic.

Assumptions: no robust mutexes, no priority ceilings, no cancellation. `limit` is the number of recursive
locks that the implementation supports (at least one).
-/

namespace Zy

/-- Error numbers of POSIX; `other` stands for the remaining ones. -/
inductive Errno where
  | EINVAL | EAGAIN | EPERM | EBUSY | ENOMEM | EDEADLK | EBADF | ENOTTY
  | other (n : Nat)
deriving DecidableEq, Repr

/-- The types of mutexes that matter here. -/
inductive MutexKind where
  | default
  | recursive
deriving DecidableEq, Repr

/-- A POSIX mutex. -/
structure Mutex where
  kind : MutexKind
  owner : Option Nat
  count : Nat
deriving DecidableEq, Repr

/-! ## POSIX -/

/-- `pthread_mutex_lock` called by thread `t`; `none` means that the call blocks. An error is the first
component of the result. -/
def pthreadLock (limit : Nat) (m : Mutex) (t : Nat) : Option (Option Errno × Mutex) :=
  match m.owner with
  | none => some (none, { m with owner := some t, count := 1 })
  | some o =>
    if o = t ∧ m.kind = .recursive then
      if m.count < limit then some (none, { m with count := m.count + 1 }) else some (some .EAGAIN, m)
    else none

/-- `pthread_mutex_trylock`. -/
def pthreadTryLock (limit : Nat) (m : Mutex) (t : Nat) : Option Errno × Mutex :=
  match m.owner with
  | none => (none, { m with owner := some t, count := 1 })
  | some o =>
    if o = t ∧ m.kind = .recursive then
      if m.count < limit then (none, { m with count := m.count + 1 }) else (some .EAGAIN, m)
    else (some .EBUSY, m)

/-- `pthread_mutex_unlock`. For a mutex of the default type it is undefined unless the caller owns it. -/
def pthreadUnlock (m : Mutex) (t : Nat) : Out (Option Errno × Mutex) :=
  if m.owner = some t then
    if m.count ≤ 1 then .ret (none, { m with owner := none, count := 0 })
    else .ret (none, { m with count := m.count - 1 })
  else if m.kind = .recursive then .ret (some .EPERM, m)
  else .ub .other

/-! ## Critical sections -/

/-- `ZyanCriticalSectionInitialize`: src/API/Synchronization.c lines 55-94. `attr` and `init` are the
results of `pthread_mutexattr_init` and `pthread_mutex_init`. -/
def csInitialize (attr init : Option Errno) : Status × Option Mutex :=
  match attr with
  | some .ENOMEM => (stNoMemory, none)
  | some _ => (stBadSystemcall, none)
  | none =>
    match init with
    | some .EAGAIN => (stOutOfResources, none)
    | some .ENOMEM => (stNoMemory, none)
    | some .EPERM => (stAccessDenied, none)
    | some .EBUSY => (stInvalidArgument, none)
    | some .EINVAL => (stInvalidArgument, none)
    | some _ => (stBadSystemcall, none)
    | none => (stSuccess, some ⟨.recursive, none, 0⟩)

/-- The status for the result of `pthread_mutex_lock`: src/API/Synchronization.c lines 98-112. -/
def enterStatus : Option Errno → Status
  | none => stSuccess
  | some .EINVAL => stInvalidArgument
  | some .EAGAIN => stInvalidOperation
  | some _ => stBadSystemcall

/-- `ZyanCriticalSectionEnter`: src/API/Synchronization.c lines 96-113. -/
def csEnter (limit : Nat) (m : Mutex) (t : Nat) : Option (Status × Mutex) :=
  (pthreadLock limit m t).map fun r => (enterStatus r.1, r.2)

/-- `ZyanCriticalSectionTryEnter`: src/API/Synchronization.c lines 115-119. -/
def csTryEnter (limit : Nat) (m : Mutex) (t : Nat) : Bool × Mutex :=
  ((pthreadTryLock limit m t).1.isNone, (pthreadTryLock limit m t).2)

/-- The status for the result of `pthread_mutex_unlock`: src/API/Synchronization.c lines 123-137. -/
def leaveStatus : Option Errno → Status
  | none => stSuccess
  | some .EINVAL => stInvalidArgument
  | some .EPERM => stInvalidOperation
  | some _ => stBadSystemcall

/-- `ZyanCriticalSectionLeave`: src/API/Synchronization.c lines 121-138. -/
def csLeave (m : Mutex) (t : Nat) : Out (Status × Mutex) :=
  (pthreadUnlock m t).bind fun r => .ret (leaveStatus r.1, r.2)

/-- `ZyanCriticalSectionDelete`: src/API/Synchronization.c lines 140-153, for the result of
`pthread_mutex_destroy`. -/
def csDelete : Option Errno → Status
  | none => stSuccess
  | some .EBUSY => stInvalidArgument
  | some .EINVAL => stInvalidArgument
  | some _ => stBadSystemcall

/-- A call on a critical section. -/
inductive CsCall where
  | enter
  | tryEnter
  | leave
deriving DecidableEq, Repr

/-- The result of a call. -/
inductive CsResult where
  | status (s : Status)
  | bool (b : Bool)
deriving DecidableEq, Repr

/-- A completed call. -/
abbrev CsEvent := Nat × CsCall × CsResult

/-- One attempt of a call by a thread. A call that blocks does not complete; it is tried again later. -/
def csStep (limit : Nat) (m : Mutex) (t : Nat) : CsCall → Out (Option CsResult × Mutex)
  | .enter =>
    match csEnter limit m t with
    | none => .ret (none, m)
    | some (st, m) => .ret (some (.status st), m)
  | .tryEnter => .ret (some (.bool (csTryEnter limit m t).1), (csTryEnter limit m t).2)
  | .leave => (csLeave m t).bind fun r => .ret (some (.status r.1), r.2)

/-- All attempts, in the order in which the threads make them: the completed calls and the mutex. -/
def csRun (limit : Nat) (m : Mutex) : List (Nat × CsCall) → Out (List CsEvent × Mutex)
  | [] => .ret ([], m)
  | (t, c) :: as =>
    (csStep limit m t c).bind fun r =>
    (csRun limit r.2 as).bind fun q =>
    .ret ((r.1.toList.map fun x => (t, c, x)) ++ q.1, q.2)

/-! ## Thread-local storage -/

/-- The keys in use, and the value of each thread for each key (0 is null). -/
structure TlsState where
  used : Nat → Bool
  val : Nat → Nat → Nat

/-- No keys. -/
def TlsState.start : TlsState := ⟨fun _ => false, fun _ _ => 0⟩

/-- `pthread_key_create`: `reply` is the error or the key that is chosen. All threads have the value null
for a new key. -/
def pthreadKeyCreate (s : TlsState) (reply : Except Errno Nat) : Except Errno Nat × TlsState :=
  match reply with
  | .error e => (.error e, s)
  | .ok k => (.ok k, ⟨fun q => if q = k then true else s.used q, fun t q => if q = k then 0 else s.val t q⟩)

/-- `pthread_setspecific` by thread `t`; `fail` is the error, if any. It is undefined for a key that is
not in use. -/
def pthreadSetSpecific (s : TlsState) (t k d : Nat) (fail : Option Errno) : Out (Option Errno × TlsState) :=
  if s.used k then
    match fail with
    | some e => .ret (some e, s)
    | none => .ret (none, { s with val := fun u q => if u = t ∧ q = k then d else s.val u q })
  else .ub .other

/-- `pthread_getspecific` by thread `t`. -/
def pthreadGetSpecific (s : TlsState) (t k : Nat) : Out Nat := if s.used k then .ret (s.val t k) else .ub .other

/-- `ZyanThreadTlsAlloc`: src/API/Thread.c lines 123-142. The index is stored only on success. -/
def tlsAlloc (s : TlsState) (reply : Except Errno Nat) : Status × Option Nat × TlsState :=
  match pthreadKeyCreate s reply with
  | (.error .EAGAIN, s) => (stOutOfResources, none, s)
  | (.error .ENOMEM, s) => (stNoMemory, none, s)
  | (.error _, s) => (stBadSystemcall, none, s)
  | (.ok k, s) => (stSuccess, some k, s)

/-- `ZyanThreadTlsFree`: src/API/Thread.c lines 144-147. `pthread_key_delete` fails for a key that is not
in use. -/
def tlsFree (s : TlsState) (k : Nat) : Status × TlsState :=
  if s.used k then (stSuccess, { s with used := fun q => if q = k then false else s.used q })
  else (stBadSystemcall, s)

/-- `ZyanThreadTlsGetValue`: src/API/Thread.c lines 149-154. -/
def tlsGetValue (s : TlsState) (t k : Nat) : Out (Status × Nat) :=
  (pthreadGetSpecific s t k).bind fun d => .ret (stSuccess, d)

/-- `ZyanThreadTlsSetValue`: src/API/Thread.c lines 156-169. -/
def tlsSetValue (s : TlsState) (t k d : Nat) (fail : Option Errno) : Out (Status × TlsState) :=
  (pthreadSetSpecific s t k d fail).bind fun r =>
    match r.1 with
    | none => .ret (stSuccess, r.2)
    | some .EINVAL => .ret (stInvalidArgument, r.2)
    | some _ => .ret (stBadSystemcall, r.2)

/-- A call of a thread: allocate an index (with the reply of the system), free one, get or set its
value (with the failure of the system, if any). -/
inductive TlsCall where
  | alloc (reply : Except Errno Nat)
  | free (k : Nat)
  | get (k : Nat)
  | set (k d : Nat) (fail : Option Errno)

/-- The result of a call. -/
inductive TlsResult where
  | index (s : Status) (k : Option Nat)
  | status (s : Status)
  | value (s : Status) (d : Nat)
deriving DecidableEq, Repr

/-- One call. -/
def tlsStep (s : TlsState) (t : Nat) : TlsCall → Out (TlsResult × TlsState)
  | .alloc reply => .ret (.index (tlsAlloc s reply).1 (tlsAlloc s reply).2.1, (tlsAlloc s reply).2.2)
  | .free k => .ret (.status (tlsFree s k).1, (tlsFree s k).2)
  | .get k => (tlsGetValue s t k).bind fun r => .ret (.value r.1 r.2, s)
  | .set k d fail => (tlsSetValue s t k d fail).bind fun r => .ret (.status r.1, r.2)

/-- All calls, in the order in which the threads make them. -/
def tlsRun (s : TlsState) : List (Nat × TlsCall) → Out (List (Nat × TlsResult) × TlsState)
  | [] => .ret ([], s)
  | (t, c) :: as =>
    (tlsStep s t c).bind fun r => (tlsRun r.2 as).bind fun q => .ret ((t, r.1) :: q.1, q.2)

end Zy
