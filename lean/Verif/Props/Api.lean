import Verif.Lemmas.Api

/-!
# Property theorems: memory, process and terminal functions

The vocabulary (`Touches`, `Permits`, `promises`) is in `Verif.Spec.Api`.
-/

namespace Zy

open Zy.Spec

/-! ## C97 -/

/-- C97: changing the protection succeeds exactly if the address is aligned, the range does not wrap around,
all touched pages are mapped and the system does not refuse. Then each byte of the range permits exactly
the accesses that the protection promises. -/
theorem C97_protect {ps : Nat} (hp : 0 < ps) (s : Pages) (addr size : Nat) (p : PageProt) (deny : Option Errno)
    (done : Nat) :
    ((virtualProtect ps s addr size p deny done).1 = stSuccess ↔
      addr % ps = 0 ∧ addr + size ≤ 2 ^ 64 ∧ deny = none ∧
        ∀ q, Touches ps addr size q → (s q).isSome = true) ∧
    ((virtualProtect ps s addr size p deny done).1 = stSuccess → ∀ b, addr ≤ b → b < addr + size → ∀ a,
      (Permits ps (virtualProtect ps s addr size p deny done).2 b a ↔ a ∈ promises p)) := by
  simp only [virtualProtect, sysStatus_success]
  unfold mprotect
  by_cases h1 : addr % ps = 0
  · rw [if_neg (by simp [h1])]
    by_cases h2 : addr + size ≤ 2 ^ 64
    · rw [if_neg (by omega)]
      cases deny with
      | some e => simp
      | none =>
        have key : allMapped s (addr / ps) (pageCount ps size) = true ↔
            ∀ q, Touches ps addr size q → (s q).isSome = true := by
          rw [allMapped_iff]
          constructor
          · intro h q hq
            rw [touches_iff hp h1] at hq
            exact h q hq.1 hq.2
          · intro h q h3 h4
            exact h q ((touches_iff hp h1 q).2 ⟨h3, h4⟩)
        by_cases h3 : allMapped s (addr / ps) (pageCount ps size) = true
        · simp only [h3, if_true]
          refine ⟨⟨fun _ => ⟨h1, h2, trivial, key.1 h3⟩, fun _ => trivial⟩, fun _ b h4 h5 a => ?_⟩
          have ht : Touches ps addr size (b / ps) := ⟨b, h4, h5, rfl⟩
          have hm := key.1 h3 _ ht
          rw [touches_iff hp h1] at ht
          have e : setPages s (addr / ps) (pageCount ps size) (some p.bits) true (b / ps) = some p.bits := by
            unfold setPages
            exact if_pos ⟨ht.1, ht.2, fun _ => hm⟩
          unfold Permits
          rw [e, ← bits_accessBit]
          simp
        · simp only [h3]
          refine ⟨⟨fun h => by simp at h, fun h => absurd (key.2 h.2.2.2) h3⟩, fun h => by simp at h⟩
    · rw [if_pos (by omega)]
      refine ⟨⟨fun h => by simp at h, fun h => absurd h.2.1 h2⟩, fun h => by simp at h⟩
  · rw [if_pos h1]
    exact ⟨⟨fun h => by simp at h, fun h => absurd h.1 h1⟩, fun h => by simp at h⟩

/-- C97: whether it succeeds or not, no page outside of the range changes, and no page is mapped or
unmapped. -/
theorem C97_protect_frame {ps : Nat} (hp : 0 < ps) (s : Pages) (addr size : Nat) (p : PageProt)
    (deny : Option Errno) (done q : Nat) :
    ((virtualProtect ps s addr size p deny done).2 q).isSome = (s q).isSome ∧
      (¬ Touches ps addr size q → (virtualProtect ps s addr size p deny done).2 q = s q) := by
  have frame : ∀ n, n ≤ pageCount ps size → addr % ps = 0 →
      (setPages s (addr / ps) n (some p.bits) true q).isSome = (s q).isSome ∧
      (¬ Touches ps addr size q → setPages s (addr / ps) n (some p.bits) true q = s q) := by
    intro n hn ha
    constructor
    · unfold setPages
      split
      · rename_i h; rw [h.2.2 rfl]; rfl
      · rfl
    · intro ht
      rw [touches_iff hp ha] at ht
      exact setPages_out (by omega)
  simp only [virtualProtect]
  unfold mprotect
  by_cases h1 : addr % ps = 0
  · rw [if_neg (by simp [h1])]
    split
    · exact ⟨rfl, fun _ => rfl⟩
    · split
      · exact frame _ (Nat.min_le_right ..) h1
      · split
        · exact frame _ (Nat.le_refl _) h1
        · exact frame _ (Nat.min_le_right ..) h1
  · rw [if_pos h1]
    exact ⟨rfl, fun _ => rfl⟩

/-- C97: after a successful release no byte of the range permits any access, and no page outside of the range
changes; a failing release changes nothing. -/
theorem C97_free {ps : Nat} (hp : 0 < ps) (s : Pages) (addr size : Nat) (deny : Option Errno) :
    ((virtualFree ps s addr size deny).1 = stSuccess →
      (∀ b, addr ≤ b → b < addr + size → ∀ a, ¬ Permits ps (virtualFree ps s addr size deny).2 b a) ∧
      ∀ q, ¬ Touches ps addr size q → (virtualFree ps s addr size deny).2 q = s q) ∧
    ((virtualFree ps s addr size deny).1 ≠ stSuccess → (virtualFree ps s addr size deny).2 = s) := by
  simp only [virtualFree, ne_eq, sysStatus_success]
  unfold munmap
  split
  · exact ⟨fun h => by simp at h, fun _ => rfl⟩
  · rename_i h
    have h1 : addr % ps = 0 := Decidable.byContradiction fun h' => h (.inl h')
    cases deny with
    | some e => exact ⟨fun h => by simp at h, fun _ => rfl⟩
    | none =>
      refine ⟨fun _ => ⟨fun b h2 h3 a => ?_, fun q hq => ?_⟩, fun h => absurd rfl h⟩
      · have ht : Touches ps addr size (b / ps) := ⟨b, h2, h3, rfl⟩
        rw [touches_iff hp h1] at ht
        unfold Permits
        have e : setPages s (addr / ps) (pageCount ps size) none false (b / ps) = none := by
          unfold setPages
          exact if_pos ⟨ht.1, ht.2, fun h => by simp at h⟩
        simp only [e]
        rintro ⟨v, h4, _⟩
        cases h4
      · rw [touches_iff hp h1] at hq
        exact setPages_out hq

/-- C97: a release succeeds exactly if the address is aligned, the range is not empty and does not wrap around,
and the system does not refuse. Pages of the range that are not mapped do not matter. -/
theorem C97_free_succeeds (ps : Nat) (s : Pages) (addr size : Nat) (deny : Option Errno) :
    (virtualFree ps s addr size deny).1 = stSuccess ↔
      addr % ps = 0 ∧ 0 < size ∧ addr + size ≤ 2 ^ 64 ∧ deny = none := by
  simp only [virtualFree, sysStatus_success]
  unfold munmap
  split
  · rename_i h
    constructor
    · intro h'; simp at h'
    · rintro ⟨h1, h2, h3, _⟩; omega
  · rename_i h
    cases deny with
    | some e => simp
    | none => simp; omega

/-- Pages 1 to 3 are mapped; 5000 bytes from page 1 on are two pages. -/
def apiPages : Pages := fun q => if 1 ≤ q ∧ q ≤ 3 then some 1#32 else none

example : (virtualProtect 4096 apiPages 4096 5000 .readwrite none 0).1 = stSuccess ∧
    (List.range 5).map (virtualProtect 4096 apiPages 4096 5000 .readwrite none 0).2 =
      [none, some 3#32, some 3#32, some 1#32, none] := by decide +kernel
example : (virtualProtect 4096 apiPages 8192 9000 .executeRead none 1).1 = stBadSystemcall ∧
    (List.range 5).map (virtualProtect 4096 apiPages 8192 9000 .executeRead none 1).2 =
      [none, some 1#32, some 5#32, some 1#32, none] := by decide +kernel
example : (virtualFree 4096 apiPages 8192 1 none).1 = stSuccess ∧
    (List.range 5).map (virtualFree 4096 apiPages 8192 1 none).2 =
      [none, some 1#32, none, some 1#32, none] := by decide +kernel

/-! ## C98 -/

/-- C98, for all page sizes that the system reports and that fit in 32 bits. Missing: a failure of the system
and larger sizes. -/
theorem C98_page_size_partial (v : BitVec 64) (h0 : 0 ≤ v.toInt) (h : v.toInt < 2 ^ 32) :
    ((getSystemPageSize v).toNat : Int) = v.toInt ∧
      ((getSystemAllocationGranularity v).toNat : Int) = v.toInt := by
  have e : v.toInt = v.toNat := by
    rw [BitVec.toInt_eq_toNat_cond] at h0 ⊢
    have := v.isLt
    split at h0 <;> split <;> omega
  rw [e] at h ⊢
  have h2 : v.toNat < 2 ^ 32 := by omega
  simp only [getSystemPageSize, getSystemAllocationGranularity, BitVec.toNat_setWidth]
  rw [Nat.mod_eq_of_lt h2]
  exact ⟨rfl, rfl⟩

/-- C98 is false for every other result of the system: a failure (-1) is reported as the page size
4294967295, and sizes of 2^32 or more are reported wrongly. -/
theorem C98_page_size_negation (v : BitVec 64) (h : v.toInt < 0 ∨ 2 ^ 32 ≤ v.toInt) :
    ((getSystemPageSize v).toNat : Int) ≠ v.toInt ∧
      (v = -1#64 → (getSystemPageSize v).toNat = 4294967295) := by
  have := (getSystemPageSize v).isLt
  refine ⟨fun e => ?_, fun e => by subst e; decide⟩
  rcases h with h | h <;> omega

example : getSystemPageSize 4096#64 = 4096#32 := by decide
example : (4096#64).toInt = 4096 ∧ (-1#64).toInt < 0 ∧ 2 ^ 32 ≤ (4294967296#64).toInt := by decide

/-! ## C99 -/

/-- C99: the check whether a standard stream is a terminal is defined exactly for the three streams. It is
true exactly for terminals, and an error exactly for closed descriptors. -/
theorem C99_isTTY (sys : Ttys) (stream : BitVec 32) :
    (stream.toNat < 3 → ∃ st, isTTY sys stream = .ret st ∧
      (st = stTrue ↔ sys stream.toNat = .ok ()) ∧
      (failed st = true ↔ sys stream.toNat = .error .EBADF) ∧
      (st = stFalse ↔ ∃ e, sys stream.toNat = .error e ∧ e ≠ .EBADF)) ∧
    (3 ≤ stream.toNat → isTTY sys stream = .ub .other) := by
  have main : ∀ f : Nat, ∃ st, (match sys f with
      | .ok () => (.ret stTrue : Out Status)
      | .error .EBADF => .ret stInvalidArgument
      | .error _ => .ret stFalse) = .ret st ∧
      (st = stTrue ↔ sys f = .ok ()) ∧ (failed st = true ↔ sys f = .error .EBADF) ∧
      (st = stFalse ↔ ∃ e, sys f = .error e ∧ e ≠ .EBADF) := by
    intro f
    cases hf : sys f with
    | ok u => exact ⟨stTrue, rfl, by simp, by simp, by simp; decide⟩
    | error e =>
      by_cases he : e = .EBADF
      · subst he
        exact ⟨stInvalidArgument, rfl, by simp; decide, by simp, by simp; decide⟩
      · refine ⟨stFalse, ?_, by simp; decide, by simp [he], by simp [he]⟩
        cases e <;> first | rfl | exact absurd rfl he
  constructor
  · intro h
    have h3 : stream.toNat = 0 ∨ stream.toNat = 1 ∨ stream.toNat = 2 := by omega
    rcases h3 with e | e | e
    · have : stream = 0#32 := BitVec.eq_of_toNat_eq e
      subst this; exact main 0
    · have : stream = 1#32 := BitVec.eq_of_toNat_eq e
      subst this; exact main 1
    · have : stream = 2#32 := BitVec.eq_of_toNat_eq e
      subst this; exact main 2
  · intro h
    unfold isTTY
    rw [if_neg, if_neg, if_neg]
    all_goals (rintro rfl; revert h; decide)

/-- C99: escape codes can be enabled exactly for the two output streams; everything else is refused. -/
theorem C99_enableVT100 (stream : BitVec 32) :
    (enableVT100 stream = stSuccess ↔ stream.toNat = 1 ∨ stream.toNat = 2) ∧
      (enableVT100 stream ≠ stSuccess → enableVT100 stream = stInvalidArgument) := by
  have h1 : stream = 1#32 ↔ stream.toNat = 1 := ⟨fun h => by rw [h]; rfl, fun h => BitVec.eq_of_toNat_eq h⟩
  have h2 : stream = 2#32 ↔ stream.toNat = 2 := ⟨fun h => by rw [h]; rfl, fun h => BitVec.eq_of_toNat_eq h⟩
  have hne : stInvalidArgument ≠ stSuccess := by decide
  unfold enableVT100
  rw [← h1, ← h2]
  by_cases ha : stream = 1#32
  · simp [ha]
  · by_cases hb : stream = 2#32
    · simp [hb]
    · simp [ha, hb, hne]

/-- Standard output is a terminal, standard input a file, standard error is closed. -/
def apiTtys : Ttys := fun f => if f = 1 then .ok () else if f = 0 then .error .ENOTTY else .error .EBADF

example : isTTY apiTtys 0#32 = .ret stFalse ∧ isTTY apiTtys 1#32 = .ret stTrue ∧
    isTTY apiTtys 2#32 = .ret stInvalidArgument ∧ isTTY apiTtys 7#32 = .ub .other := by decide

/-! ## C100 -/

/-- C100: each function reports `SUCCESS` exactly if the system call succeeded, and otherwise a status for
which `ZYAN_FAILED` holds, whatever the error number. -/
theorem C100_errors (e : Option Errno) :
    ∀ f ∈ [enterStatus, leaveStatus, csDelete, sysStatus, fun x => (csInitialize x none).1,
        fun x => (csInitialize none x).1],
      (f e = stSuccess ↔ e = none) ∧ (e ≠ none → failed (f e) = true) := by
  intro f hf
  simp only [List.mem_cons, List.not_mem_nil, or_false] at hf
  rcases hf with rfl | rfl | rfl | rfl | rfl | rfl <;>
    (cases e with
     | none => exact ⟨⟨fun _ => rfl, fun _ => rfl⟩, fun h => absurd rfl h⟩
     | some x => cases x <;> exact ⟨⟨fun h => absurd h (by simp only [enterStatus, leaveStatus, csDelete, sysStatus, csInitialize]; decide), fun h => nomatch h⟩, fun _ => by simp only [enterStatus, leaveStatus, csDelete, sysStatus, csInitialize]; decide⟩)

/-- C100: an index is handed out exactly if the system created one; otherwise the status is a failure and no
index or value changes. -/
theorem C100_tls_alloc (s : TlsState) (reply : Except Errno Nat) :
    (∀ k, reply = .ok k → (tlsAlloc s reply).1 = stSuccess ∧ (tlsAlloc s reply).2.1 = some k) ∧
      (∀ e, reply = .error e → failed (tlsAlloc s reply).1 = true ∧ (tlsAlloc s reply).2 = (none, s)) := by
  constructor
  · rintro k rfl; exact ⟨rfl, rfl⟩
  · rintro e rfl
    cases e <;> exact ⟨by simp only [tlsAlloc, pthreadKeyCreate]; decide, rfl⟩

/-- C100: setting a value reports `SUCCESS` exactly if the system stored it; otherwise nothing changes. -/
theorem C100_tls_set (s : TlsState) (t k d : Nat) (fail : Option Errno) (hk : s.used k = true) :
    ∃ st s', tlsSetValue s t k d fail = .ret (st, s') ∧ (st = stSuccess ↔ fail = none) ∧
      (fail ≠ none → failed st = true ∧ s' = s) ∧ (fail = none → s'.val t k = d) := by
  cases fail with
  | none =>
    exact ⟨stSuccess, { s with val := fun u q => if u = t ∧ q = k then d else s.val u q },
      by simp [tlsSetValue, pthreadSetSpecific, hk], by simp, by simp, by simp⟩
  | some e =>
    have : ∃ st, tlsSetValue s t k d (some e) = .ret (st, s) ∧ st ≠ stSuccess ∧ failed st = true := by
      simp only [tlsSetValue, pthreadSetSpecific, hk, if_true, Out.ret_bind']
      cases e <;> exact ⟨_, rfl, by decide, by decide⟩
    obtain ⟨st, h1, h2, h3⟩ := this
    exact ⟨st, s, h1, by simp [h2], fun _ => ⟨h3, rfl⟩, by simp⟩

/-- C100: freeing an index reports `SUCCESS` exactly if it was in use. Afterwards it is not in use; other
indices and all values stay. -/
theorem C100_tls_free (s : TlsState) (k : Nat) :
    ((tlsFree s k).1 = stSuccess ↔ s.used k = true) ∧ (s.used k = false → failed (tlsFree s k).1 = true) ∧
      (tlsFree s k).2.used k = false ∧ (∀ q, q ≠ k → (tlsFree s k).2.used q = s.used q) ∧
      (tlsFree s k).2.val = s.val := by
  have hne : stBadSystemcall ≠ stSuccess := by decide
  have hf : failed stBadSystemcall = true := by decide
  unfold tlsFree
  cases h : s.used k with
  | true => simp +contextual
  | false => simp [h, hne, hf]

/-- C100: flushing the instruction cache reports `SUCCESS` exactly if the address is aligned, all touched
pages are mapped and the system does not refuse. -/
theorem C100_flush {ps : Nat} (hp : 0 < ps) (s : Pages) (addr size : Nat) (deny : Option Errno) :
    (flushInstructionCache ps s addr size deny = stSuccess ↔
      addr % ps = 0 ∧ addr + size ≤ 2 ^ 64 ∧ deny = none ∧ ∀ q, Touches ps addr size q → (s q).isSome = true) ∧
    (flushInstructionCache ps s addr size deny ≠ stSuccess →
      failed (flushInstructionCache ps s addr size deny) = true) := by
  constructor
  · unfold flushInstructionCache
    rw [sysStatus_success]
    have h := (C97_protect hp s addr size .readonly deny 0).1
    rw [← h]
    simp only [virtualProtect, sysStatus_success]
    unfold msync mprotect
    split
    · simp
    · split
      · simp
      · cases deny with
        | some e => simp
        | none => simp only; split <;> simp
  · intro h
    unfold flushInstructionCache at *
    cases hm : msync ps s addr size deny with
    | none => rw [hm] at h; exact absurd rfl h
    | some e => exact (by decide : failed stBadSystemcall = true)

example : flushInstructionCache 4096 apiPages 4096 12288 none = stSuccess ∧
    flushInstructionCache 4096 apiPages 4096 12289 none = stBadSystemcall := by decide +kernel
example : (tlsAlloc .start (.error .EAGAIN)).1 = stOutOfResources := by decide
example : (tlsAlloc .start (.ok 4)).2.2.used 4 = true := by decide

end Zy
