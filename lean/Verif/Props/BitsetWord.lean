import Verif.Lemmas.BitsetWord
import Verif.Props.Bitset

/-!
# Property theorems about bitsets on targets with another width of `size_t` (C175)
-/

namespace Zy

open Spec

/-- C175 (the parameter is the width): with `2^64` values of `size_t`, every call is the call of the
64-bit model, for every state and every request. -/
theorem C175_is_64 (t : Bits) (op : BOp) : bsOpW 18446744073709551616 t op = bsOp t op := by
  cases op <;> rfl

/-- C175: on every target whose `size_t` has at most `2^64` values, every history of requests that fit
into that `size_t` is defined, returns the statuses of the specification and ends with exactly the bits that
a list of booleans would hold; testing reads them back. -/
theorem C175_behaves_like_booleans {m : Nat} (hm : m ≤ 18446744073709551616) {P : Params} {t : Bits}
    (h : BReachW m P t) (ops : List BOp) (hd : BAllInDomainW m P (babsOf t) ops) :
    ∃ t', runBitsW m t ops = .ret ((brun P (babsOf t) ops).1, t') ∧
      (babsOf t').bits = ops.foldl plain (babsOf t).bits ∧
      babsOf t' = (brun P (babsOf t) ops).2 ∧
      bsGetSize t' = (ops.foldl plain (babsOf t).bits).length ∧
      ∀ i, bsTest t' i = .ret (answer (ops.foldl plain (babsOf t).bits)[i]?) := by
  obtain ⟨_, bytes, b, sl, R⟩ := h.wide hm
  obtain ⟨t', bytes', b', sl', e, R'⟩ := runBitsW_ok ops R hd
  have hbits := brun_plain ops (hd.wide hm)
  refine ⟨t', e, by rw [R'.brep.abs_eq, hbits], R'.brep.abs_eq, ?_, fun i => ?_⟩
  · unfold bsGetSize; rw [R'.brep.size, hbits]
  · rw [test_ok R'.brep, hbits]

/-- C175 (portability): a history of requests that fit into the narrower of two `size_t` has the same
outcome on both targets: the same statuses, bits, capacity and allocator calls. -/
theorem C175_portable {m m' : Nat} (hm : m ≤ m') (hm' : m' ≤ 18446744073709551616) {P : Params}
    {t : Bits} (h : BReachW m P t) (ops : List BOp) (hd : BAllInDomainW m P (babsOf t) ops) :
    runBitsW m t ops = runBitsW m' t ops := by
  obtain ⟨_, bytes, b, sl, R⟩ := h.wide (Nat.le_trans hm hm')
  have R' : BRepW m' P t (babsOf t) bytes b sl := ⟨R.brep, hm', Nat.lt_of_lt_of_le R.fits hm⟩
  rw [runBitsW_eq ops R hd, runBitsW_eq ops R' (hd.mono hm)]

/-- C175 (reachable bitsets): what a program can obtain on the narrow target, it can obtain on the 64-bit
target, so that every theorem about `BReach` applies to it. -/
theorem C175_reachable {m : Nat} (hm : m ≤ 18446744073709551616) {P : Params} {t : Bits}
    (h : BReachW m P t) : BReach P t := (h.wide hm).1

/-- C175 (questions): the test of the last bit, the number of set bits and the tests of all bits have the
same answers as on the 64-bit target. -/
theorem C175_questions {m : Nat} (hm : m ≤ 18446744073709551616) {P : Params} {t : Bits}
    (h : BReachW m P t) : bsTestMSBW m t = bsTestMSB t ∧ bsCountW m t = bsCount t ∧
    bsAllW m t = bsAll t ∧ bsAnyW m t = bsAny t ∧ bsNoneW m t = bsNone t := by
  obtain ⟨_, bytes, b, sl, R⟩ := h.wide hm
  have hb := R.bits
  have hlt := R.lt
  have hv := R.brep.rep.vsize
  have hs := R.brep.size
  have hscan : ∀ whole last hit miss, bsScanW m t whole last hit miss (vecGetSize t.s) 0 =
      bsScan t whole last hit miss (vecGetSize t.s) 0 := fun whole last hit miss =>
    scanW_eq hm t whole last hit miss (by omega) _ 0 (Nat.le_refl _)
  refine ⟨testMSBW_eq hm t (by omega), ?_, hscan _ _ _ _, hscan _ _ _ _, hscan _ _ _ _⟩
  unfold bsCountW bsCount
  rw [countLoopW_eq hm t.s _ 0 0 (by omega)]

/-- C175 (capacity): the reported number of bits that fit without an allocation is eight times the number of
bytes if that number fits into `size_t`. If it fits into 64 bits only, the narrow target reports less than
the bitset can hold. -/
theorem C175_capacity {m : Nat} (hm0 : 0 < m) (t : Bits)
    (hwide : bsGetCapacityBytes t * 8 < 18446744073709551616) :
    bsGetCapacity t = bsGetCapacityBytes t * 8 ∧
    (bsGetCapacityBytes t * 8 < m → bsGetCapacityW m t = bsGetCapacityBytes t * 8) ∧
    (m ≤ bsGetCapacityBytes t * 8 → bsGetCapacityW m t < bsGetCapacityBytes t * 8) := by
  refine ⟨mul64_eq hwide, fun h => Nat.mod_eq_of_lt h, fun h => ?_⟩
  exact Nat.lt_of_lt_of_le (Nat.mod_lt _ hm0) h

/-! ## A 32-bit target -/

theorem exBits0_reachW : BReachW 4294967296 exBP exBits0 :=
  BReachW.init (P := exBP) (w := exBW) (n := 8) (a := 0) (st := stSuccess) (w' := exBits0.s.w) ⟨rfl, rfl⟩
    (fun _ => failed_success) ⟨rfl, by decide, by decide⟩ ⟨rfl, rfl⟩ (by decide) (by show _ < _; decide)
    (by cbv)

/-- Sets a bit, pushes over a byte boundary, pops and flips. -/
def exWBOps : List BOp := [.set 0, .push true, .push false, .pop, .flip, .reserve 100]

theorem exWBOps_domain : BAllInDomainW 4294967296 exBP (babsOf exBits0) exWBOps := by
  refine ⟨trivial, fun _ => ⟨by show _ < _; decide +kernel, by decide +kernel⟩, ?_, ?_, trivial, ?_, trivial⟩
  · intro h
    exact absurd h (by decide +kernel)
  · show _ ≠ _
    decide +kernel
  · exact ⟨by decide, by decide⟩

example : ∃ t', runBitsW 4294967296 exBits0 exWBOps = .ret (List.replicate 6 stSuccess, t') ∧
    (babsOf t').bits = [false, true, true, true, true, true, true, true, false] := by
  obtain ⟨t', h1, h2, _⟩ := C175_behaves_like_booleans (by decide) exBits0_reachW exWBOps exWBOps_domain
  refine ⟨t', ?_, ?_⟩
  · rw [h1, show (brun exBP (babsOf exBits0) exWBOps).1 = List.replicate 6 stSuccess by decide +kernel]
  · rw [h2]
    decide +kernel
example : runBitsW 4294967296 exBits0 exWBOps = runBitsW 18446744073709551616 exBits0 exWBOps :=
  C175_portable (by decide) (by decide) exBits0_reachW exWBOps exWBOps_domain
example : BReach exBP exBits0 := C175_reachable (by decide) exBits0_reachW
example : bsCountW 4294967296 exBits0 = bsCount exBits0 :=
  (C175_questions (by decide) exBits0_reachW).2.1

/-- Parameters of a bitset on a caller buffer. -/
def exWFP : Params := ⟨none, 1, 0, 1, false⟩

/-- An empty bitset on a caller buffer of 512 MiB. -/
def exWBig : Bits :=
  ⟨0, ⟨{ allocator := none, growth := 1, shrink := 0, size := 0, cap := 536870912, esz := 1,
         hasDtor := false, data := some ⟨9, List.replicate 536870912 none⟩ }, exBW⟩⟩

theorem exWBig_reach : BReachW 4294967296 exWFP exWBig :=
  BReachW.initBuffer (P := exWFP) (w := exBW) (n := 0) (cap := 536870912) (st := stSuccess)
    (b := ⟨9, List.replicate 536870912 none⟩) ⟨rfl, rfl⟩
    (fun _ => failed_success) ⟨rfl, rfl, rfl⟩ ⟨rfl, rfl⟩ (by decide) (by show _ < _; decide)
    (by show _ ≤ (List.replicate _ _).length; rw [List.length_replicate]; exact Nat.le_refl _) rfl

/-- On a 64-bit target it can hold `2^32` bits; on a 32-bit target the reported capacity is 0. -/
example : bsGetCapacity exWBig = 4294967296 ∧ bsGetCapacityW 4294967296 exWBig = 0 := ⟨rfl, rfl⟩
example : bsGetCapacityW 4294967296 exWBig < 4294967296 :=
  (C175_capacity (by decide) exWBig (by decide)).2.2 (by decide)

end Zy
