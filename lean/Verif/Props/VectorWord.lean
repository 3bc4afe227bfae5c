import Verif.Lemmas.VectorWordReach
import Verif.Lemmas.VectorBounds

/-!
# Property theorems about vectors on targets with another width of `size_t` (C173)
-/

namespace Zy

open Spec

variable {α : Type}

/-- C173 (the parameter is the width): with `2^64` values of `size_t`, every call is the call of the
64-bit model, for every state and every request. -/
theorem C173_is_64 (s : VS α) (op : VOp α) : vecOpW 18446744073709551616 s op = vecOp s op := by
  cases op <;> rfl

/-- C173: with `2^64` values the searches are those of the model of the other properties. The conversions
between `size_t` and the signed indices agree for every operand, those with the highest bit set included. -/
theorem C173_searches_is_64 (s : VS α) (eq : Cell α → Bool) (cmp : Cell α → Int) (i n a : Nat) (k : Int) :
    vecFindExW 18446744073709551616 s eq i n = vecFindEx s eq i n ∧
      vecBinarySearchExW 18446744073709551616 s cmp i n = vecBinarySearchEx s cmp i n ∧
      toIW 18446744073709551616 a = toI64 a ∧ toUW 18446744073709551616 k = toU64 k :=
  ⟨vecFindExW_64 s eq i n, vecBinarySearchExW_64 s cmp i n, rfl, rfl⟩

/-- C173: on every target, an index and its signed counterpart are the same modulo the number of values of a
`size_t`, and the signed one lies between `-m/2` and `m/2 - 1` (two's complement). -/
theorem C173_signed {m a : Nat} (hm : m % 2 = 0) (ha : a < m) :
    toUW m (toIW m a) = a ∧ -((m / 2 : Nat) : Int) ≤ toIW m a ∧ toIW m a < ((m / 2 : Nat) : Int) := by
  unfold toIW toUW
  split
  · refine ⟨?_, by omega, by omega⟩
    rw [Int.emod_eq_of_lt (by omega) (by omega)]; rfl
  · refine ⟨?_, by omega, by omega⟩
    rw [Int.sub_emod_right, Int.emod_eq_of_lt (by omega) (by omega)]; rfl

/-- C173: on every target whose `size_t` has at most `2^64` values, every history of requests that fit
into that `size_t` is defined, returns the statuses of the list specification and ends with the elements,
size, capacity and destroyed elements of the list; and the storage really has room for the capacity. -/
theorem C173_behaves_like_list {m : Nat} (hm : m ≤ 18446744073709551616) {P : Params} {s : VS α}
    (h : ReachW m P s) (ops : List (VOp α)) (hd : AllInDomainW m P (absOf s) ops) :
    ∃ sts s' a' b', runVecW m s ops = .ret (sts, s') ∧ Runs P (absOf s) ops sts a' ∧
      contents s' = .ret a'.elems ∧ vecGetSize s' = a'.elems.length ∧ vecGetCapacity s' = a'.cap ∧
      destroyedOf s'.w.trace = a'.dead ∧ s'.v.data = some b' ∧ a'.cap ≤ b'.cells.length := by
  obtain ⟨b, slack, R⟩ := h.repW hm
  obtain ⟨sts, s', a', b', sl', hrun, hruns, R'⟩ := runVec_ok ops R.rep (hd.wide hm)
  exact ⟨sts, s', a', b', by rw [runVecW_eq ops R hd, hrun], hruns, R'.contents, R'.size, R'.cap,
    R'.dead, R'.data, R'.room⟩

/-- C173 (portability): a history of requests that fit into the narrower of two `size_t` has the same
outcome on both targets: the same statuses, elements, capacity, allocator and destructor calls. -/
theorem C173_portable {m m' : Nat} (hm : m ≤ m') (hm' : m' ≤ 18446744073709551616) {P : Params}
    {s : VS α} (h : ReachW m P s) (ops : List (VOp α)) (hd : AllInDomainW m P (absOf s) ops) :
    runVecW m s ops = runVecW m' s ops := by
  obtain ⟨b, slack, R⟩ := h.repW (Nat.le_trans hm hm')
  have R' : RepW m' P s (absOf s) b slack :=
    ⟨R.rep, hm', Nat.lt_of_lt_of_le R.esz hm, Nat.lt_of_lt_of_le R.fits hm⟩
  rw [runVecW_eq ops R hd, runVecW_eq ops R' (hd.mono hm)]

/-- C173 (reachable vectors): what a program can obtain on the narrow target, it can obtain on the 64-bit
target, so that every theorem about `Reach` applies to it. -/
theorem C173_reachable {m : Nat} (hm : m ≤ 18446744073709551616) {P : Params} {s : VS α}
    (h : ReachW m P s) : Reach P s := (h.wide hm).1

/-- C173 (searches): with ranges that fit into the narrower `size_t`, linear and binary search give the
same results and compare the same elements as on the 64-bit target. -/
theorem C173_searches {m : Nat} (hm : m ≤ 18446744073709551616) {P : Params} {s : VS α}
    (h : ReachW m P s) (i n : Nat) (hin : i + n < m) (eq : Cell α → Bool) (cmp : Cell α → Int) :
    vecFindExW m s eq i n = vecFindEx s eq i n ∧
    vecBinarySearchExW m s cmp i n = vecBinarySearchEx s cmp i n := by
  obtain ⟨b, slack, R⟩ := h.repW hm
  exact ⟨findExW_eq R eq i n hin, bsearchExW_eq R cmp i n hin⟩

/-- C173 (limit of portability): a reservation of `c` elements whose byte size fits into 64 bits but not
into the narrow `size_t` is reported as a success with capacity `c` on both targets. On the 64-bit target
the storage has `c` slots, on the narrow one it has fewer. -/
theorem C173_reserve_wraps {m : Nat} (hm : m ≤ 18446744073709551616) {P : Params} {s : VS α}
    (h : ReachW m P s) (hdyn : P.allocator.isSome) {c : Nat} (hc : vecGetCapacity s < c)
    (hwide : c * P.esz < 18446744073709551616) (hnarrow : m ≤ c * P.esz) :
    (∃ s' b', vecReserve s c = .ret (stSuccess, s') ∧ vecGetCapacity s' = c ∧
      s'.v.data = some b' ∧ b'.cells.length = c) ∧
    (∃ s' b', vecReserveW m s c = .ret (stSuccess, s') ∧ vecGetCapacity s' = c ∧
      s'.v.data = some b' ∧ b'.cells.length < c) := by
  obtain ⟨b, slack, R⟩ := h.repW hm
  have hcap : ¬ c ≤ (absOf s).cap := by
    have := R.rep.cap
    unfold vecGetCapacity at hc
    omega
  constructor
  · obtain ⟨junk, st, s', a', b', sl', _, hstep, hop, R'⟩ := op_ok R.rep (.reserve c) hwide
    simp only [step, if_neg hcap, hdyn, if_true, Prod.mk.injEq] at hstep
    obtain ⟨rfl, rfl⟩ := hstep
    exact ⟨s', b', hop, R'.cap, R'.data, R'.dyn hdyn⟩
  · obtain ⟨s', b', e, h1, _, h2, h3⟩ := reserveW_short R hdyn hc hnarrow
    exact ⟨s', b', e, h1, h2, h3⟩

/-- C173 (limit of portability): a deletion whose `index + count` does not fit into the narrow `size_t`
and wraps to a position inside of the vector is rejected on the 64-bit target and not rejected on the
narrow one. -/
theorem C173_delete_wraps {m : Nat} (hm : m ≤ 9223372036854775808) {P : Params} {s : VS α}
    (h : ReachW m P s) {i n : Nat} (hn0 : n ≠ 0) (hi : i < m) (hn : n < m) (hwrap : m ≤ i + n)
    (hin : i + n - m ≤ vecGetSize s) :
    vecDeleteRange s i n = .ret (stOutOfRange, s) ∧
    ∀ s', vecDeleteRangeW m s i n ≠ .ret (stOutOfRange, s') := by
  obtain ⟨b, slack, R⟩ := h.repW (by omega)
  refine ⟨?_, fun s' => deleteRangeW_wraps R hn0 hn hi hwrap hin s'⟩
  have hl := lt_of_fits R.rep.esz1 R.fits
  have hsz := R.rep.size
  unfold vecDeleteRange
  rw [if_neg hn0, add64_eq (by omega), if_pos (by omega)]

/-! ## A 32-bit target -/

/-- Allocator 0, growth factor 2, shrink threshold 4, 65536-byte elements, no destructor. -/
def exWP : Params := ⟨some 0, 2, 4, 65536, false⟩

/-- A vector with room for four elements, holding two. -/
def exWS0 : VS Nat :=
  ⟨{ allocator := some 0, growth := 2, shrink := 4, size := 0, cap := 4, esz := 65536, hasDtor := false,
     data := some ⟨0, [none, none, none, none]⟩ },
   ⟨fun _ => stSuccess, 1, 1, [.alloc 0 0 65536 4]⟩⟩

def exWS : VS Nat :=
  ⟨{ allocator := some 0, growth := 2, shrink := 4, size := 2, cap := 4, esz := 65536, hasDtor := false,
     data := some ⟨0, [some 10, some 20, none, none]⟩ },
   ⟨fun _ => stSuccess, 1, 1, [.alloc 0 0 65536 4]⟩⟩

theorem exWS_reach : ReachW 4294967296 exWP exWS := by
  have h0 : ReachW 4294967296 exWP exWS0 :=
    ReachW.init (w := ⟨fun _ => stSuccess, 0, 0, []⟩) (cap := 4) (a := 0) ⟨rfl, rfl⟩
      (fun _ => failed_success) ⟨rfl, by decide, by decide⟩ (by decide) rfl
  have h1 := ReachW.step (op := .push (some 10)) h0 (by show _ < _; decide) rfl
  have h2 := ReachW.step (op := .push (some 20)) h1 (by show _ < _; decide) rfl
  exact h2

/-- A history with a reallocation and a deletion. -/
def exWOps : List (VOp Nat) := [.insertRange 1 [some 1, some 2, some 3], .deleteRange 0 2, .pop]

theorem exWOps_domain : AllInDomainW 4294967296 exWP (absOf exWS) exWOps := by
  refine .cons (by show _ < _; decide) fun j hj => ?_
  obtain rfl := List.eq_nil_of_length_eq_zero hj
  refine .cons (by show _ < _; decide) fun j hj => ?_
  obtain rfl := List.eq_nil_of_length_eq_zero hj
  exact .cons trivial fun j hj => .nil _

example : runVecW 4294967296 exWS exWOps = runVecW 18446744073709551616 exWS exWOps :=
  C173_portable (by decide) (by decide) exWS_reach exWOps exWOps_domain
example : (runVecW 4294967296 exWS exWOps).bind (fun r => contents r.2) = .ret [some 2, some 3] := by decide +kernel
example : toIW 4294967296 2147483648 = -2147483648 ∧ toIW 4294967296 2147483647 = 2147483647 ∧
    toUW 4294967296 (-1) = 4294967295 := by decide +kernel
example : Reach exWP exWS := C173_reachable (by decide) exWS_reach
example : vecFindExW 4294967296 exWS (· == some 20) 0 2 = .ret (stTrue, some 1) := rfl

/-- 65537 elements of 64 KiB: one slot on the 32-bit target, although the capacity is 65537. -/
example : ∃ s' b', vecReserveW 4294967296 exWS 65537 = .ret (stSuccess, s') ∧
    vecGetCapacity s' = 65537 ∧ s'.v.data = some b' ∧ b'.cells.length < 65537 :=
  (C173_reserve_wraps (by decide) exWS_reach rfl (by decide) (by decide) (by decide)).2
example : ∃ s' b', vecReserveW 4294967296 exWS 65537 = .ret (stSuccess, s') ∧
    s'.v.data = some b' ∧ b'.cells = [some 10] := ⟨_, _, rfl, rfl, rfl⟩

example : vecDeleteRange exWS 4294967295 2 = .ret (stOutOfRange, exWS) ∧
    ∀ s', vecDeleteRangeW 4294967296 exWS 4294967295 2 ≠ .ret (stOutOfRange, s') :=
  C173_delete_wraps (by decide) exWS_reach (by decide) (by decide) (by decide) (by decide) (by decide)
example : vecDeleteRangeW 4294967296 exWS 4294967295 2 = .ub .oob := rfl

end Zy
