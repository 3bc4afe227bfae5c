import Verif.Lemmas.StringWordReach
import Verif.Props.String

/-!
# Property theorems about strings on targets with another width of `size_t` (C174)
-/

namespace Zy

open Spec

/-- C174 (the parameter is the width): with `2^64` values of `size_t`, every call is the call of the
64-bit model, for every state and every request. -/
theorem C174_is_64 (t : Str) (op : SOp) : strOpW 18446744073709551616 t op = strOp t op := by
  cases op <;> rfl

/-- C174: with `2^64` values the searches and the comparison are those of the model of the other
properties. -/
theorem C174_searches_is_64 (eq : Byte → Byte → Bool) (x y : View) (i n : Nat) :
    strLPosExWithW 18446744073709551616 eq x y i n = strLPosExWith eq x y i n ∧
      strCompareWithW 18446744073709551616 eq x y = strCompareWith eq x y :=
  ⟨lposW_64 eq x y i n, compareW_64 eq x y⟩

/-- C174: on every target whose `size_t` has at most `2^64` values, every history of requests that fit
into that `size_t` is defined, returns the statuses of the text specification, and ends with the text of the
specification, with a NUL behind it, with the specified number of bytes, and with the size that
`ZyanStringGetSize` reports on that target. -/
theorem C174_behaves_like_text {m : Nat} (hm : m ≤ 18446744073709551616) {P : Params} {t : Str}
    (h : SReachW m P t) (ops : List SOp) (hd : SAllInDomainW m P (sabsOf t) ops) :
    ∃ sts t' a', runStrW m t ops = .ret (sts, t') ∧ SRuns P (sabsOf t) ops sts a' ∧
      textOf t' = a'.text ∧ Terminated t' ∧ t'.s.v.cap = a'.bytes ∧
      strGetSizeW m t' = a'.text.length := by
  obtain ⟨b, sl, R⟩ := h.srepW hm
  obtain ⟨sts, t', a', b', sl', hrun, hruns, R'⟩ := runStrW_ok ops R hd
  refine ⟨sts, t', a', hrun, hruns, R'.srep.textOf, R'.srep.terminated, R'.srep.rep.cap, ?_⟩
  have hlt := R'.lt
  unfold strGetSizeW
  rw [R'.srep.size, subW_nat (by omega) (by omega)]
  omega

/-- C174 (portability): a history of requests that fit into the narrower of two `size_t` has the same
outcome on both targets: the same statuses, bytes, capacity and allocator calls. -/
theorem C174_portable {m m' : Nat} (hm : m ≤ m') (hm' : m' ≤ 18446744073709551616) {P : Params}
    {t : Str} (h : SReachW m P t) (ops : List SOp) (hd : SAllInDomainW m P (sabsOf t) ops) :
    runStrW m t ops = runStrW m' t ops := by
  obtain ⟨b, sl, R⟩ := h.srepW (Nat.le_trans hm hm')
  have R' : SRepW m' P t (sabsOf t) b sl := ⟨R.srep, hm', Nat.lt_of_lt_of_le R.fits hm⟩
  rw [runStrW_eq ops R hd, runStrW_eq ops R' (hd.mono hm)]

/-- C174 (reachable strings): what a program can obtain on the narrow target, it can obtain on the 64-bit
target, so that every theorem about `SReach` applies to it. -/
theorem C174_reachable {m : Nat} (hm : m ≤ 18446744073709551616) {P : Params} {t : Str}
    (h : SReachW m P t) : SReach P t := (h.wide hm).1

/-- C174 (searching and comparing): for views whose sizes fit into the signed type of the narrow width, left
searches (exact and ignoring case) and comparisons give the same results as on the 64-bit target. -/
theorem C174_searches {m : Nat} (hm : m ≤ 18446744073709551616) (eq : Byte → Byte → Bool) (x y : View)
    (hx : x.size * 2 < m) (h1 : 1 < m) (i n : Nat) (hin : i + n < m) :
    strLPosExWithW m eq x y i n = strLPosExWith eq x y i n ∧
    strCompareWithW m eq x y = strCompareWith eq x y :=
  ⟨lposW_eq hm eq x y i n hin hx, compareW_eq hm eq x y (by omega) h1⟩

/-- C174 (limit of portability): a case conversion whose `index + count` does not fit into the narrow
`size_t` and wraps to a position inside of the text is rejected on the 64-bit target; on the narrow target
it reports a success without converting anything. -/
theorem C174_case_wraps {m : Nat} (hm : m ≤ 9223372036854775808) {P : Params} {t : Str}
    (h : SReachW m P t) (f : Byte → Byte) {i n : Nat} (hi : i < m) (hn : n < m) (hwrap : m ≤ i + n)
    (hin : i + n - m ≤ (textOf t).length) :
    strCaseEx f t i n = .ret (stOutOfRange, t) ∧ strCaseExW m f t i n = .ret (stSuccess, t) := by
  obtain ⟨b, sl, R⟩ := h.srepW (by omega)
  have hl := R.lt
  have hsz := R.srep.size
  rw [sabsOf_text] at hl hsz
  constructor
  · unfold strCaseEx
    rw [add64_eq (by omega), if_pos (by omega)]
  · unfold strCaseExW
    rw [addW_wrap hi hn hwrap, if_neg (by omega), show i + n - m - i = 0 by omega]
    rfl

/-- C174 (limit of portability): a deletion whose `index + count` does not fit into the narrow `size_t`
and wraps to a position inside of the text is rejected on the 64-bit target and not rejected on the
narrow one. -/
theorem C174_delete_wraps {m : Nat} (hm : m ≤ 9223372036854775808) {P : Params} {t : Str}
    (h : SReachW m P t) {i n : Nat} (hn0 : n ≠ 0) (hi : i < m) (hn : n < m) (hwrap : m ≤ i + n)
    (hin : i + n - m ≤ (textOf t).length) :
    strDelete t i n = .ret (stOutOfRange, t) ∧
    ∀ t', strDeleteW m t i n ≠ .ret (stOutOfRange, t') := by
  obtain ⟨b, sl, R⟩ := h.srepW (by omega)
  have hl := R.lt
  have hsz := R.srep.size
  rw [sabsOf_text] at hl hsz
  constructor
  · unfold strDelete
    rw [add64_eq (by omega), if_pos (by omega)]
  · intro t' hc
    unfold strDeleteW at hc
    rw [addW_wrap hi hn hwrap, if_neg (by omega)] at hc
    cases hr : vecDeleteRangeW m t.s i n with
    | ub w => rw [hr] at hc; cases hc
    | ret r =>
      rw [hr, Out.ret_bind'] at hc
      have hne := deleteRangeW_wraps R.repW hn0 hn hi hwrap (by rw [hsz]; omega) r.2
      unfold checkTerminateW at hc
      split at hc
      · injection hc with hc
        injection hc with hc _
        exact hne (by rw [hr, ← hc])
      · cases hz : nullTerminateW m { t with s := r.2 } with
        | ub w => rw [hz] at hc; cases hc
        | ret z =>
          rw [hz, Out.ret_bind'] at hc
          injection hc with hc
          injection hc with hc _
          revert hc
          decide

/-! ## A 32-bit target -/

theorem exStr_reachW : SReachW 4294967296 exSP exStr :=
  SReachW.dup (P := exSP) (w := exSW) (st := stSuccess) (w' := exStr.s.w)
    (x := (chars ['a', 'B', '@', 'c']).map some) (cap := 0) (a := 0) ⟨rfl, rfl⟩
    (fun _ => failed_success) ⟨rfl, by decide, by decide, rfl, rfl⟩ (by decide) (by show _ < _; decide)
    (by cbv)

/-- Insert, delete, convert. -/
def exWSOps : List SOp := [.insert 1 ((chars ['x', 'Y']).map some), .delete 3 1, .upper 0 2, .truncate 9]

theorem exWSOps_domain : SAllInDomainW 4294967296 exSP (sabsOf exStr) exWSOps := by
  refine .cons (by show _ < _; decide) fun j hj => ?_
  obtain rfl := List.eq_nil_of_length_eq_zero hj
  refine .cons (by show _ < _; decide) fun j hj => ?_
  obtain rfl := List.eq_nil_of_length_eq_zero hj
  refine .cons ⟨by decide, ?_⟩ fun j hj => .cons trivial fun _ _ => .nil _
  intro c hc
  revert c
  decide +kernel

example : runStrW 4294967296 exStr exWSOps = runStrW 18446744073709551616 exStr exWSOps :=
  C174_portable (by decide) (by decide) exStr_reachW exWSOps exWSOps_domain
example : (runStrW 4294967296 exStr exWSOps).bind (fun r => .ret (r.1, textOf r.2)) =
    .ret ([stSuccess, stSuccess, stSuccess, stOutOfRange],
      (chars ['A', 'X', 'Y', '@', 'c']).map some) := by cbv
example : ∃ sts t' a', runStrW 4294967296 exStr exWSOps = .ret (sts, t') ∧
    SRuns exSP (sabsOf exStr) exWSOps sts a' ∧ textOf t' = a'.text ∧ Terminated t' ∧
    t'.s.v.cap = a'.bytes ∧ strGetSizeW 4294967296 t' = a'.text.length :=
  C174_behaves_like_text (by decide) exStr_reachW exWSOps exWSOps_domain
example : SReach exSP exStr := C174_reachable (by decide) exStr_reachW
example : strLPosExWithW 4294967296 eqExact (textView ((chars ['a', 'b', 'a', 'c']).map some))
    (textView ((chars ['a', 'c']).map some)) 0 4 = .ret (stTrue, some 2) := by cbv

example : strCaseEx upperByte exStr 4294967295 2 = .ret (stOutOfRange, exStr) ∧
    strCaseExW 4294967296 upperByte exStr 4294967295 2 = .ret (stSuccess, exStr) :=
  C174_case_wraps (by decide) exStr_reachW _ (by decide) (by decide) (by decide) (by decide)
example : strDelete exStr 4294967295 2 = .ret (stOutOfRange, exStr) ∧
    ∀ t', strDeleteW 4294967296 exStr 4294967295 2 ≠ .ret (stOutOfRange, t') :=
  C174_delete_wraps (by decide) exStr_reachW (by decide) (by decide) (by decide) (by decide) (by decide)

end Zy
