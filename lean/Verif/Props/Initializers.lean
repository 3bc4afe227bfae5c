import Verif.Spec.Initializers
import Verif.Props.List
import Verif.Props.String

/-!
# Containers defined with the `INITIALIZER` macros
-/

namespace Zy

open Spec

variable {α : Type}

private theorem refused {st : Status} {p : Prop} (h : failed st = true) (hp : ¬ p) : failed st = false ↔ p := by
  simp [h, hp]

private theorem granted {st : Status} {p : Prop} (h : failed st = false) (hp : p) : failed st = false ↔ p := by
  simp [h, hp]

/-- C125, vectors: a call on a vector that was only defined with `ZYAN_VECTOR_INITIALIZER` never touches memory,
calls neither allocator nor destructor, leaves the vector as it is, and succeeds exactly if it asks for nothing.
Missing: growing it with `ZyanVectorResize(Ex)`; see `C125_resize_negation`. -/
theorem C125_vector_partial (w : World α) (c : VecCall α) (hc : ¬ c.Missing) (hw : c.NoWrap) (hr : c.NoResize) :
    ∃ st x, vecCall (some ⟨vecInitializer, w⟩) c = .ret (st, some ⟨vecInitializer, w⟩, x) ∧
      (failed st = false ↔ c.Modest) := by
  have hf : failed stInsufficient = true := rfl
  have hg : ∀ n, growFor (⟨vecInitializer, w⟩ : VS α) (n + 1) = .ret (stInsufficient, ⟨vecInitializer, w⟩) := by
    intro n
    simp only [growFor, shouldGrow, vecInitializer, reallocate, mul64, Nat.mul_zero, Nat.zero_mod]
    simp
  cases c
  case destroy => exact ⟨stSuccess, none, rfl, granted rfl trivial⟩
  case getPointer i v =>
    have : v = true := by simpa [VecCall.Missing] using hc
    subst this
    exact ⟨stOutOfRange, none, rfl, refused rfl id⟩
  case set i x =>
    refine ⟨if x.isNull then stInvalidArgument else stOutOfRange, none, ?_, ?_⟩
    · cases x <;> rfl
    · cases x <;> exact refused (by simp [Src.isNull]) id
  case pushBack x =>
    refine ⟨stInsufficient, none, ?_, refused rfl id⟩
    cases x
    case null => exact absurd rfl hc
    all_goals
      simp only [vecCall, checkPtr, plain, vecPushBack, Src.isNull, Bool.false_eq_true, if_false]
      rw [show add64 (vecInitializer : Vec α).size 1 = 0 + 1 from rfl, hg]
      simp [hf]
  case insert i x =>
    refine ⟨if i = 0 then stInsufficient else stOutOfRange, none, ?_, by split <;> exact refused rfl id⟩
    cases x
    case null => exact absurd rfl hc
    all_goals
      simp only [vecCall, checkPtr, plain, vecInsert, vecInsertRange, Src.isNull, Bool.false_eq_true, false_or,
        Nat.succ_ne_zero, if_false]
      rw [show add64 (vecInitializer : Vec α).size 1 = 0 + 1 from rfl, hg]
      rcases i with _ | i <;> simp [hf, vecInitializer]
  case insertRange i x n =>
    refine ⟨if n = 0 then stInvalidArgument else if i = 0 then stInsufficient else stOutOfRange, none, ?_,
      by split <;> (try split) <;> exact refused rfl id⟩
    have hn : n < 18446744073709551616 := hw
    rcases n with _ | n
    · cases x <;> rfl
    · cases x
      case null => exact absurd rfl hc
      all_goals
        simp only [vecCall, checkPtr, plain, vecInsertRange, Src.isNull, Bool.false_eq_true, false_or,
          Nat.succ_ne_zero, if_false]
        rw [show add64 (vecInitializer : Vec α).size (n + 1) = n + 1 by
          show add64 0 (n + 1) = _; rw [add64_eq (by omega)]; omega, hg]
        rcases i with _ | i <;> simp [hf, vecInitializer]
  case emplace e k =>
    have : e = true := by simpa [VecCall.Missing] using hc
    subst this
    refine ⟨stInsufficient, none, ?_, refused rfl id⟩
    simp only [vecCall, checkPtr, emplaceAt, vecEmplaceEx]
    rw [show add64 (vecInitializer : Vec α).size 1 = 0 + 1 from rfl, hg]
    simp [hf, vecInitializer]
  case emplaceEx i e k =>
    have : e = true := by simpa [VecCall.Missing] using hc
    subst this
    refine ⟨if i = 0 then stInsufficient else stOutOfRange, none, ?_, by split <;> exact refused rfl id⟩
    simp only [vecCall, checkPtr, emplaceAt, vecEmplaceEx]
    rw [show add64 (vecInitializer : Vec α).size 1 = 0 + 1 from rfl, hg]
    rcases i with _ | i <;> simp [hf, vecInitializer]
  case swap i j => exact ⟨stOutOfRange, none, rfl, refused rfl id⟩
  case delete i =>
    have hn : i + 1 < 18446744073709551616 := hw
    refine ⟨stOutOfRange, none, ?_, refused rfl id⟩
    simp only [vecCall, checkPtr, plain, vecDelete, vecDeleteRange]
    rw [if_neg (by decide), add64_eq hn, if_pos (by show i + 1 > 0; omega)]
    rfl
  case deleteRange i n =>
    have hn : i + n < 18446744073709551616 := hw
    refine ⟨if n = 0 then stInvalidArgument else stOutOfRange, none, ?_,
      by split <;> exact refused rfl id⟩
    simp only [vecCall, checkPtr, plain, vecDeleteRange]
    split
    · rfl
    · rw [add64_eq hn, if_pos (by show i + n > 0; omega)]
      rfl
  case popBack => exact ⟨stOutOfRange, none, rfl, refused rfl id⟩
  case clear => exact ⟨stSuccess, none, rfl, granted rfl trivial⟩
  case find f k =>
    simp only [VecCall.Missing, not_or, Bool.not_eq_false] at hc
    obtain ⟨eq, rfl⟩ := Option.ne_none_iff_exists'.1 hc.2
    obtain rfl := hc.1
    exact ⟨stOutOfRange, none, rfl, refused rfl id⟩
  case findEx f k i n =>
    simp only [VecCall.Missing, not_or, Bool.not_eq_false] at hc
    obtain ⟨eq, rfl⟩ := Option.ne_none_iff_exists'.1 hc.2
    obtain rfl := hc.1
    have hn : i + n < 18446744073709551616 := hw
    refine ⟨stOutOfRange, none, ?_, refused rfl id⟩
    simp only [vecCall, checkPtr, findAt, vecFindEx]
    rw [add64_eq hn, if_pos (by show i + n > 0 ∨ i = 0; omega)]
    rfl
  case binarySearch f k =>
    simp only [VecCall.Missing, not_or, Bool.not_eq_false] at hc
    obtain ⟨cmp, rfl⟩ := Option.ne_none_iff_exists'.1 hc.2
    obtain rfl := hc.1
    exact ⟨stFalse, some 0, rfl, granted rfl trivial⟩
  case binarySearchEx f k i n =>
    simp only [VecCall.Missing, not_or, Bool.not_eq_false] at hc
    obtain ⟨cmp, rfl⟩ := Option.ne_none_iff_exists'.1 hc.2
    obtain rfl := hc.1
    have hn : i + n < 18446744073709551616 := hw
    simp only [vecCall, checkPtr, binarySearchAt, vecBinarySearchEx, VecCall.Modest]
    by_cases h : i = 0 ∧ n = 0
    · obtain ⟨rfl, rfl⟩ := h
      exact ⟨stFalse, some 0, rfl, granted rfl ⟨rfl, rfl⟩⟩
    · rw [add64_eq hn, if_pos (by show (i ≥ 0 ∧ n > 0) ∨ i + n > 0; omega)]
      exact ⟨stOutOfRange, none, rfl, refused rfl h⟩
  case resize n =>
    obtain rfl : n = 0 := hr
    exact ⟨stSuccess, none, rfl, granted rfl rfl⟩
  case resizeEx n x =>
    obtain rfl : n = 0 := hr
    exact ⟨stSuccess, none, rfl, granted rfl rfl⟩
  case reserve n =>
    rcases n with _ | n
    · exact ⟨stSuccess, none, rfl, granted rfl rfl⟩
    · refine ⟨stInsufficient, none, ?_, refused rfl (Nat.succ_ne_zero n)⟩
      simp [vecCall, checkPtr, plain, vecReserve, vecInitializer, reallocate, hf]
  case shrinkToFit => exact ⟨stSuccess, none, rfl, granted rfl trivial⟩
  case getCapacity v =>
    have : v = true := by simpa [VecCall.Missing] using hc
    subst this
    exact ⟨stSuccess, some 0, rfl, granted rfl trivial⟩
  case getSize v =>
    have : v = true := by simpa [VecCall.Missing] using hc
    subst this
    exact ⟨stSuccess, some 0, rfl, granted rfl trivial⟩

/-- C125 fails for `ZyanVectorResize`: the growth factor of such a vector is 0, so that enough memory seems to be
there; the call reports success, the vector claims to have `n` elements, and reading any of them goes through
the null pointer. -/
theorem C125_resize_negation (w : World α) {n : Nat} (hn : n ≠ 0) :
    ∃ s : VS α, vecCall (some ⟨vecInitializer, w⟩) (.resize n) = .ret (stSuccess, some s, none) ∧
      vecGetSize s = n ∧ ∀ i, i < n → vecGet s i = some i ∧ vecDeref s i = .ub .null := by
  refine ⟨⟨{ vecInitializer with size := n }, w⟩, ?_, rfl, fun i hi => ⟨?_, rfl⟩⟩
  · obtain ⟨m, rfl⟩ := Nat.exists_eq_succ_of_ne_zero hn
    simp [vecCall, checkPtr, plain, vecResize, vecResizeEx, vecInitializer, reallocate, shouldGrow, mul64,
      Src.isNull, failed_success]
  · unfold vecGet
    rw [if_neg (show ¬ i ≥ n by omega)]

/-- C125, lists: a call on a list that was only defined with `ZYAN_LIST_INITIALIZER` never touches memory, calls
neither allocator nor destructor, leaves the list as it is, and succeeds exactly if it asks for nothing. (Such a
list has no nodes, so no node can be named.) -/
theorem C125_list (mem : Nat → Option (LNode α)) (w : LWorld α) (c : ListCall α)
    (hn : c.NoNode) (hout : c ≠ .getHead false ∧ c ≠ .getTail false ∧ c ≠ .getSize false) :
    ∃ st x, listCall (some ⟨listInitializer, mem, w⟩) c = .ret (st, some ⟨listInitializer, mem, w⟩, x) ∧
      (failed st = false ↔ c.Modest) := by
  have ha : listAllocateNode (⟨listInitializer, mem, w⟩ : LS α) =
      .ret (stInsufficient, none, ⟨listInitializer, mem, w⟩) := by
    unfold listAllocateNode
    simp only [listInitializer, Option.isSome_none, Bool.false_eq_true, if_false]
    exact if_pos (by decide)
  have hf : failed stInsufficient = true := rfl
  cases c
  case destroy => exact ⟨stSuccess, none, rfl, granted rfl trivial⟩
  case getHead o =>
    cases o
    · exact absurd rfl hout.1
    · exact ⟨stSuccess, none, rfl, granted rfl trivial⟩
  case getTail o =>
    cases o
    · exact absurd rfl hout.2.1
    · exact ⟨stSuccess, none, rfl, granted rfl trivial⟩
  case getSize o =>
    cases o
    · exact absurd rfl hout.2.2
    · exact ⟨stSuccess, some 0, rfl, granted rfl trivial⟩
  case setNodeData node x =>
    obtain rfl : node = none := hn
    exact ⟨stInvalidArgument, none, rfl, refused rfl id⟩
  case pushBack x =>
    refine ⟨if x.isNull then stInvalidArgument else stInsufficient, none, ?_,
      by split <;> exact refused rfl id⟩
    cases x <;> simp [listCall, checkPtr, plain, listPushBack, LSrc.isNull, ha, hf]
  case pushFront x =>
    refine ⟨if x.isNull then stInvalidArgument else stInsufficient, none, ?_,
      by split <;> exact refused rfl id⟩
    cases x <;> simp [listCall, checkPtr, plain, listPushFront, LSrc.isNull, ha, hf]
  case emplaceBack i k =>
    refine ⟨if i then stInsufficient else stInvalidArgument, none, ?_,
      by split <;> exact refused rfl id⟩
    cases i <;> simp [listCall, checkPtr, listEmplaceBack, ha, hf]
  case emplaceFront i k =>
    refine ⟨if i then stInsufficient else stInvalidArgument, none, ?_,
      by split <;> exact refused rfl id⟩
    cases i <;> simp [listCall, checkPtr, listEmplaceFront, ha, hf]
  case popBack => exact ⟨stInvalidOperation, none, rfl, refused rfl id⟩
  case popFront => exact ⟨stInvalidOperation, none, rfl, refused rfl id⟩
  case remove n => exact ⟨stSuccess, none, rfl, granted rfl trivial⟩
  case removeRange m n => exact ⟨stSuccess, none, rfl, granted rfl trivial⟩
  case clear => exact ⟨stSuccess, none, rfl, granted rfl trivial⟩
  case resize n =>
    rcases n with _ | n
    · exact ⟨stSuccess, none, rfl, granted rfl rfl⟩
    · refine ⟨stInsufficient, none, ?_, refused rfl (Nat.succ_ne_zero n)⟩
      have h0 : listInitializer.size = 0 := rfl
      simp [listCall, checkPtr, plain, listResize, listResizeEx, h0, growLoop, ha, hf]
  case resizeEx n x =>
    rcases n with _ | n
    · exact ⟨stSuccess, none, rfl, granted rfl rfl⟩
    · refine ⟨stInsufficient, none, ?_, refused rfl (Nat.succ_ne_zero n)⟩
      have h0 : listInitializer.size = 0 := rfl
      simp [listCall, checkPtr, plain, listResizeEx, h0, growLoop, ha, hf]

/-- C125, strings: destroying a string that was only defined with `ZYAN_STRING_INITIALIZER` is harmless, and so
are the calls that name characters or reserve storage.
Missing: everything that writes a terminating null character; see `C125_string_negation`. -/
theorem C125_string_partial (w : World Byte) (i n : Nat) (c : Byte) :
    strDestroy (strInitializer w) = .ret (stSuccess, strInitializer w) ∧
    strShrinkToFit (strInitializer w) = .ret (stSuccess, strInitializer w) ∧
    strReserve (strInitializer w) (n + 1) = .ret (stInsufficient, strInitializer w) ∧
    strSetChar (strInitializer w) i c = .ret (stOutOfRange, strInitializer w) ∧
    strDelete (strInitializer w) i n = .ret (stOutOfRange, strInitializer w) ∧
    strTruncate (strInitializer w) i = .ret (stOutOfRange, strInitializer w) ∧
    strToLowerEx (strInitializer w) i n = .ret (stOutOfRange, strInitializer w) ∧
    strToUpperEx (strInitializer w) i n = .ret (stOutOfRange, strInitializer w) := by
  have h0 : (strInitializer w).s.v.size = 0 := rfl
  refine ⟨rfl, rfl, ?_, ?_, ?_, rfl, ?_, ?_⟩
  · simp [strReserve, vecReserve, strInitializer, vecInitializer, reallocate, show failed stInsufficient = true from rfl]
  · unfold strSetChar; rw [if_pos (by rw [h0]; omega)]
  · unfold strDelete; rw [if_pos (by rw [h0]; omega)]
  · unfold strToLowerEx strCaseEx; rw [if_pos (by rw [h0]; omega)]
  · unfold strToUpperEx strCaseEx; rw [if_pos (by rw [h0]; omega)]

/-- C125 fails for strings: the size is reported as `2^64 - 1`, and appending any text, inserting it at the
beginning, clearing and resizing all write through the null pointer. -/
theorem C125_string_negation (w : World Byte) {v : View} {n : Nat} (hv : v.size ≠ 0) :
    strGetSize (strInitializer w) = 18446744073709551615 ∧
    strAppend (strInitializer w) v = .ub .null ∧
    strInsert (strInitializer w) 0 v = .ub .null ∧
    strClear (strInitializer w) = .ub .null ∧
    strResize (strInitializer w) n = .ub .null := by
  have hres : ∀ m, ∃ s : VS Byte, vecResize ⟨vecInitializer, w⟩ m = .ret (stSuccess, s) ∧ s.v.data = none := by
    intro m
    by_cases h0 : m = 0
    · subst h0; exact ⟨_, rfl, rfl⟩
    · obtain ⟨s, e, _, hd⟩ := C125_resize_negation (α := Byte) w h0
      simp only [vecCall, checkPtr, plain] at e
      cases hx : vecResize (⟨vecInitializer, w⟩ : VS Byte) m with
      | ub => rw [hx] at e; cases e
      | ret r =>
        rw [hx] at e
        obtain ⟨st, s'⟩ := r
        simp only [Out.ret_bind', Out.ret.injEq, Prod.mk.injEq, Option.some.injEq, and_true] at e
        obtain ⟨rfl, rfl⟩ := e
        refine ⟨_, rfl, ?_⟩
        have := (hd 0 (by omega)).2
        unfold vecDeref withData at this
        cases hdat : s'.v.data with
        | none => rfl
        | some b =>
          rw [hdat] at this
          simp only at this
          split at this <;> cases this
  have happ : strAppend (strInitializer w) v = .ub .null := by
    unfold strAppend strAppendSrc
    rw [if_neg hv]
    obtain ⟨s, e, hd⟩ := hres (sub64 (add64 0 v.size) 1)
    simp only [strInitializer, vecInitializer] at e ⊢
    rw [e, Out.ret_bind']
    simp only [failed_success, Bool.false_eq_true, if_false]
    unfold vecMemcpy
    rw [hd]
    rfl
  refine ⟨by show sub64 0 1 = _; decide, happ, ?_, ?_, ?_⟩
  · unfold strInsert
    rw [if_neg hv, if_pos (show 0 = (strInitializer w).s.v.size from rfl), happ]
  · simp [strClear, vecClear, vecResizeEx, strInitializer, vecInitializer, failed_success, strStart, strPoke, withData]
  · unfold strResize
    obtain ⟨s, e, hd⟩ := hres (add64 n 1)
    simp only [strInitializer, vecInitializer] at e ⊢
    rw [e, Out.ret_bind']
    simp only [checkTerminate, failed_success, Bool.false_eq_true, if_false, nullTerminate, strPoke, hd]
    rfl

/-! ### Examples -/

/-- Pushing to a vector that was only defined is refused, also if the allocator of the world would serve it. -/
example : ∃ st x, vecCall (some ⟨vecInitializer, exW⟩) (.pushBack (.ext [some 7])) =
      .ret (st, some ⟨vecInitializer, exW⟩, x) ∧ (failed st = false ↔ False) :=
  C125_vector_partial exW (.pushBack (.ext [some 7])) (by simp [VecCall.Missing]) trivial trivial

/-- Resizing it to three elements is not refused, and there is nothing to read at index 2. -/
example : ∃ s, vecCall (some ⟨vecInitializer, exW⟩) (.resize 3) = .ret (stSuccess, some s, none) ∧
      vecGetSize s = 3 ∧ ∀ i, i < 3 → vecGet s i = some i ∧ vecDeref s i = .ub .null :=
  C125_resize_negation exW (by decide)

example : ∃ st x, listCall (some ⟨listInitializer, fun _ => none, exLW⟩) (.pushFront (.ext (some 5))) =
      .ret (st, some ⟨listInitializer, fun _ => none, exLW⟩, x) ∧ (failed st = false ↔ False) :=
  C125_list (fun _ => none) exLW (.pushFront (.ext (some 5))) trivial ⟨nofun, nofun, nofun⟩

example : strSetChar (strInitializer exSW) 0 65 = .ret (stOutOfRange, strInitializer exSW) :=
  (C125_string_partial exSW 0 3 65).2.2.2.1

example : strAppend (strInitializer exSW) (litView (chars ['a', 'b', 'c'])) = .ub .null :=
  (C125_string_negation exSW (v := litView (chars ['a', 'b', 'c'])) (n := 0) (by decide)).2.1

end Zy
