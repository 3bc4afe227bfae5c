import Verif.Props.NullPointers

/-!
# C124: what the functions hand out when their pointers are given, and when they look at them
-/

namespace Zy

open Spec

variable {α : Type}

/-- C124: emplacing hands out the position of the new element; without room or for a bad position nothing is
handed out, whether or not there is a place for the pointer. -/
theorem C124_emplaced (s : VS α) (c : Ctor α) :
    (∀ i s', vecEmplaceEx s i c = .ret (stSuccess, s') →
      vecCall (some s) (.emplaceEx i true c) = .ret (stSuccess, some s', some i)) ∧
    (∀ element, vecCall (some s) (.emplace element c) = vecCall (some s) (.emplaceEx s.v.size element c)) ∧
    (∀ i element, s.v.size < i →
      vecCall (some s) (.emplaceEx i element c) = .ret (stOutOfRange, some s, none)) := by
  refine ⟨fun i s' e => ?_, fun _ => rfl, fun i el hi => ?_⟩
  · have e' := e
    unfold vecEmplaceEx at e'
    simp only [vecCall, checkPtr, emplaceAt]
    by_cases hi : i > s.v.size
    · rw [if_pos hi] at e'; cases e'
    · rw [if_neg hi] at e' ⊢
      cases hg : growFor s (add64 s.v.size 1) with
      | ub w => rw [hg] at e'; cases e'
      | ret g =>
        rw [hg, Out.ret_bind'] at e'
        rw [Out.ret_bind']
        by_cases hf : failed g.1 = true
        · rw [if_pos hf, Out.ret.injEq] at e'
          rw [e'] at hf; exact absurd (show failed stSuccess = true from hf) (by decide)
        · rw [if_neg hf]; simp [e]
  · simp only [vecCall, checkPtr, emplaceAt]
    rw [if_pos hi]

/-- C124: emplacing into a full vector on a buffer of the caller is refused before the pointer is looked at. -/
theorem C124_emplace_full {P : Params} {s : VS α} (h : Reach P s) (hP : P.allocator = none)
    (hfull : s.v.size = s.v.cap) (hf : Fits P (s.v.size + 1)) {i : Nat} (hi : i ≤ s.v.size) (element : Bool) (c : Ctor α) :
    vecCall (some s) (.emplaceEx i element c) = .ret (stInsufficient, some s, none) := by
  obtain ⟨b, slack, R⟩ := h.rep
  have h63 := R.len63
  have hs := R.size
  have hc := R.cap
  have hr : room P (absOf s).cap ((absOf s).elems.length + 1) = none := by
    unfold room
    rw [if_neg (by omega), hP]; rfl
  have e := growFor_none R (by rw [← hs]; exact hf) hr
  simp only [vecCall, checkPtr, emplaceAt]
  rw [if_neg (by omega), add64_eq (by omega), hs, e, Out.ret_bind']
  exact if_pos (show failed stInsufficient = true from rfl)

/-- C124: a range outside of the vector is reported before the other pointers are looked at; an empty range
needs no comparison. The functions for the whole vector search all of it. -/
theorem C124_searches {s : VS α} {i n : Nat} (hin : i + n < 18446744073709551616) (found : Bool)
    (eq : Option (Cell α → Bool)) (cmp : Option (Cell α → Int)) :
    (s.v.size < i + n ∨ i = s.v.size →
      vecCall (some s) (.findEx found eq i n) = .ret (stOutOfRange, some s, none)) ∧
    (s.v.size < i + n →
      vecCall (some s) (.binarySearchEx found cmp i n) = .ret (stOutOfRange, some s, none)) ∧
    (i < s.v.size → vecCall (some s) (.findEx true eq i 0) = .ret (stFalse, some s, some (-1))) ∧
    (i ≤ s.v.size → vecCall (some s) (.binarySearchEx true cmp i 0) = .ret (stFalse, some s, some i)) ∧
    vecCall (some s) (.find found eq) = vecCall (some s) (.findEx found eq 0 s.v.size) ∧
    vecCall (some s) (.binarySearch found cmp) = vecCall (some s) (.binarySearchEx found cmp 0 s.v.size) := by
  have ha : add64 i n = i + n := add64_eq hin
  have h0 : add64 i 0 = i := add64_eq (by omega)
  refine ⟨fun h => ?_, fun h => ?_, fun h => ?_, fun h => ?_, rfl, rfl⟩
  · simp only [vecCall, checkPtr, findAt, vecFindEx]
    cases eq <;> simp only [] <;> rw [if_pos (by rw [ha]; omega)] <;> rfl
  · simp only [vecCall, checkPtr, binarySearchAt, vecBinarySearchEx]
    cases cmp <;> simp only [] <;> rw [if_pos (by rw [ha]; omega)] <;> rfl
  · simp only [vecCall, checkPtr, findAt, vecFindEx]
    cases eq <;> simp only [] <;> rw [if_neg (by rw [h0]; omega)] <;> simp [writeRes]
  · simp only [vecCall, checkPtr, binarySearchAt, vecBinarySearchEx]
    cases cmp <;> simp only [] <;> rw [if_neg (by rw [h0]; omega)] <;> simp [writeRes]

/-- C124: pointers to elements and characters. The null pointer for the result is found in the end by the
vector function. -/
theorem C124_pointers {s : VS α} {t : Str} {i : Nat} (hi : i + 1 < 18446744073709551616) (value : Bool) :
    (i < s.v.size → vecCall (some s) (.getPointer i true) = .ret (stSuccess, some s, some i)) ∧
    (s.v.size ≤ i → vecCall (some s) (.getPointer i true) = .ret (stOutOfRange, some s, none)) ∧
    (i + 1 < t.s.v.size → strCall (some t) (.getCharMutable i true) = .ret (stSuccess, some t, some i)) ∧
    (i + 1 < t.s.v.size → strCall (some t) (.getCharMutable i false) = .ret (stInvalidArgument, some t, none)) ∧
    (t.s.v.size ≤ i + 1 → strCall (some t) (.getCharMutable i value) = .ret (stOutOfRange, some t, none)) ∧
    strCall (some t) (.getData true) = .ret (stSuccess, some t, some 0) := by
  have ha : add64 i 1 = i + 1 := add64_eq hi
  refine ⟨fun h => ?_, fun h => ?_, fun h => ?_, fun h => ?_, fun h => ?_, rfl⟩
  · simp only [vecCall, checkPtr, vecGetPointer, if_true]; rw [if_neg (by omega)]; rfl
  · simp only [vecCall, checkPtr, vecGetPointer, if_true]; rw [if_pos h]; rfl
  · simp only [strCall, checkPtr]
    rw [if_neg (by rw [ha]; omega)]
    simp only [if_true, vecGetPointer]
    rw [if_neg (by omega)]; rfl
  · simp only [strCall, checkPtr]; rw [if_neg (by rw [ha]; omega), if_neg (by decide)]
  · simp only [strCall, checkPtr]; rw [if_pos (by rw [ha]; omega)]

/-- C124: which failure a copy without a destination reports. -/
theorem C124_copy_status (wb : World Byte) (src : Vec α) (v1 v2 : View) (cap : Nat) (buf : Option (Block α))
    (bufb : Option (Block Byte)) (hv : v1.size + v2.size < 18446744073709551616) (h1 : v1.size ≠ 0)
    (h2 : v2.size ≠ 0) :
    vecDuplicateBufferP false (some src) buf cap =
      .ret (if cap < src.size then stInsufficient else stInvalidArgument, none) ∧
    strDuplicateBufferP wb false (some v1) bufb cap =
      .ret (if cap < v1.size then stInsufficient else stInvalidArgument, none) ∧
    strConcatBufferP wb false (some v1) (some v2) bufb cap =
      .ret (if cap + 1 < v1.size + v2.size then stInsufficient else stInvalidArgument, none) := by
  refine ⟨?_, ?_, ?_⟩
  · simp only [vecDuplicateBufferP, Bool.false_eq_true, if_false, vecInitBufferP]
    split <;> rfl
  · simp only [strDuplicateBufferP, Bool.false_eq_true, if_false, strInitBufferP]
    rw [if_neg h1]
    split <;> rfl
  · simp only [strConcatBufferP, Bool.false_eq_true, if_false, strInitBufferP]
    rw [if_neg (by omega), add64_eq hv, sub64_eq (by omega) (by omega)]
    by_cases h : cap < v1.size + v2.size - 1
    · rw [if_pos h, if_pos (by omega)]
    · rw [if_neg h, if_neg (by omega)]

/-- C124: a copy without a destination of something that is not a string reports this, whatever the capacity. -/
theorem C124_copy_empty (wb : World Byte) (v1 v2 : View) (cap : Nat) (bufb : Option (Block Byte))
    (h : v1.size = 0 ∨ v2.size = 0) :
    strConcatBufferP wb false (some v1) (some v2) bufb cap = .ret (stInvalidArgument, none) ∧
    (v1.size = 0 → strDuplicateBufferP wb false (some v1) bufb cap = .ret (stInvalidArgument, none)) := by
  refine ⟨?_, fun h0 => ?_⟩
  · simp only [strConcatBufferP, Bool.false_eq_true, if_false, if_pos h]
  · simp only [strDuplicateBufferP, Bool.false_eq_true, if_false, if_pos h0]

/-- C124: constructors and copies with all their pointers are those of the other properties. -/
theorem C124_init_given (w : World α) (wb : World Byte) (esz cap n g thr : Nat) (dtor : Bool) (al : Option Nat)
    (buf : Option (Block α)) (bufb : Option (Block Byte)) (lbuf : Option Nat) (src : Vec α) (v1 v2 : View) :
    vecInitExP w true esz cap dtor al g thr = vecInitEx w esz cap dtor al g thr ∧
    vecInitBufferP true esz buf cap dtor = vecInitBuffer esz buf cap dtor ∧
    vecDuplicateExP w true (some src) cap al g thr = vecDuplicateEx w src cap al g thr ∧
    vecDuplicateBufferP true (some src) buf cap = vecDuplicateBuffer src buf cap ∧
    strInitExP wb true cap al g thr = strInitEx wb cap al g thr ∧
    strInitBufferP wb true bufb cap = strInitBuffer wb bufb cap ∧
    strDuplicateExP wb true (some v1) cap al g thr = strDuplicateEx wb v1 cap al g thr ∧
    strDuplicateBufferP wb true (some v1) bufb cap = strDuplicateBuffer wb v1 bufb cap ∧
    strConcatExP wb true (some v1) (some v2) cap al g thr = strConcatEx wb v1 v2 cap al g thr ∧
    strConcatBufferP wb true (some v1) (some v2) bufb cap = strConcatBuffer wb v1 v2 bufb cap ∧
    bsInitExP wb true n al g thr = bsInitEx wb n al g thr ∧
    bsInitBufferP wb true n bufb cap = bsInitBuffer wb n bufb cap ∧
    listInitExP true esz dtor al = listInitEx esz dtor al ∧
    listInitBufferP true esz dtor lbuf cap = listInitBuffer esz dtor lbuf cap := by
  simp only [vecInitExP, vecInitBufferP, vecDuplicateExP, vecDuplicateBufferP, strInitExP, strInitBufferP,
    strDuplicateExP, strDuplicateBufferP, strConcatExP, strConcatBufferP, bsInitExP, bsInitBufferP, listInitExP,
    listInitBufferP, if_true, and_self]

/-- C124: questions and combinations with all their pointers are those of the other properties. -/
theorem C124_queries_given (t u : Bits) (l : LS α) (v h n : View) (m : List (Cell Byte)) (i k : Nat)
    (esz : Cell Nat) :
    bitCall (some t) (.and (some u)) = plain (bsAnd t u) ∧
    bitCall (some t) (.or (some u)) = plain (bsOr t u) ∧
    bitCall (some t) (.xor (some u)) = plain (bsXor t u) ∧
    bitCall (some t) (.getSizeBytes true) = .ret (stSuccess, some t, some (bsGetSizeBytes t)) ∧
    bitCall (some t) (.getCapacityBytes true) = .ret (stSuccess, some t, some (bsGetCapacityBytes t)) ∧
    bitCall (some t) (.test i) = answer t (bsTest t i) ∧
    bitCall (some t) .testMSB = answer t (bsTestMSB t) ∧
    bitCall (some t) .testLSB = answer t (bsTestLSB t) ∧
    bitCall (some t) .all = answer t (bsAll t) ∧
    bitCall (some t) .any = answer t (bsAny t) ∧
    bitCall (some t) .none = answer t (bsNone t) ∧
    listCall (some l) (.getHead true) = .ret (stSuccess, some l, l.l.head.map fun x => (x : Int)) ∧
    listCall (some l) (.getTail true) = .ret (stSuccess, some l, l.l.tail.map fun x => (x : Int)) ∧
    listCall (some l) (.getSize true) = .ret (stSuccess, some l, some (l.l.size : Int)) ∧
    viewFn (.getSize (some v) true) = .ret (stSuccess, some (.num (viewGetSize v))) ∧
    viewFn (.getData (some v) true) = .ret (stSuccess, some (.mem v.mem)) ∧
    viewFn (.insideView true (some v)) = .ret (stSuccess, some (.view v)) ∧
    viewFn (.insideViewEx true (some v) i k) =
      .ret ((viewInsideViewEx v i k).1, (viewInsideViewEx v i k).2.map .view) ∧
    viewFn (.insideBuffer true (some m)) = (viewInsideBuffer m).bind (fun r => .ret (r.1, some (.view r.2))) ∧
    viewFn (.insideBufferEx true (some m) k) =
      .ret ((viewInsideBufferEx m k).1, (viewInsideBufferEx m k).2.map .view) ∧
    viewFn (.getChar (some v) esz i true) = (strGetChar v esz i).bind (fun r => .ret (r.1, r.2.map .char)) ∧
    viewFn (.lpos (some h) (some n) true) = (strLPos h n).bind (fun r => .ret (r.1, r.2.map .num)) ∧
    viewFn (.rpos (some h) (some n) true) = (strRPos h n).bind (fun r => .ret (r.1, r.2.map .num)) ∧
    viewFn (.lposI (some h) (some n) true) = (strLPosI h n).bind (fun r => .ret (r.1, r.2.map .num)) ∧
    viewFn (.rposI (some h) (some n) true) = (strRPosI h n).bind (fun r => .ret (r.1, r.2.map .num)) ∧
    viewFn (.lposIEx (some h) (some n) true i k) = (strLPosIEx h n i k).bind (fun r => .ret (r.1, r.2.map .num)) ∧
    viewFn (.rposIEx (some h) (some n) true i k) = (strRPosIEx h n i k).bind (fun r => .ret (r.1, r.2.map .num)) ∧
    viewFn (.compareI (some h) (some n) true) = (strCompareI h n).bind (fun r => .ret (r.1, some (.num r.2))) := by
  refine ⟨rfl, rfl, rfl, rfl, rfl, rfl, rfl, rfl, rfl, rfl, rfl, rfl, rfl, rfl, rfl, rfl, rfl, rfl, rfl, rfl, rfl,
    rfl, rfl, rfl, rfl, rfl, rfl, rfl⟩

/-- C124, lists: emplacing hands out the node that the list then has at that end. -/
theorem C124_list_emplaced {l l' : LS α} {c : Ctor α} :
    (listEmplaceBack l c = .ret (stSuccess, l') →
      listCall (some l) (.emplaceBack true c) = .ret (stSuccess, some l', l'.l.tail.map fun x => (x : Int))) ∧
    (listEmplaceFront l c = .ret (stSuccess, l') →
      listCall (some l) (.emplaceFront true c) = .ret (stSuccess, some l', l'.l.head.map fun x => (x : Int))) := by
  constructor <;> intro e <;> simp only [listCall, if_true, checkPtr, e, Out.ret_bind'] <;> rfl

/-! ## Examples -/

example : ∃ s', vecCall (some exS) (.emplaceEx 1 true (some fun _ => (stSuccess, some 5))) =
    .ret (stSuccess, some s', some 1) := by
  obtain ⟨s', e⟩ : ∃ s', vecEmplaceEx exS 1 (some fun _ => (stSuccess, some 5)) = .ret (stSuccess, s') := ⟨_, by cbv⟩
  exact ⟨s', (C124_emplaced exS _).1 1 s' e⟩
/-- The vector of two slots with both in use. -/
def exFullFixed : VS Nat :=
  ⟨{ allocator := none, growth := 1, shrink := 0, size := 2, cap := 2, esz := 8, hasDtor := true,
     data := some ⟨7, [some 10, some 11]⟩ }, ⟨fun _ => stSuccess, 0, 0, []⟩⟩
example : vecCall (some exFullFixed) (.emplaceEx 1 false none) = .ret (stInsufficient, some exFullFixed, none) :=
  C124_emplace_full (P := exFixedP) (Reach.step (op := .push (some 11)) exFixed_reach (by show _ < _; decide) rfl) rfl
    rfl (by unfold Fits; decide) (by decide) false none
example : vecCall (some exS) (.findEx false none 2 9) = .ret (stOutOfRange, some exS, none) :=
  (C124_searches (s := exS) (i := 2) (n := 9) (by decide) false none none).1 (Or.inl (by decide))
example : strCall (some exStr) (.getCharMutable 1 true) = .ret (stSuccess, some exStr, some 1) :=
  (C124_pointers (s := exS) (t := exStr) (i := 1) (by decide) true).2.2.1 (by decide)

end Zy
