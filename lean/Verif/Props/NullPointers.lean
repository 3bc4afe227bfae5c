import Verif.Lemmas.NullPointers
import Verif.Props.Vector
import Verif.Props.String
import Verif.Props.Bitset
import Verif.Props.List
import Verif.Props.ArgParse

/-!
# Null pointers

C124 is stated for the exported functions with their pointers (`Model/NullPointers`); which pointers are required
is in `Spec/NullPointers`.
-/

namespace Zy

open Spec

variable {α : Type}

/-! ## The object itself -/

/-- C124, vectors: whatever function is called, with whatever arguments, a null vector is rejected;
the functions that return a pointer return null. -/
theorem C124_null_vector (c : VecCall α) (i : Nat) :
    vecCall none c = .ret (stInvalidArgument, none, none) ∧ vecGetP (none : Option (VS α)) i = none := by
  refine ⟨?_, rfl⟩
  cases c <;> simp only [vecCall, checkPtr] <;> split <;> rfl

/-- C124, strings. -/
theorem C124_null_string (c : StrCall) : strCall none c = .ret (stInvalidArgument, none, none) := by
  cases c <;>
    simp only [strCall, checkPtr, strAppendP, checkSource, strAppendDecUP, strAppendHexUP, signedOfNull] <;>
    repeat' (split <;> try rfl)

/-- C124, bitsets.
Missing: `ZyanBitsetReserve` and `ZyanBitsetShrinkToFit`; see `C124_bitset_negation`. -/
theorem C124_null_bitset_partial (c : BitCall) (hr : ∀ n, c ≠ .reserve n) (hs : c ≠ .shrinkToFit) :
    bitCall none c = .ret (stInvalidArgument, none, none) := by
  cases c
  case reserve n => exact absurd rfl (hr n)
  case shrinkToFit => exact absurd rfl hs
  all_goals
    simp only [bitCall, checkPtr, performP]
    repeat' (split <;> try rfl)

/-- C124 fails for bitsets: these two functions use the null pointer. -/
theorem C124_bitset_negation (n : Nat) :
    bitCall none (.reserve n) = .ub .null ∧ bitCall none .shrinkToFit = .ub .null := ⟨rfl, rfl⟩

/-- C124, lists: a null list is rejected, and so is a null place for a node or a null node.
Missing: `ZyanListRemove` and `ZyanListRemoveRange`, see `C124_list_negation`. -/
theorem C124_null_list_partial :
    (∀ c : ListCall α, (∀ n, c ≠ .remove n) → (∀ m n, c ≠ .removeRange m n) →
      listCall none c = .ret (stInvalidArgument, none, none)) ∧
    (∀ fwd (s : LS α), listStepP fwd s none = .ret (stInvalidArgument, none)) ∧
    (∀ value, listNodeDataExP (α := α) none value = .ret (stInvalidArgument, none)) := by
  refine ⟨fun c h1 h2 => ?_, fun _ _ => rfl, fun _ => rfl⟩
  cases c
  case remove n => exact absurd rfl (h1 n)
  case removeRange m n => exact absurd rfl (h2 m n)
  all_goals
    simp only [listCall, checkPtr]
    repeat' (split <;> try rfl)

/-- C124 fails for lists: these functions report success for any pointers, as they do nothing. -/
theorem C124_list_negation (m n : Option Nat) :
    listCall (α := α) none (.remove n) = .ret (stSuccess, none, none) ∧
    listCall (α := α) none (.removeRange m n) = .ret (stSuccess, none, none) ∧
    ∀ s : LS α, listCall (some s) (.remove none) = .ret (stSuccess, some s, none) ∧
      listCall (some s) (.removeRange none n) = .ret (stSuccess, some s, none) ∧
      listCall (some s) (.removeRange m none) = .ret (stSuccess, some s, none) :=
  ⟨rfl, rfl, fun _ => ⟨rfl, rfl, rfl⟩⟩

/-- C124, initialisation: without an object, or without a buffer, nothing is initialised and no memory is
requested. -/
theorem C124_null_init (w : World α) (wb : World Byte) (esz cap n g thr : Nat) (dtor : Bool) (al : Option Nat)
    (vec : Bool) (buf : Option (Block α)) (bufb : Option (Block Byte)) (lbuf : Option Nat) :
    vecInitExP w false esz cap dtor al g thr = (stInvalidArgument, none, w) ∧
    vecInitBufferP false esz buf cap dtor = (stInvalidArgument, none) ∧
    vecInitBufferP vec esz (none : Option (Block α)) cap dtor = (stInvalidArgument, none) ∧
    strInitExP wb false cap al g thr = .ret (stInvalidArgument, none, wb) ∧
    strInitBufferP wb false bufb cap = .ret (stInvalidArgument, none) ∧
    strInitBufferP wb vec none cap = .ret (stInvalidArgument, none) ∧
    bsInitExP wb false n al g thr = .ret (stInvalidArgument, none, wb) ∧
    bsInitBufferP wb false n bufb cap = .ret (stInvalidArgument, none) ∧
    listInitExP false esz dtor al = (stInvalidArgument, none) ∧
    listInitBufferP false esz dtor lbuf cap = (stInvalidArgument, none) ∧
    listInitBufferP vec esz dtor none cap = (stInvalidArgument, none) := by
  refine ⟨rfl, rfl, ?_, rfl, rfl, ?_, rfl, rfl, rfl, rfl, ?_⟩ <;> cases vec <;>
    simp [vecInitBufferP, strInitBufferP, listInitBufferP, vecInitBuffer, strInitBuffer, listInitBuffer]

/-- C124, copies: without a destination or a source the call fails, and no memory is requested. -/
theorem C124_null_copy (w : World α) (wb : World Byte) (dst : Bool) (src : Option (Vec α)) (v1 v2 : Option View)
    (cap g thr : Nat) (al : Option Nat) (buf : Option (Block α)) (bufb : Option (Block Byte)) :
    (dst = false ∨ src = none →
      vecDuplicateExP w dst src cap al g thr = .ret (stInvalidArgument, none, w) ∧
      ∃ st, failed st ∧ vecDuplicateBufferP dst src buf cap = .ret (st, none)) ∧
    (dst = false ∨ v1 = none →
      strDuplicateExP wb dst v1 cap al g thr = .ret (stInvalidArgument, none, wb) ∧
      ∃ st, failed st ∧ strDuplicateBufferP wb dst v1 bufb cap = .ret (st, none)) ∧
    (dst = false ∨ v1 = none ∨ v2 = none →
      strConcatExP wb dst v1 v2 cap al g thr = .ret (stInvalidArgument, none, wb) ∧
      ∃ st, failed st ∧ strConcatBufferP wb dst v1 v2 bufb cap = .ret (st, none)) := by
  have hi : failed stInvalidArgument = true := rfl
  have hn : failed stInsufficient = true := rfl
  refine ⟨fun h => ?_, fun h => ?_, fun h => ?_⟩
  · cases src with
    | none => exact ⟨rfl, _, hi, rfl⟩
    | some s =>
      have hd : dst = false := by rcases h with h | h; exact h; cases h
      subst hd
      refine ⟨rfl, ?_⟩
      simp only [vecDuplicateBufferP, Bool.false_eq_true, if_false]
      split
      · exact ⟨_, hn, rfl⟩
      · exact ⟨_, hi, rfl⟩
  · cases v1 with
    | none => exact ⟨rfl, _, hi, rfl⟩
    | some s =>
      have hd : dst = false := by rcases h with h | h; exact h; cases h
      subst hd
      simp only [strDuplicateExP, strDuplicateBufferP, strInitExP, strInitBufferP, Bool.false_eq_true, if_false]
      constructor
      · split <;> rfl
      · split
        · exact ⟨_, hi, rfl⟩
        · split
          · exact ⟨_, hn, rfl⟩
          · exact ⟨_, hi, rfl⟩
  · cases v1 with
    | none => exact ⟨rfl, _, hi, rfl⟩
    | some s1 =>
      cases v2 with
      | none => exact ⟨rfl, _, hi, rfl⟩
      | some s2 =>
        have hd : dst = false := by
          rcases h with h | h | h
          · exact h
          · cases h
          · cases h
        subst hd
        simp only [strConcatExP, strConcatBufferP, strInitExP, strInitBufferP, Bool.false_eq_true, if_false]
        constructor
        · split <;> rfl
        · split
          · exact ⟨_, hi, rfl⟩
          · split
            · exact ⟨_, hn, rfl⟩
            · exact ⟨_, hi, rfl⟩

/-! ## The other pointers -/

/-- C124, vectors: a null element, or a null place for a pointer, is rejected and the vector is unchanged.
Missing: the functions of `VecCall.Careless`; see `C124_vector_negation` and `C124_search_negation`. -/
theorem C124_null_argument_vector_partial (s : VS α) (c : VecCall α) (h : c.Missing) (hc : ¬ c.Careless) :
    vecCall (some s) c = .ret (stInvalidArgument, some s, none) := by
  cases c <;> simp only [VecCall.Missing, VecCall.Careless, not_true_eq_false] at h hc
  all_goals
    subst h
    simp [vecCall, checkPtr, plain, vecSet, vecPushBack, vecInsert, vecInsertRange, Src.isNull]

/-- C124, strings: a null view, format or place for a pointer is rejected and the string is unchanged.
Missing: the functions of `StrCall.Careless`; see `C124_getter_negation`. -/
theorem C124_null_argument_string_partial (t : Str) (c : StrCall) (h : c.Missing) (hc : ¬ c.Careless) :
    ∃ st, failed st ∧ strCall (some t) c = .ret (st, some t, none) := by
  cases c <;> simp only [StrCall.Missing, StrCall.Careless, not_true_eq_false] at h hc
  case getCharMutable i v =>
    subst h
    simp only [strCall, checkPtr, Bool.false_eq_true, if_false]
    split
    · exact ⟨_, rfl, rfl⟩
    · exact ⟨_, rfl, rfl⟩
  all_goals
    subst h
    exact ⟨stInvalidArgument, rfl, rfl⟩

/-- C124, views.
Missing: the functions of `ViewFn.Careless`; see `C124_compare_negation`. -/
theorem C124_null_argument_view_partial (c : ViewFn) (h : c.Missing) (hc : ¬ c.Careless) :
    viewFn c = .ret (stInvalidArgument, none) := by
  cases c <;> simp only [ViewFn.Missing, ViewFn.Careless, not_true_eq_false] at h hc
  all_goals
    simp only [viewFn, checkBoth, searchP]
    repeat' (split <;> try rfl)
    simp_all

/-- C124, comparisons: null operands are rejected. -/
theorem C124_null_operand (v : Option View) (out : Bool) :
    viewFn (.compare none v out) = .ret (stInvalidArgument, none) ∧
    viewFn (.compare v none out) = .ret (stInvalidArgument, none) ∧
    viewFn (.compareI none v out) = .ret (stInvalidArgument, none) ∧
    viewFn (.compareI v none out) = .ret (stInvalidArgument, none) := by
  cases v <;> exact ⟨rfl, rfl, rfl, rfl⟩

/-- C124, bitsets.
Missing: the functions of `BitCall.Careless`; see `C124_getter_negation`. -/
theorem C124_null_argument_bitset_partial (t : Bits) (c : BitCall) (h : c.Missing) (hc : ¬ c.Careless) :
    bitCall (some t) c = .ret (stInvalidArgument, some t, none) := by
  cases c <;> simp only [BitCall.Missing, BitCall.Careless, not_true_eq_false] at h hc
  all_goals
    simp only [bitCall, performP]
    repeat' (split <;> try rfl)
    simp_all

/-- C124, lists.
Missing: the functions of `ListCall.Careless`; see `C124_getter_negation` and `C124_list_negation`. -/
theorem C124_null_argument_list_partial (s : LS α) (c : ListCall α) (h : c.Missing) (hc : ¬ c.Careless) :
    listCall (some s) c = .ret (stInvalidArgument, some s, none) := by
  cases c <;> simp only [ListCall.Missing, ListCall.Careless, not_true_eq_false] at h hc
  case setNodeData node value =>
    rcases h with h | h <;> subst h
    · simp [listCall, checkPtr, plain, listSetNodeData]
    · cases node <;> simp [listCall, checkPtr, plain, listSetNodeData, LSrc.isNull]
  all_goals
    subst h
    simp [listCall, checkPtr, plain, listPushBack, listPushFront, LSrc.isNull]

/-- C124, argument parser: when the configuration is there and its definitions can be read, a null vector is
rejected, no memory is requested and the error token is left alone. -/
theorem C124_null_parsed (w : World AArg) (cfg : ArgConfig) {ok : Bool} (h : defsSyntaxOk cfg.args = .ret ok)
    (want : Bool) (al : Option Nat) :
    argParseExP w (some cfg) false want al = .ret ⟨stInvalidArgument, .untouched, none, w⟩ := by
  simp only [argParseExP, Bool.false_eq_true, if_false]
  split
  · rfl
  · rw [h, Out.ret_bind']
    split <;> rfl

/-! ## Calls with all their pointers -/

/-- C124: the checks reject nothing else. With all pointers given, the functions on vectors, strings, bitsets and
lists are those of the other properties. -/
theorem C124_pointers_given (s : VS α) (t : Str) (u : Bits) (l : LS α) :
    (∀ op, dropRes (vecCall (some s) (.ofOp op)) = keepObj (vecOp s op)) ∧
    (∀ op, dropRes (strCall (some t) (.ofOp op)) = keepObj (strOp t op)) ∧
    (∀ op, dropRes (bitCall (some u) (.ofOp op)) = keepObj (bsOp u op)) ∧
    (∀ v op, dropRes (bitCall (some u) (.perform (some v) (some op))) = keepObj (bsPerform op u v)) ∧
    (∀ x, dropRes (listCall (some l) (.pushBack x)) = keepObj (listPushBack l x)) ∧
    (∀ x, dropRes (listCall (some l) (.pushFront x)) = keepObj (listPushFront l x)) ∧
    (∀ c, dropRes (listCall (some l) (.emplaceBack true c)) = keepObj (listEmplaceBack l c)) ∧
    (∀ c, dropRes (listCall (some l) (.emplaceFront true c)) = keepObj (listEmplaceFront l c)) ∧
    (∀ n x, dropRes (listCall (some l) (.setNodeData n x)) = keepObj (listSetNodeData l n x)) ∧
    (∀ n x, dropRes (listCall (some l) (.resizeEx n x)) = keepObj (listResizeEx l n x)) := by
  refine ⟨fun op => ?_, fun op => ?_, fun op => ?_, fun _ _ => dropRes_plain _, fun _ => dropRes_plain _,
    fun _ => dropRes_plain _, fun c => ?_, fun c => ?_, fun _ _ => dropRes_plain _, fun _ _ => dropRes_plain _⟩
  · cases op
    case emplace i c => exact emplaceAt_given s i c
    all_goals exact dropRes_plain _
  · cases op <;> simp only [StrCall.ofOp, strCall, strAppendP, checkSource, checkPtr, strOp, dropRes_plain]
  · cases op <;> simp only [BitCall.ofOp, bitCall, usePtr, checkPtr, bsOp, dropRes_plain]
  · simp only [listCall, if_true, checkPtr]; cases listEmplaceBack l c <;> rfl
  · simp only [listCall, if_true, checkPtr]; cases listEmplaceFront l c <;> rfl

/-- C124: with all pointers given, the results are those of the other properties. -/
theorem C124_results_given (s : VS α) (t : Str) (u : Bits) (eq : Cell α → Bool) (cmp : Cell α → Int) (i n : Nat)
    (h m : View) :
    vecCall (some s) (.findEx true (some eq) i n) =
      (vecFindEx s eq i n).bind (fun r => .ret (r.1, some s, r.2)) ∧
    vecCall (some s) (.binarySearchEx true (some cmp) i n) =
      (vecBinarySearchEx s cmp i n).bind (fun r => .ret (r.1, some s, r.2.1.map (fun k => (k : Int)))) ∧
    vecGetP (some s) i = vecGet s i ∧
    vecCall (some s) (.getSize true) = .ret (stSuccess, some s, some (vecGetSize s)) ∧
    vecCall (some s) (.getCapacity true) = .ret (stSuccess, some s, some (vecGetCapacity s)) ∧
    strCall (some t) (.getSize true) = .ret (stSuccess, some t, some (strGetSize t)) ∧
    strCall (some t) (.getCapacity true) = .ret (stSuccess, some t, some (strGetCapacity t)) ∧
    bitCall (some u) (.getSize true) = .ret (stSuccess, some u, some (bsGetSize u)) ∧
    bitCall (some u) (.getCapacity true) = .ret (stSuccess, some u, some (bsGetCapacity u)) ∧
    bitCall (some u) (.count true) = (bsCount u).bind (fun r => .ret (r.1, some u, some (r.2 : Int))) ∧
    viewFn (.lposEx (some h) (some m) true i n) =
      (strLPosEx h m i n).bind (fun r => .ret (r.1, r.2.map .num)) ∧
    viewFn (.rposEx (some h) (some m) true i n) =
      (strRPosEx h m i n).bind (fun r => .ret (r.1, r.2.map .num)) ∧
    viewFn (.compare (some h) (some m) true) =
      (strCompare h m).bind (fun r => .ret (r.1, some (.num r.2))) := by
  refine ⟨?_, ?_, rfl, rfl, rfl, rfl, rfl, rfl, rfl, rfl, rfl, rfl, rfl⟩
  · simp only [vecCall, checkPtr, findAt]
    cases vecFindEx s eq i n with
    | ub => rfl
    | ret r => obtain ⟨st, x⟩ := r; cases x <;> rfl
  · simp only [vecCall, checkPtr, binarySearchAt]
    cases vecBinarySearchEx s cmp i n with
    | ub => rfl
    | ret r => obtain ⟨st, x, l⟩ := r; cases x <;> rfl

/-! ## What goes wrong -/

/-- C124 fails: these functions write through a null result pointer, whatever the object. -/
theorem C124_getter_negation (s : VS α) (t : Str) (u : Bits) (l : LS α) (n : Nat) :
    vecCall (some s) (.getCapacity false) = .ub .null ∧
    vecCall (some s) (.getSize false) = .ub .null ∧
    strCall (some t) (.getCapacity false) = .ub .null ∧
    strCall (some t) (.getSize false) = .ub .null ∧
    strCall (some t) (.getData false) = .ub .null ∧
    bitCall (some u) (.getSize false) = .ub .null ∧
    bitCall (some u) (.getCapacity false) = .ub .null ∧
    bitCall (some u) (.getSizeBytes false) = .ub .null ∧
    bitCall (some u) (.getCapacityBytes false) = .ub .null ∧
    listCall (some l) (.getHead false) = .ub .null ∧
    listCall (some l) (.getTail false) = .ub .null ∧
    listCall (some l) (.getSize false) = .ub .null ∧
    listNodeDataExP (α := α) (some n) false = .ub .null :=
  ⟨rfl, rfl, rfl, rfl, rfl, rfl, rfl, rfl, rfl, rfl, rfl, rfl, rfl⟩

/-- C124 fails for emplacing: when there is or can be made room for one more element, a null element pointer is
written to. -/
theorem C124_emplace_negation {P : Params} {s : VS α} (h : Reach P s) {i : Nat} (hi : i ≤ s.v.size)
    (hf : Fits P (s.v.size + 1)) (hroom : P.allocator.isSome ∨ s.v.size < s.v.cap) (c : Ctor α) :
    vecCall (some s) (.emplaceEx i false c) = .ub .null ∧ vecCall (some s) (.emplace false c) = .ub .null := by
  obtain ⟨b, slack, R⟩ := h.rep
  exact ⟨emplace_null R hi hf hroom c, emplace_null R (Nat.le_refl _) hf hroom c⟩

/-- C124 fails for searching a range of a vector: the place for the result is written unchecked, and the
comparison is called unchecked. -/
theorem C124_search_negation {P : Params} {s : VS α} (h : Reach P s) {i n : Nat} (hin : i + n ≤ s.v.size)
    (hi : i < s.v.size) (eq : Cell α → Bool) (cmp : Cell α → Int) (out : Bool) :
    vecCall (some s) (.findEx false (some eq) i n) = .ub .null ∧
    vecCall (some s) (.binarySearchEx false (some cmp) i n) = .ub .null ∧
    (n ≠ 0 → vecCall (some s) (.findEx out none i n) = .ub .null ∧
      vecCall (some s) (.binarySearchEx out none i n) = .ub .null) := by
  obtain ⟨b, slack, R⟩ := h.rep
  have h63 := R.len63
  have hs := R.size
  have ha : add64 i n = i + n := add64_eq (by omega)
  obtain ⟨⟨r1, e1⟩, ⟨r2, e2⟩, _⟩ := C02_reads_safe h eq cmp i n (by omega)
  have g1 : ¬ (add64 i n > s.v.size ∨ i = s.v.size) := by rw [ha]; omega
  have g2 : ¬ ((i ≥ s.v.size ∧ n > 0) ∨ add64 i n > s.v.size) := by rw [ha]; omega
  refine ⟨?_, ?_, fun hn => ⟨?_, ?_⟩⟩
  · obtain ⟨st, x, rfl⟩ := findEx_writes g1 e1
    simp only [vecCall, checkPtr, findAt]
    rw [e1]; rfl
  · obtain ⟨st, x, l, rfl⟩ := binarySearchEx_writes g2 e2
    simp only [vecCall, checkPtr, binarySearchAt]
    rw [e2]; rfl
  · simp only [vecCall, checkPtr, findAt]
    rw [if_neg g1, if_neg hn]
  · simp only [vecCall, checkPtr, binarySearchAt]
    rw [if_neg g2, if_neg hn]

/-- C124 fails for comparing two texts: the place for the result is written unchecked. -/
theorem C124_compare_negation {v1 v2 : View} {x y : List Byte} (h1 : ShowsTerminated v1 x)
    (h2 : ShowsTerminated v2 y) (hb : x.length + 1 < 18446744073709551616) :
    viewFn (.compare (some v1) (some v2) false) = .ub .null ∧
    viewFn (.compareI (some v1) (some v2) false) = .ub .null := by
  obtain ⟨r1, rfl⟩ := h1.eq
  obtain ⟨r2, rfl⟩ := h2.eq
  have key : ∀ eq : Byte → Byte → Bool, (∀ a, eq a a = true) →
      ∃ r, strCompareWith eq (termView x r1) (termView y r2) = .ret r := by
    intro eq he
    rcases Nat.lt_trichotomy x.length y.length with hl | hl | hl
    · exact ⟨_, compare_shorter eq hl⟩
    · rcases compare_same eq he (rest := r1) (rest' := r2) hl hb with ⟨e, _⟩ | ⟨_, _, _, _, _, e⟩
      · exact ⟨_, e⟩
      · exact ⟨_, e⟩
    · exact ⟨_, compare_longer eq hl⟩
  obtain ⟨a, ea⟩ := key eqExact (by simp [eqExact])
  obtain ⟨b, eb⟩ := key eqFold (by simp [eqFold])
  constructor
  · simp only [viewFn, compareP, strCompare]; rw [ea]; rfl
  · simp only [viewFn, compareP, strCompareI]; rw [eb]; rfl

/-- C124 fails for the argument parser: the configuration is used unchecked (there is only an assertion). -/
theorem C124_config_negation (w : World AArg) (parsed want : Bool) (al : Option Nat) :
    argParseExP w none parsed want al = .ub .null := rfl

/-! ## Examples -/

example : (VecCall.pushBack (α := Nat) .null).Missing ∧ ¬ (VecCall.pushBack (α := Nat) .null).Careless := by
  simp [VecCall.Missing, VecCall.Careless]
example : (StrCall.append none).Missing ∧ ¬ (StrCall.append none).Careless := by
  simp [StrCall.Missing, StrCall.Careless]
example : (ViewFn.lpos (some (litView (chars ['a']))) none true).Missing := by simp [ViewFn.Missing]
example : (BitCall.and none).Missing ∧ ¬ (BitCall.and none).Careless := by simp [BitCall.Missing, BitCall.Careless]
example : (ListCall.setNodeData (α := Nat) (some 0) .null).Missing := by simp [ListCall.Missing]
example : defsSyntaxOk (exCfg 0 9 ["x"]).args = .ret true := by decide +kernel
example : vecCall (some exS) (.emplaceEx 1 false none) = .ub .null :=
  (C124_emplace_negation exS_reach (by decide) (by unfold Fits; decide) (Or.inl rfl) none).1
example : vecCall (some exS) (.findEx false (some fun x => x == some 20) 0 3) = .ub .null :=
  (C124_search_negation exS_reach (i := 0) (n := 3) (by decide) (by decide) _ (fun _ => 0) true).1
example : viewFn (.compareI (some (litView (chars ['a']))) (some (litView (chars ['b']))) false) = .ub .null :=
  (C124_compare_negation (litView_shows _) (litView_shows _) (by decide)).2
example : (vecCall (some exS) (.findEx true (some fun x => x == some 20) 0 3)).bind
    (fun r => .ret (r.1, r.2.2)) = .ret (stTrue, some 1) := by decide +kernel

end Zy
