import Verif.Props.List

/-!
# Moving through a list from node to node (C116), buffers smaller than claimed (C48)

The specification is that of C46: the queue `d'` holds the elements after the history. The addresses of
the nodes are only known to exist and to be different.
-/

namespace Zy

open Spec

variable {α : Type}

/-! ## C116: neighbours and elements -/

/-- After every history there are as many different node addresses as elements. The functions for the
first and the last node succeed and store the first and the last address (null for an empty list). From
node `i` the functions for the next and the previous node succeed and store the address of node `i + 1`
and `i - 1`, or null at the ends. The data pointer of node `i` and the access macro show element `i`. -/
theorem C116_neighbours {K : Source} {dt : Bool} {s : LS α} (h : Created K dt s)
    (ops : List (LOp α)) (hf : LAllFit K dt emptyDeque ops) :
    ∃ sts s' d', ∃ as : List Nat, runList s ops = .ret (sts, s') ∧ LRuns K dt emptyDeque ops sts d' ∧
      as.Nodup ∧ as.length = d'.elems.length ∧
      listGetHead s' = (stSuccess, as[0]?) ∧ listGetTail s' = (stSuccess, as.getLast?) ∧
      ∀ i a x, as[i]? = some a → d'.elems[i]? = some x →
        listGetNext s' (some a) = .ret (stSuccess, as[i + 1]?) ∧
        listGetPrev s' (some a) = .ret (stSuccess, if i = 0 then none else as[i - 1]?) ∧
        listGet s' (some a) = .ret x ∧
        ∃ p, listNodeDataEx (α := α) (some a) = (stSuccess, some p) ∧ readSrc s' p = .ret x := by
  obtain ⟨sts, s', ch, fs', d', h1, h2, R⟩ := runList_ok (freeFor_ok K s.l) ops (created_ok h) hf
  obtain ⟨l1, l2, l3, l4, l5⟩ := linked_of_rep R
  refine ⟨sts, s', d', ch.map Prod.fst, h1, h2, l1, by simp [R.elems], ?_, ?_, ?_⟩
  · rw [← List.head?_eq_getElem?, ← l3]; rfl
  · rw [← l4]; rfl
  · intro i a x ha hx
    obtain ⟨hi, ha⟩ := List.getElem?_eq_some_iff.1 ha
    rw [List.length_map] at hi
    rw [R.elems, List.getElem?_map, List.getElem?_eq_getElem hi, Option.map_some] at hx
    have hx := Option.some.inj hx
    have hm := seg_getElem ch R.core.seg i hi
    rw [List.getElem_map] at ha
    rw [ha, hx] at hm
    have hd : ∀ p, deref s' (some p) = match s'.mem p with
        | none => .ub .uaf
        | some n => .ret (p, n) := fun _ => rfl
    refine ⟨?_, ?_, ?_, .node a, rfl, ?_⟩
    · simp only [listGetNext, loadNext, hd, hm, Option.isNone_some, Bool.false_eq_true, if_false,
        Out.ret_bind', useptr]
    · simp only [listGetPrev, loadPrev, hd, hm, Option.isNone_some, Bool.false_eq_true, if_false,
        Out.ret_bind', useptr]
    · simp only [listGet, listNodeData, readSrc, hd, hm, Out.ret_bind']
    · simp only [readSrc, hd, hm, Out.ret_bind']

/-- The example of C46 has four elements. -/
example : ∃ sts s' d', ∃ as : List Nat, runList exLDyn exLOps = .ret (sts, s') ∧
    LRuns (.dynamic exLW.allocSt) true emptyDeque exLOps sts d' ∧
      as.Nodup ∧ as.length = d'.elems.length ∧
      listGetHead s' = (stSuccess, as[0]?) ∧ listGetTail s' = (stSuccess, as.getLast?) ∧
      ∀ i a x, as[i]? = some a → d'.elems[i]? = some x →
        listGetNext s' (some a) = .ret (stSuccess, as[i + 1]?) ∧
        listGetPrev s' (some a) = .ret (stSuccess, if i = 0 then none else as[i - 1]?) ∧
        listGet s' (some a) = .ret x ∧
        ∃ p, listNodeDataEx (α := Nat) (some a) = (stSuccess, some p) ∧ readSrc s' p = .ret x :=
  C116_neighbours exLDyn_created exLOps (exLOps_fit _ _)

/-- The same history, evaluated: the head is at address 4, and the next node shows element 1. -/
example : ((runList exLDyn exLOps).bind fun r =>
    (listGetNext r.2 (listGetHead r.2).2).bind fun q => (listGet r.2 q.2).bind fun x =>
    .ret ((listGetHead r.2).2, q.1, x)) = .ret (some 4, stSuccess, some 1) := by decide +kernel

/-- A null node pointer is rejected by the functions for neighbours and for the data pointer, which then
store nothing. The macro for the element reads through a null pointer. -/
theorem C116_null_node (s : LS α) :
    listGetNext s none = .ret (stInvalidArgument, none) ∧
    listGetPrev s none = .ret (stInvalidArgument, none) ∧
    listNodeDataEx (α := α) none = (stInvalidArgument, none) ∧
    listGet s none = .ub .null :=
  ⟨rfl, rfl, rfl, rfl⟩

/-- Such a pointer is what stepping beyond the last node leaves behind. -/
example : ((runList exLDyn [.pushBack (some 1)]).bind fun r =>
    (listGetNext r.2 (listGetHead r.2).2).bind fun q => (listGetNext r.2 q.2).bind fun p =>
    .ret (q.1, q.2, p.1, p.2)) = .ret (stSuccess, none, stInvalidArgument, none) := by
  decide +kernel

/-! ## C48: a buffer smaller than claimed -/

/-- If not even one node fits into the buffer, but the capacity given by the caller says so, the first
insertion writes outside of the buffer. This is why C48 asks for a buffer of at least `cap` bytes. -/
theorem C48_short_buffer_negation {esz b cap bytes : Nat} {dt : Bool} {w : LWorld α} {st : Status}
    {l : ZList} (hc : cap < 18446744073709551616) (hn : 16 + esz ≤ cap) (hb : bytes < 16 + esz)
    (h : listInitBuffer esz dt (some b) cap = (st, some l)) {op : LOp α}
    (hop : (∃ x, op = .pushBack x) ∨ (∃ x, op = .pushFront x) ∨ (∃ c, op = .emplaceBack c) ∨
      (∃ c, op = .emplaceFront c)) :
    listOp ⟨l, bufferMem bytes esz, w⟩ op = .ub .uaf := by
  unfold listInitBuffer at h
  split at h
  · cases h
  cases h
  have h16 : add64 16 esz = 16 + esz := add64_eq (Nat.lt_of_le_of_lt hn hc)
  have h0 : add64 0 (16 + esz) = 16 + esz := by
    rw [add64_eq (by omega), Nat.zero_add]
  have hm : mul64 0 (16 + esz) = 0 := by simp [mul64]
  have hd : bufferMem (α := α) bytes esz 0 = none := by
    unfold bufferMem
    rw [if_neg (by omega)]
  have hcap : ¬ (16 + esz > cap) := by omega
  rcases hop with ⟨x, rfl⟩ | ⟨x, rfl⟩ | ⟨x, rfl⟩ | ⟨x, rfl⟩ <;>
  simp only [listOp, listPushBack, listPushFront, listEmplaceBack, listEmplaceFront, LSrc.isNull,
    Bool.false_eq_true, if_false, listAllocateNode, Option.isSome_none, nodeSize, h16, hm, h0, hcap,
    Out.ret_bind', failed_success, initBack, initFront, storePrev, deref, hd, Out.ub_bind']

example : listOp (α := Nat) ⟨⟨none, 0, 4, false, none, none, some 7, 64, none⟩, bufferMem 19 4, exLW⟩
    (.pushBack (some 1)) = .ub .uaf :=
  C48_short_buffer_negation (esz := 4) (b := 7) (cap := 64) (bytes := 19) (st := stSuccess)
    (by decide) (by decide) (by decide) rfl (Or.inl ⟨_, rfl⟩)

/-- One byte more and the same call succeeds. -/
example : ((listOp (α := Nat) ⟨⟨none, 0, 4, false, none, none, some 7, 64, none⟩, bufferMem 20 4, exLW⟩
    (.pushBack (some 1))).bind fun r => .ret r.1) = .ret stSuccess := by decide +kernel

end Zy
