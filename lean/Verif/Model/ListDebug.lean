import Verif.Model.List
import Verif.Model.VectorDebug

/-!
# Model of src/List.c in a build with assertions

The functions of src/List.c that contain a `ZYAN_ASSERT` or reach one. A failed assertion is the outcome
`.ub .assertion`. `ZyanListAllocateNode` asserts only that the object pointers and the allocator callback are
not null (src/List.c lines 62, 63 and 68), which the simplifications below exclude, so that the functions
which insert nodes are those of `Model/List.lean`.

Simplifications: as in `Model/List.lean`; the object pointers and the callbacks of an allocator are not null.
-/

namespace Zy

variable {α : Type}

/-- `ZyanListDeallocateNode`: src/List.c lines 100-118, with the assertion of line 103. -/
def listDeallocateNodeD (s : LS α) (p : Option Nat) : Out (Status × LS α) :=
  assertThat p.isSome <|
  match s.l.allocator with
  | some a =>
    (nodeDeallocate s a p).bind fun r =>
      if failed r.1 then .ret r else .ret (stSuccess, r.2)
  | none =>
    (storeNext s p s.l.firstUnused).bind fun s =>
      .ret (stSuccess, { s with l := { s.l with firstUnused := p } })

/-- `ZyanListDestroy`: src/List.c lines 182-212, with the assertion of line 189. -/
def listDestroyD (s : LS α) : Out (Status × LS α) :=
  assertThat (s.l.esz ≠ 0) <|
  (freeAll s).bind fun r =>
    match r.1 with
    | some st => .ret (st, r.2)
    | none => .ret (stSuccess, r.2)

/-- `ZyanListSetNodeData`: src/List.c lines 316-332, with the assertion of line 328 (after the destructor). -/
def listSetNodeDataD (s : LS α) (p : Option Nat) (value : LSrc α) : Out (Status × LS α) :=
  if p.isNone || value.isNull then .ret (stInvalidArgument, s)
  else
    (destroyData s p).bind fun s =>
    assertThat (s.l.esz ≠ 0) <|
    (copyData s p value).bind fun s => .ret (stSuccess, s)

/-- `ZyanListPopBack`: src/List.c lines 462-492. -/
def listPopBackD (s : LS α) : Out (Status × LS α) :=
  if s.l.tail.isNone then .ret (stInvalidOperation, s)
  else
    let node := s.l.tail
    (destroyData s node).bind fun s =>
    (unlinkTail s node).bind fun s =>
      let s := if s.l.head = node then { s with l := { s.l with head := s.l.tail } } else s
      listDeallocateNodeD { s with l := { s.l with size := sub64 s.l.size 1 } } node

/-- `ZyanListPopFront`: src/List.c lines 494-524. -/
def listPopFrontD (s : LS α) : Out (Status × LS α) :=
  if s.l.head.isNone then .ret (stInvalidOperation, s)
  else
    let node := s.l.head
    (destroyData s node).bind fun s =>
    (unlinkHead s node).bind fun s =>
      let s := if s.l.tail = node then { s with l := { s.l with tail := s.l.head } } else s
      listDeallocateNodeD { s with l := { s.l with size := sub64 s.l.size 1 } } node

/-- The shrinking loop of `ZyanListResizeEx`: src/List.c lines 631-647. -/
def shrinkLoopD (s : LS α) : Nat → Out (Option Status × LS α)
  | 0 => .ret (none, s)
  | k + 1 =>
    let node := s.l.tail
    (destroyData s node).bind fun s =>
    (unlinkTail s node).bind fun s =>
    (listDeallocateNodeD s node).bind fun r =>
    if failed r.1 then .ret (some r.1, r.2) else shrinkLoopD r.2 k

/-- `ZyanListResizeEx`: src/List.c lines 561-653. -/
def listResizeExD (s : LS α) (size : Nat) (init : LSrc α) : Out (Status × LS α) :=
  if size = s.l.size then .ret (stSuccess, s)
  else if size = 0 then
    (freeAll s).bind fun r =>
      match r.1 with
      | some st => .ret (st, r.2)
      | none =>
        .ret (stSuccess, { r.2 with
          l := { r.2.l with size := 0, head := none, tail := none, firstUnused := none } })
  else if size > s.l.size then growLoop init s (size - s.l.size)
  else
    (shrinkLoopD s (s.l.size - size)).bind fun r =>
      match r.1 with
      | some st => .ret (st, r.2)
      | none => .ret (stSuccess, { r.2 with l := { r.2.l with size := size } })

end Zy
