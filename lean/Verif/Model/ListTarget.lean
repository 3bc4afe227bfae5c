import Verif.Model.List
import Verif.Model.VectorWord

/-!
# Lists on targets with another width of `size_t` and of pointers

The functions of src/List.c that compute with sizes once more, for an arbitrary target: the number of values of
`size_t` and the number of bytes of a pointer are parameters (class `Target`, an implicit argument of every
function). The header of a node consists of two pointers (include/Zycore/List.h lines 54-64), so its size and
with it the place of every node in a caller buffer depend on the target. The other functions are those of
`Model/List.lean`; the simplifications stated there apply. All names of this file are in the namespace `Zy.LT`.
-/

namespace Zy.LT

/-- A target: the number of values of `size_t` and the number of bytes of a pointer. -/
class Target where
  word : Nat
  ptr : Nat
  /-- `size_t` can represent more than zero -/
  word_gt : 1 < word
  /-- a pointer takes memory -/
  ptr_pos : 0 < ptr

variable [T : Target] {α : Type}

/-- The C operators on `size_t`. -/
def addT (a b : Nat) : Nat := addW T.word a b
@[inherit_doc addT] def subT (a b : Nat) : Nat := subW T.word a b
@[inherit_doc addT] def mulT (a b : Nat) : Nat := mulW T.word a b

/-- `sizeof(ZyanListNode)`, two pointers: include/Zycore/List.h lines 54-64. -/
def hdr : Nat := 2 * T.ptr

/-- `sizeof(ZyanListNode) + list->element_size` (two pointers and the element, in `ZyanUSize`). -/
def nodeSize (l : ZList) : Nat := addT hdr l.esz

/-- `list->allocator->allocate(list->allocator, &node, nodeSize, 1)`: src/Allocator.c lines 40-56, with
the outcome chosen by the environment. The new node is accessible only if the block is large enough
for it, i.e. if the computation of the node size did not wrap. -/
def nodeAllocate (s : LS α) (a : Nat) : Status × Option Nat × LS α :=
  let st := s.w.allocSt s.w.calls
  let s := { s with w := { s.w with calls := s.w.calls + 1 } }
  if failed st then (st, none, s.log (.refused a))
  else
    let p := s.w.nextBlk
    let s := { s with w := { s.w with nextBlk := p + 1 } }
    let s := s.put p (if nodeSize s.l = hdr + s.l.esz then some ⟨none, none, none⟩ else none)
    (st, some p, s.log (.alloc a p (nodeSize s.l) 1))

/-- `list->allocator->deallocate(list->allocator, node, nodeSize, 1)`: src/Allocator.c lines 80-94. The
node is gone if the call succeeds. Passing something that is not a live node is undefined. -/
def nodeDeallocate (s : LS α) (a : Nat) (p : Option Nat) : Out (Status × LS α) :=
  (deref s p).bind fun r =>
    let st := s.w.freeSt s.w.frees
    let s := { s with w := { s.w with frees := s.w.frees + 1 } }
    if failed st then .ret (st, s.log (.refused a))
    else .ret (st, (s.put r.1 none).log (.dealloc a r.1 (nodeSize s.l) 1))

/-- `ZyanListAllocateNode`: src/List.c lines 60-90. -/
def listAllocateNode (s : LS α) : Out (Status × Option Nat × LS α) :=
  match s.l.allocator with
  | some a =>
    let r := nodeAllocate s a
    if failed r.1 then .ret r else .ret (stSuccess, r.2)
  | none =>
    if s.l.firstUnused.isSome then
      (loadNext s s.l.firstUnused).bind fun n =>
        .ret (stSuccess, s.l.firstUnused, { s with l := { s.l with firstUnused := n } })
    else
      let size := mulT s.l.size (nodeSize s.l)
      if addT size (nodeSize s.l) > s.l.capacity then .ret (stInsufficient, none, s)
      else .ret (stSuccess, some size, s)

/-- `ZyanListDeallocateNode`: src/List.c lines 100-118. -/
def listDeallocateNode (s : LS α) (p : Option Nat) : Out (Status × LS α) :=
  match s.l.allocator with
  | some a =>
    (nodeDeallocate s a p).bind fun r =>
      if failed r.1 then .ret r else .ret (stSuccess, r.2)
  | none =>
    (storeNext s p s.l.firstUnused).bind fun s =>
      .ret (stSuccess, { s with l := { s.l with firstUnused := p } })

/-- The memory of a caller buffer of `bytes` bytes, seen as nodes of elements of `esz` bytes: every slot
that lies completely inside of the buffer. Nothing has been written to it. -/
def bufferMem (bytes esz : Nat) : Nat → Option (LNode α) := fun a =>
  if a % (hdr + esz) = 0 ∧ a + (hdr + esz) ≤ bytes then some ⟨none, none, none⟩ else none

/-- The loop over all nodes shared by `ZyanListDestroy` (src/List.c lines 193-209) and
`ZyanListResizeEx` (lines 574-592): destructor, load of the successor, deallocation. The first
component is the status that makes the function return early, if any. `fuel` bounds the number of
nodes; the chain is never longer than the list size. -/
def freeLoop (s : LS α) (p : Option Nat) : Nat → Out (Option Status × LS α)
  | 0 => if p.isSome then .ub .diverge else .ret (none, s)
  | fuel + 1 =>
    if p.isSome then
      (destroyData s p).bind fun s =>
      (loadNext s p).bind fun next =>
      match s.l.allocator with
      | some a =>
        (nodeDeallocate s a p).bind fun r =>
          if failed r.1 then .ret (some r.1, r.2) else freeLoop r.2 next fuel
      | none => freeLoop s next fuel
    else .ret (none, s)

/-- The start of that loop: `(is_dynamic || list->destructor) ? list->head : ZYAN_NULL`. -/
def freeAll (s : LS α) : Out (Option Status × LS α) :=
  freeLoop s (if s.l.allocator.isSome || s.l.hasDtor then s.l.head else none) s.l.size

/-- `ZyanListDestroy`: src/List.c lines 182-212. -/
def listDestroy (s : LS α) : Out (Status × LS α) :=
  (freeAll s).bind fun r =>
    match r.1 with
    | some st => .ret (st, r.2)
    | none => .ret (stSuccess, r.2)

/-- Linking of a node at the end and `++list->size`: src/List.c lines 352-361, 412-421, 616-627. -/
def linkBack (s : LS α) (p : Option Nat) : Out (LS α) :=
  (if s.l.head.isNone then .ret { s with l := { s.l with head := p, tail := p } }
   else (storeNext s s.l.tail p).bind fun s => .ret { s with l := { s.l with tail := p } }).bind
  fun s => .ret { s with l := { s.l with size := addT s.l.size 1 } }

/-- Linking of a node at the front and `++list->size`: src/List.c lines 380-389, 444-453. -/
def linkFront (s : LS α) (p : Option Nat) : Out (LS α) :=
  (if s.l.head.isNone then .ret { s with l := { s.l with head := p, tail := p } }
   else (storePrev s s.l.head p).bind fun s => .ret { s with l := { s.l with head := p } }).bind
  fun s => .ret { s with l := { s.l with size := addT s.l.size 1 } }

/-- `ZyanListPushBack`: src/List.c lines 338-364. -/
def listPushBack (s : LS α) (item : LSrc α) : Out (Status × LS α) :=
  if item.isNull then .ret (stInvalidArgument, s)
  else
    (listAllocateNode s).bind fun r =>
    if failed r.1 then .ret (r.1, r.2.2)
    else
      (initBack r.2.2 r.2.1).bind fun s =>
      (copyData s r.2.1 item).bind fun s =>
      (linkBack s r.2.1).bind fun s => .ret (stSuccess, s)

/-- `ZyanListPushFront`: src/List.c lines 366-392. -/
def listPushFront (s : LS α) (item : LSrc α) : Out (Status × LS α) :=
  if item.isNull then .ret (stInvalidArgument, s)
  else
    (listAllocateNode s).bind fun r =>
    if failed r.1 then .ret (r.1, r.2.2)
    else
      (initFront r.2.2 r.2.1).bind fun s =>
      (copyData s r.2.1 item).bind fun s =>
      (linkFront s r.2.1).bind fun s => .ret (stSuccess, s)

/-- `ZyanListEmplaceBack`: src/List.c lines 394-424. -/
def listEmplaceBack (s : LS α) (ctor : Ctor α) : Out (Status × LS α) :=
  (listAllocateNode s).bind fun r =>
  if failed r.1 then .ret (r.1, r.2.2)
  else
    (initBack r.2.2 r.2.1).bind fun s =>
    (construct s r.2.1 ctor).bind fun s =>
    (linkBack s r.2.1).bind fun s => .ret (stSuccess, s)

/-- `ZyanListEmplaceFront`: src/List.c lines 426-456. -/
def listEmplaceFront (s : LS α) (ctor : Ctor α) : Out (Status × LS α) :=
  (listAllocateNode s).bind fun r =>
  if failed r.1 then .ret (r.1, r.2.2)
  else
    (initFront r.2.2 r.2.1).bind fun s =>
    (construct s r.2.1 ctor).bind fun s =>
    (linkFront s r.2.1).bind fun s => .ret (stSuccess, s)

/-- `ZyanListPopBack`: src/List.c lines 462-492. -/
def listPopBack (s : LS α) : Out (Status × LS α) :=
  if s.l.tail.isNone then .ret (stInvalidOperation, s)
  else
    let node := s.l.tail
    (destroyData s node).bind fun s =>
    (unlinkTail s node).bind fun s =>
      let s := if s.l.head = node then { s with l := { s.l with head := s.l.tail } } else s
      listDeallocateNode { s with l := { s.l with size := subT s.l.size 1 } } node

/-- `ZyanListPopFront`: src/List.c lines 494-524. -/
def listPopFront (s : LS α) : Out (Status × LS α) :=
  if s.l.head.isNone then .ret (stInvalidOperation, s)
  else
    let node := s.l.head
    (destroyData s node).bind fun s =>
    (unlinkHead s node).bind fun s =>
      let s := if s.l.tail = node then { s with l := { s.l with tail := s.l.head } } else s
      listDeallocateNode { s with l := { s.l with size := subT s.l.size 1 } } node

/-- The growing loop of `ZyanListResizeEx`: src/List.c lines 604-628, for `k` remaining nodes. -/
def growLoop (init : LSrc α) (s : LS α) : Nat → Out (Status × LS α)
  | 0 => .ret (stSuccess, s)
  | k + 1 =>
    (listAllocateNode s).bind fun r =>
    if failed r.1 then .ret (r.1, r.2.2)
    else
      (initBack r.2.2 r.2.1).bind fun s =>
      (if init.isNull then .ret s else copyData s r.2.1 init).bind fun s =>
      (linkBack s r.2.1).bind fun s => growLoop init s k

/-- The shrinking loop of `ZyanListResizeEx`: src/List.c lines 631-647, for `k` remaining nodes. The
first component is the status that makes the function return early, if any. -/
def shrinkLoop (s : LS α) : Nat → Out (Option Status × LS α)
  | 0 => .ret (none, s)
  | k + 1 =>
    let node := s.l.tail
    (destroyData s node).bind fun s =>
    (unlinkTail s node).bind fun s =>
    (listDeallocateNode s node).bind fun r =>
    if failed r.1 then .ret (some r.1, r.2) else shrinkLoop r.2 k

/-- `ZyanListResizeEx`: src/List.c lines 561-653. -/
def listResizeEx (s : LS α) (size : Nat) (init : LSrc α) : Out (Status × LS α) :=
  if size = s.l.size then .ret (stSuccess, s)
  else if size = 0 then
    (freeAll s).bind fun r =>
      match r.1 with
      | some st => .ret (st, r.2)
      | none =>
        .ret (stSuccess, { r.2 with
          l := { r.2.l with size := 0, head := none, tail := none, firstUnused := none } })
  else if size > s.l.size then growLoop init s (size - s.l.size)
  else
    (shrinkLoop s (s.l.size - size)).bind fun r =>
      match r.1 with
      | some st => .ret (st, r.2)
      | none => .ret (stSuccess, { r.2 with l := { r.2.l with size := size } })

/-- `ZyanListResize`: src/List.c lines 556-559. -/
def listResize (s : LS α) (size : Nat) : Out (Status × LS α) := listResizeEx s size .null

/-- `ZyanListClear`: src/List.c lines 541-544. -/
def listClear (s : LS α) : Out (Status × LS α) := listResizeEx s 0 .null

end Zy.LT
