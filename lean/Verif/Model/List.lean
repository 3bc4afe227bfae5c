import Verif.Model.Vector

/-!
# Model of src/List.c

Simplifications, stated once for the whole file:

* The heap is a map from node addresses to nodes. A node is a `ZyanListNode` together with the element
  stored behind it (`ZYCORE_LIST_GET_NODE_DATA`, List.c lines 42-43), so memory granularity is one
  node. For a dynamic list an address is the identity of an allocated block; for a list on a caller
  buffer it is the byte offset into the buffer, and only offsets at which a whole node lies inside of
  the buffer on the grid of node sizes are accessible (two overlapping nodes can therefore not both be
  accessible). Alignment of the addresses is not part of the outcome; it is a separate property.
* Link fields are `Cell (Option Nat)`: `none` is an indeterminate pointer, `some none` is `NULL`.
* The `list` pointer itself and pointers receiving results are assumed to be non-null.
* `ZYAN_ASSERT`s are not aborts.
* `++list->size` and `--list->size` wrap modulo `2^64`.
-/

namespace Zy

/-- `ZyanListNode`: include/Zycore/List.h lines 54-64, together with the element behind it. -/
structure LNode (α : Type) where
  prev : Cell (Option Nat)
  next : Cell (Option Nat)
  data : Cell α
deriving DecidableEq, Repr

/-- `ZyanList`: include/Zycore/List.h lines 72-125 (`none` is the null pointer; of `buffer` only the
identity is kept). -/
structure ZList where
  allocator : Option Nat
  size : Nat
  esz : Nat
  hasDtor : Bool
  head : Option Nat
  tail : Option Nat
  buffer : Option Nat
  capacity : Nat
  firstUnused : Option Nat
deriving DecidableEq, Repr

/-- The environment of a list: the statuses that successive `allocate` and `deallocate` calls return,
and what happened so far. -/
structure LWorld (α : Type) where
  /-- status returned by the `k`-th `allocate` call -/
  allocSt : Nat → Status
  /-- status returned by the `k`-th `deallocate` call -/
  freeSt : Nat → Status
  /-- `allocate` calls made so far -/
  calls : Nat
  /-- `deallocate` calls made so far -/
  frees : Nat
  /-- next unused block identity -/
  nextBlk : Nat
  /-- events so far, oldest first -/
  trace : List (Event α)

/-- A list together with the memory and its environment. -/
structure LS (α : Type) where
  l : ZList
  mem : Nat → Option (LNode α)
  w : LWorld α

variable {α : Type}

/-- Append an event to the trace. -/
def LS.log (s : LS α) (e : Event α) : LS α := { s with w := { s.w with trace := s.w.trace ++ [e] } }

/-- Replace the content of one address. -/
def LS.put (s : LS α) (a : Nat) (n : Option (LNode α)) : LS α :=
  { s with mem := fun b => if b = a then n else s.mem b }

/-- Dereference of a node pointer. -/
def deref (s : LS α) (p : Option Nat) : Out (Nat × LNode α) :=
  match p with
  | none => .ub .null
  | some a => match s.mem a with
    | none => .ub .uaf
    | some n => .ret (a, n)

/-- Use of a loaded pointer: an indeterminate one must not be used. -/
def useptr (c : Cell (Option Nat)) : Out (Option Nat) :=
  match c with
  | none => .ub .indet
  | some p => .ret p

/-- The load `node->next`. -/
def loadNext (s : LS α) (p : Option Nat) : Out (Option Nat) :=
  (deref s p).bind fun r => useptr r.2.next

/-- The load `node->prev`. -/
def loadPrev (s : LS α) (p : Option Nat) : Out (Option Nat) :=
  (deref s p).bind fun r => useptr r.2.prev

/-- The store `node->next = v`. -/
def storeNext (s : LS α) (p v : Option Nat) : Out (LS α) :=
  (deref s p).bind fun r => .ret (s.put r.1 (some { r.2 with next := some v }))

/-- The store `node->prev = v`. -/
def storePrev (s : LS α) (p v : Option Nat) : Out (LS α) :=
  (deref s p).bind fun r => .ret (s.put r.1 (some { r.2 with prev := some v }))

/-- A pointer argument that supplies an element: null, memory unrelated to the list, or the data of a
node of the list (`ZyanListGetNodeData`). -/
inductive LSrc (α : Type) where
  | null
  | ext (x : Cell α)
  | node (a : Nat)
deriving DecidableEq, Repr

/-- The test `!pointer`. -/
def LSrc.isNull : LSrc α → Bool
  | .null => true
  | _ => false

/-- Read the element behind an element pointer. -/
def readSrc (s : LS α) : LSrc α → Out (Cell α)
  | .null => .ub .null
  | .ext x => .ret x
  | .node a => (deref s (some a)).bind fun r => .ret r.2.data

/-- `ZYAN_MEMCPY(ZYCORE_LIST_GET_NODE_DATA(node), item, element_size)`. -/
def copyData (s : LS α) (p : Option Nat) (src : LSrc α) : Out (LS α) :=
  (readSrc s src).bind fun x =>
  (deref s p).bind fun r => .ret (s.put r.1 (some { r.2 with data := x }))

/-- `if (list->destructor) list->destructor(ZYCORE_LIST_GET_NODE_DATA(node))`. -/
def destroyData (s : LS α) (p : Option Nat) : Out (LS α) :=
  if s.l.hasDtor then (deref s p).bind fun r => .ret (s.log (.destroy r.2.data)) else .ret s

/-! ## Internal functions -/

/-- `sizeof(ZyanListNode) + list->element_size` (two pointers and the element, in `ZyanUSize`). -/
def nodeSize (l : ZList) : Nat := add64 16 l.esz

/-- `list->allocator->allocate(list->allocator, &node, nodeSize, 1)`: src/Allocator.c lines 40-56, with
the outcome chosen by the environment. The new node is accessible only if the block is large enough
for it, i.e. if the computation of the node size did not wrap. -/
def nodeAllocate (s : LS α) (a : Nat) : Status × Option Nat × LS α :=
  let st := s.w.allocSt s.w.calls
  let s := { s with w := { s.w with calls := s.w.calls + 1 } }
  if failed st then (st, none, s.log (.refused a))
  else
    let p := s.w.nextBlk
    let s := { s with w := { s.w with nextBlk := p + 1 } }
    let s := s.put p (if nodeSize s.l = 16 + s.l.esz then some ⟨none, none, none⟩ else none)
    (st, some p, s.log (.alloc a p (nodeSize s.l) 1))

/-- `list->allocator->deallocate(list->allocator, node, nodeSize, 1)`: src/Allocator.c lines 80-94. The
node is gone if the call succeeds. Passing something that is not a live node is undefined. -/
def nodeDeallocate (s : LS α) (a : Nat) (p : Option Nat) : Out (Status × LS α) :=
  (deref s p).bind fun r =>
    let st := s.w.freeSt s.w.frees
    let s := { s with w := { s.w with frees := s.w.frees + 1 } }
    if failed st then .ret (st, s.log (.refused a))
    else .ret (st, (s.put r.1 none).log (.dealloc a r.1 (nodeSize s.l) 1))

/-- `ZyanListAllocateNode`: src/List.c lines 60-90. -/
def listAllocateNode (s : LS α) : Out (Status × Option Nat × LS α) :=
  match s.l.allocator with
  | some a =>
    let r := nodeAllocate s a
    if failed r.1 then .ret r else .ret (stSuccess, r.2)
  | none =>
    if s.l.firstUnused.isSome then
      (loadNext s s.l.firstUnused).bind fun n =>
        .ret (stSuccess, s.l.firstUnused, { s with l := { s.l with firstUnused := n } })
    else
      let size := mul64 s.l.size (nodeSize s.l)
      if add64 size (nodeSize s.l) > s.l.capacity then .ret (stInsufficient, none, s)
      else .ret (stSuccess, some size, s)

/-- `ZyanListDeallocateNode`: src/List.c lines 100-118. -/
def listDeallocateNode (s : LS α) (p : Option Nat) : Out (Status × LS α) :=
  match s.l.allocator with
  | some a =>
    (nodeDeallocate s a p).bind fun r =>
      if failed r.1 then .ret r else .ret (stSuccess, r.2)
  | none =>
    (storeNext s p s.l.firstUnused).bind fun s =>
      .ret (stSuccess, { s with l := { s.l with firstUnused := p } })

/-! ## Constructor and destructor -/

/-- `ZyanListInitEx`: src/List.c lines 140-159. -/
def listInitEx (esz : Nat) (hasDtor : Bool) (allocator : Option Nat) : Status × Option ZList :=
  if esz = 0 ∨ allocator = none then (stInvalidArgument, none)
  else (stSuccess, some ⟨allocator, 0, esz, hasDtor, none, none, none, 0, none⟩)

/-- `ZyanListInit`: src/List.c lines 132-136 (`ZyanAllocatorDefault` is allocator 0). -/
def listInit (esz : Nat) (hasDtor : Bool) : Status × Option ZList := listInitEx esz hasDtor (some 0)

/-- `ZyanListInitCustomBuffer`: src/List.c lines 161-180. -/
def listInitBuffer (esz : Nat) (hasDtor : Bool) (buffer : Option Nat) (capacity : Nat) :
    Status × Option ZList :=
  if esz = 0 ∨ buffer = none ∨ capacity = 0 then (stInvalidArgument, none)
  else (stSuccess, some ⟨none, 0, esz, hasDtor, none, none, buffer, capacity, none⟩)

/-- The memory of a caller buffer of `bytes` bytes, seen as nodes of elements of `esz` bytes: every slot
that lies completely inside of the buffer. Nothing has been written to it. -/
def bufferMem (bytes esz : Nat) : Nat → Option (LNode α) := fun a =>
  if a % (16 + esz) = 0 ∧ a + (16 + esz) ≤ bytes then some ⟨none, none, none⟩ else none

/-- The loop over all nodes shared by `ZyanListDestroy` (src/List.c lines 193-209) and
`ZyanListResizeEx` (lines 574-592): destructor, load of the successor, deallocation. The first
component is the status that makes the function return early, if any. `fuel` bounds the number of
nodes; the chain is never longer than the list size. -/
def freeLoop (s : LS α) (p : Option Nat) : Nat → Out (Option Status × LS α)
  | 0 => if p.isSome then .ub .diverge else .ret (none, s)
  | fuel + 1 =>
    if p.isSome then
      (destroyData s p).bind fun s =>
      (loadNext s p).bind fun next =>
      match s.l.allocator with
      | some a =>
        (nodeDeallocate s a p).bind fun r =>
          if failed r.1 then .ret (some r.1, r.2) else freeLoop r.2 next fuel
      | none => freeLoop s next fuel
    else .ret (none, s)

/-- The start of that loop: `(is_dynamic || list->destructor) ? list->head : ZYAN_NULL`. -/
def freeAll (s : LS α) : Out (Option Status × LS α) :=
  freeLoop s (if s.l.allocator.isSome || s.l.hasDtor then s.l.head else none) s.l.size

/-- `ZyanListDestroy`: src/List.c lines 182-212. -/
def listDestroy (s : LS α) : Out (Status × LS α) :=
  (freeAll s).bind fun r =>
    match r.1 with
    | some st => .ret (st, r.2)
    | none => .ret (stSuccess, r.2)

/-! ## Item access -/

/-- `ZyanListGetHeadNode`: src/List.c lines 224-234. -/
def listGetHead (s : LS α) : Status × Option Nat := (stSuccess, s.l.head)

/-- `ZyanListGetTailNode`: src/List.c lines 236-246. -/
def listGetTail (s : LS α) : Status × Option Nat := (stSuccess, s.l.tail)

/-- `ZyanListGetPrevNode`: src/List.c lines 248-258 (the node pointer is left alone on an error). -/
def listGetPrev (s : LS α) (p : Option Nat) : Out (Status × Option Nat) :=
  if p.isNone then .ret (stInvalidArgument, p)
  else (loadPrev s p).bind fun q => .ret (stSuccess, q)

/-- `ZyanListGetNextNode`: src/List.c lines 260-270. -/
def listGetNext (s : LS α) (p : Option Nat) : Out (Status × Option Nat) :=
  if p.isNone then .ret (stInvalidArgument, p)
  else (loadNext s p).bind fun q => .ret (stSuccess, q)

/-- `ZyanListGetNodeData`, `ZyanListGetNodeDataMutable`: src/List.c lines 272-280 and 294-302. -/
def listNodeData (p : Option Nat) : LSrc α :=
  match p with
  | none => .null
  | some a => .node a

/-- `ZyanListGetNodeDataEx`, `ZyanListGetNodeDataMutableEx`: src/List.c lines 282-292 and 304-314. -/
def listNodeDataEx (p : Option Nat) : Status × Option (LSrc α) :=
  match p with
  | none => (stInvalidArgument, none)
  | some a => (stSuccess, some (.node a))

/-- `ZYAN_LIST_GET`: include/Zycore/List.h lines 164-171. -/
def listGet (s : LS α) (p : Option Nat) : Out (Cell α) := readSrc s (listNodeData p)

/-- `ZyanListSetNodeData`: src/List.c lines 316-332. -/
def listSetNodeData (s : LS α) (p : Option Nat) (value : LSrc α) : Out (Status × LS α) :=
  if p.isNone || value.isNull then .ret (stInvalidArgument, s)
  else
    (destroyData s p).bind fun s =>
    (copyData s p value).bind fun s => .ret (stSuccess, s)

/-! ## Insertion -/

/-- The initialisation of a node at the end: `node->prev = list->tail; node->next = ZYAN_NULL;`
(src/List.c lines 347-348, 403-404, 608-609). -/
def initBack (s : LS α) (p : Option Nat) : Out (LS α) :=
  (storePrev s p s.l.tail).bind fun s => storeNext s p none

/-- The initialisation of a node at the front: `node->prev = ZYAN_NULL; node->next = list->head;`
(src/List.c lines 375-376, 435-436). -/
def initFront (s : LS α) (p : Option Nat) : Out (LS α) :=
  (storePrev s p none).bind fun s => storeNext s p s.l.head

/-- Linking of a node at the end and `++list->size`: src/List.c lines 352-361, 412-421, 616-627. -/
def linkBack (s : LS α) (p : Option Nat) : Out (LS α) :=
  (if s.l.head.isNone then .ret { s with l := { s.l with head := p, tail := p } }
   else (storeNext s s.l.tail p).bind fun s => .ret { s with l := { s.l with tail := p } }).bind
  fun s => .ret { s with l := { s.l with size := add64 s.l.size 1 } }

/-- Linking of a node at the front and `++list->size`: src/List.c lines 380-389, 444-453. -/
def linkFront (s : LS α) (p : Option Nat) : Out (LS α) :=
  (if s.l.head.isNone then .ret { s with l := { s.l with head := p, tail := p } }
   else (storePrev s s.l.head p).bind fun s => .ret { s with l := { s.l with head := p } }).bind
  fun s => .ret { s with l := { s.l with size := add64 s.l.size 1 } }

/-- `constructor(*item)` for a constructor that may be null; its status is ignored: src/List.c lines
406-410 and 438-442. -/
def construct (s : LS α) (p : Option Nat) (ctor : Ctor α) : Out (LS α) :=
  match ctor with
  | none => .ret s
  | some f => (deref s p).bind fun r => .ret (s.put r.1 (some { r.2 with data := (f r.2.data).2 }))

/-- `ZyanListPushBack`: src/List.c lines 338-364. -/
def listPushBack (s : LS α) (item : LSrc α) : Out (Status × LS α) :=
  if item.isNull then .ret (stInvalidArgument, s)
  else
    (listAllocateNode s).bind fun r =>
    if failed r.1 then .ret (r.1, r.2.2)
    else
      (initBack r.2.2 r.2.1).bind fun s =>
      (copyData s r.2.1 item).bind fun s =>
      (linkBack s r.2.1).bind fun s => .ret (stSuccess, s)

/-- `ZyanListPushFront`: src/List.c lines 366-392. -/
def listPushFront (s : LS α) (item : LSrc α) : Out (Status × LS α) :=
  if item.isNull then .ret (stInvalidArgument, s)
  else
    (listAllocateNode s).bind fun r =>
    if failed r.1 then .ret (r.1, r.2.2)
    else
      (initFront r.2.2 r.2.1).bind fun s =>
      (copyData s r.2.1 item).bind fun s =>
      (linkFront s r.2.1).bind fun s => .ret (stSuccess, s)

/-- `ZyanListEmplaceBack`: src/List.c lines 394-424. -/
def listEmplaceBack (s : LS α) (ctor : Ctor α) : Out (Status × LS α) :=
  (listAllocateNode s).bind fun r =>
  if failed r.1 then .ret (r.1, r.2.2)
  else
    (initBack r.2.2 r.2.1).bind fun s =>
    (construct s r.2.1 ctor).bind fun s =>
    (linkBack s r.2.1).bind fun s => .ret (stSuccess, s)

/-- `ZyanListEmplaceFront`: src/List.c lines 426-456. -/
def listEmplaceFront (s : LS α) (ctor : Ctor α) : Out (Status × LS α) :=
  (listAllocateNode s).bind fun r =>
  if failed r.1 then .ret (r.1, r.2.2)
  else
    (initFront r.2.2 r.2.1).bind fun s =>
    (construct s r.2.1 ctor).bind fun s =>
    (linkFront s r.2.1).bind fun s => .ret (stSuccess, s)

/-! ## Deletion -/

/-- `list->tail = node->prev; if (list->tail) list->tail->next = ZYAN_NULL;` for the present tail
(src/List.c lines 480-484, 640-644). -/
def unlinkTail (s : LS α) (p : Option Nat) : Out (LS α) :=
  (loadPrev s p).bind fun q =>
    let s := { s with l := { s.l with tail := q } }
    if q.isSome then storeNext s q none else .ret s

/-- `list->head = node->next; if (list->head) list->head->prev = ZYAN_NULL;` for the present head
(src/List.c lines 512-516). -/
def unlinkHead (s : LS α) (p : Option Nat) : Out (LS α) :=
  (loadNext s p).bind fun q =>
    let s := { s with l := { s.l with head := q } }
    if q.isSome then storePrev s q none else .ret s

/-- `ZyanListPopBack`: src/List.c lines 462-492. -/
def listPopBack (s : LS α) : Out (Status × LS α) :=
  if s.l.tail.isNone then .ret (stInvalidOperation, s)
  else
    let node := s.l.tail
    (destroyData s node).bind fun s =>
    (unlinkTail s node).bind fun s =>
      let s := if s.l.head = node then { s with l := { s.l with head := s.l.tail } } else s
      listDeallocateNode { s with l := { s.l with size := sub64 s.l.size 1 } } node

/-- `ZyanListPopFront`: src/List.c lines 494-524. -/
def listPopFront (s : LS α) : Out (Status × LS α) :=
  if s.l.head.isNone then .ret (stInvalidOperation, s)
  else
    let node := s.l.head
    (destroyData s node).bind fun s =>
    (unlinkHead s node).bind fun s =>
      let s := if s.l.tail = node then { s with l := { s.l with tail := s.l.head } } else s
      listDeallocateNode { s with l := { s.l with size := sub64 s.l.size 1 } } node

/-- `ZyanListRemove`: src/List.c lines 526-531 (a stub). -/
def listRemove (s : LS α) (_node : Option Nat) : Out (Status × LS α) := .ret (stSuccess, s)

/-- `ZyanListRemoveRange`: src/List.c lines 533-539 (a stub). -/
def listRemoveRange (s : LS α) (_first _last : Option Nat) : Out (Status × LS α) :=
  .ret (stSuccess, s)

/-! ## Memory management -/

/-- The growing loop of `ZyanListResizeEx`: src/List.c lines 604-628, for `k` remaining nodes. -/
def growLoop (init : LSrc α) (s : LS α) : Nat → Out (Status × LS α)
  | 0 => .ret (stSuccess, s)
  | k + 1 =>
    (listAllocateNode s).bind fun r =>
    if failed r.1 then .ret (r.1, r.2.2)
    else
      (initBack r.2.2 r.2.1).bind fun s =>
      (if init.isNull then .ret s else copyData s r.2.1 init).bind fun s =>
      (linkBack s r.2.1).bind fun s => growLoop init s k

/-- The shrinking loop of `ZyanListResizeEx`: src/List.c lines 631-647, for `k` remaining nodes. The
first component is the status that makes the function return early, if any. -/
def shrinkLoop (s : LS α) : Nat → Out (Option Status × LS α)
  | 0 => .ret (none, s)
  | k + 1 =>
    let node := s.l.tail
    (destroyData s node).bind fun s =>
    (unlinkTail s node).bind fun s =>
    (listDeallocateNode s node).bind fun r =>
    if failed r.1 then .ret (some r.1, r.2) else shrinkLoop r.2 k

/-- `ZyanListResizeEx`: src/List.c lines 561-653. -/
def listResizeEx (s : LS α) (size : Nat) (init : LSrc α) : Out (Status × LS α) :=
  if size = s.l.size then .ret (stSuccess, s)
  else if size = 0 then
    (freeAll s).bind fun r =>
      match r.1 with
      | some st => .ret (st, r.2)
      | none =>
        .ret (stSuccess, { r.2 with
          l := { r.2.l with size := 0, head := none, tail := none, firstUnused := none } })
  else if size > s.l.size then growLoop init s (size - s.l.size)
  else
    (shrinkLoop s (s.l.size - size)).bind fun r =>
      match r.1 with
      | some st => .ret (st, r.2)
      | none => .ret (stSuccess, { r.2 with l := { r.2.l with size := size } })

/-- `ZyanListResize`: src/List.c lines 556-559. -/
def listResize (s : LS α) (size : Nat) : Out (Status × LS α) := listResizeEx s size .null

/-- `ZyanListClear`: src/List.c lines 541-544. -/
def listClear (s : LS α) : Out (Status × LS α) := listResizeEx s 0 .null

/-! ## Information -/

/-- `ZyanListGetSize`: src/List.c lines 659-669. -/
def listGetSize (s : LS α) : Status × Nat := (stSuccess, s.l.size)

end Zy
