import Verif.Model.ListTarget
import Verif.Spec.ListRun

/-!
# How the list specification is applied to lists on other targets

The same as in `Spec/List.lean` (`OneMore`, `LFits`, `LAllFit`) and `Spec/ListRun.lean` (`listOp`, `runList`,
`Created`), with the width of `size_t` and of pointers as parameters. The queue itself (`lstep`, `LRuns`) is that
of `Spec/List.lean`.
-/

namespace Zy.LT

open Spec

variable [T : Target] {α : Type}

/-- A list of `n` elements can count one more in `size_t`. (Only a matter of dynamic lists; a buffer
cannot hold that many.) -/
def OneMore (K : Source) (n : Nat) : Prop :=
  match K with
  | .dynamic _ => n + 1 < T.word
  | .fixed _ => True

/-- The number of elements of the list stays countable in `size_t`. -/
def LFits (K : Source) (s : Deque α) : LOp α → Prop
  | .resize n _ => n < T.word
  | _ => OneMore K s.elems.length

/-- No operation of the history makes the list too long, whatever the unspecified elements are. -/
inductive LAllFit (K : Source) (dtor : Bool) : Deque α → List (LOp α) → Prop where
  | nil (s : Deque α) : LAllFit K dtor s []
  | cons {s : Deque α} {op : LOp α} {ops : List (LOp α)} (h : LFits K s op)
      (t : ∀ junk, junk.length = ljunk s op → LAllFit K dtor (lstep K dtor junk s op).2 ops) :
      LAllFit K dtor s (op :: ops)

/-- Reading of an API operation as a call of the modelled function. -/
def listOp (s : LS α) : LOp α → Out (Status × LS α)
  | .pushBack x => listPushBack s (.ext x)
  | .pushFront x => listPushFront s (.ext x)
  | .pushBackOf i => (nodeAt s i).bind fun p => listPushBack s (listNodeData p)
  | .pushFrontOf i => (nodeAt s i).bind fun p => listPushFront s (listNodeData p)
  | .emplaceBack c => listEmplaceBack s c
  | .emplaceFront c => listEmplaceFront s c
  | .popBack => listPopBack s
  | .popFront => listPopFront s
  | .set i x => (nodeAt s i).bind fun p => listSetNodeData s p (.ext x)
  | .clear => listClear s
  | .resize n init => listResizeEx s n (linit init)

/-- A history of API calls: the statuses returned and the final state. -/
def runList (s : LS α) : List (LOp α) → Out (List Status × LS α)
  | [] => .ret ([], s)
  | op :: ops =>
    (listOp s op).bind fun r => (runList r.2 ops).bind fun q => .ret (r.1 :: q.1, q.2)

/-- A freshly initialised list: either a dynamic one, whose element size leaves room for the node
header and whose allocator always takes memory back, or one on a caller buffer with the stated number
of bytes at a place where the end of one more node is still addressable. `K` tells where its nodes come
from: a buffer of `cap` bytes has room for `cap / (hdr + esz)` nodes. -/
inductive Created : Source → Bool → LS α → Prop where
  | dynamic {esz a : Nat} {dtor : Bool} {w : LWorld α} {st : Status} {l : ZList} (hw : LFresh w)
      (hf : FreesSucceed w) (he : hdr + esz < T.word)
      (h : listInitEx esz dtor (some a) = (st, some l)) :
      Created (.dynamic w.allocSt) dtor ⟨l, fun _ => none, w⟩
  | fixed {esz b cap bytes : Nat} {dtor : Bool} {w : LWorld α} {st : Status} {l : ZList}
      (hw : LFresh w) (hc : cap + (hdr + esz) < T.word) (hb : cap ≤ bytes)
      (h : listInitBuffer esz dtor (some b) cap = (st, some l)) :
      Created (.fixed (cap / (hdr + esz))) dtor ⟨l, bufferMem bytes esz, w⟩

/-- Operations that leave no new element unspecified: what a constructor makes must not depend on what was in
the memory before. -/
def Specified : LOp α → Prop
  | .emplaceBack none => False
  | .emplaceFront none => False
  | .emplaceBack (some f) => ∀ x y, f x = f y
  | .emplaceFront (some f) => ∀ x y, f x = f y
  | .resize _ none => False
  | _ => True

/-- A usual target with 64-bit pointers and `size_t`. -/
@[reducible] def target64 : Target := ⟨18446744073709551616, 8, by decide, by decide⟩
/-- A usual target with 32-bit pointers and `size_t`. -/
@[reducible] def target32 : Target := ⟨4294967296, 4, by decide, by decide⟩

end Zy.LT
