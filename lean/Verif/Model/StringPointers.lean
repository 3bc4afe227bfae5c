import Verif.Model.Pointers
import Verif.Model.String

/-!
# Views of strings that are kept over calls

A `ZyanStringView` made by `ZyanStringViewInsideViewEx` (src/String.c lines 262-279) from
`ZYAN_STRING_TO_VIEW(string)` has the data pointer of the string plus the index. `View` in `Model/String` is what is
behind that pointer at the time of the call; here the pointer itself is kept. A reallocation ends the life of the old
block, also if the new one is at the same place (C11, 7.22.3.5).
-/

namespace Zy

/-- A view that points into the storage of a string. -/
structure KeptView where
  ptr : EPtr
  size : Nat
deriving DecidableEq, Repr

/-- `ZyanStringViewInsideViewEx(&view, ZYAN_STRING_TO_VIEW(string), index, count)`: src/String.c lines 262-279. -/
def keepView (t : Str) (index count : Nat) : Status × Option KeptView :=
  if add64 index count ≥ t.s.v.size then (stOutOfRange, none)
  else match t.s.v.data with
    | none => (stSuccess, none)
    | some b => (stSuccess, some ⟨⟨b.id, index⟩, count⟩)

/-- What the functions on views see when they are given the view now (for example src/String.c lines 336-354). -/
def seeView (t : Str) (k : KeptView) : Out View :=
  withData t.s.v.data fun b => if k.ptr.blk = b.id then .ret ⟨b.cells.drop k.ptr.slot, k.size⟩ else .ub .uaf

end Zy
