import Verif.Model.String

/-!
# Model of string views as objects

A `ZyanStringView` is a whole `ZyanString` (include/Zycore/String.h lines 131-140), so it has a field
`element_size` like every vector. The functions that make views write the data pointer and the size and
leave the other fields as they are. `ZyanStringGetChar` is the only function on views that uses one of
the other fields: it computes the address of the character with `element_size`.
-/

namespace Zy

/-- A `ZyanStringView` object: the view (data pointer and size) and the field `element_size`, which is
`none` as long as it was never written. -/
structure ViewObj where
  view : View
  esz : Cell Nat
deriving DecidableEq, Repr

/-- A local variable `ZyanStringView view;` without initializer. -/
def viewObjLocal : ViewObj := ⟨⟨[], 0⟩, none⟩

/-- A view in zeroed memory, for example the member `value` of a `ZyanArgParseArg` after
`ZYAN_MEMSET(parsed_arg, 0, sizeof(*parsed_arg))` (src/ArgParse.c lines 109, 159 and 222). -/
def viewObjZero : ViewObj := ⟨⟨[], 0⟩, some 0⟩

/-- `ZYAN_DEFINE_STRING_VIEW(string)` for a string literal: include/Zycore/String.h lines 175-192. The
initializer sets every field; `element_size` is 1 and the size counts the NUL. -/
def viewObjLiteral (cs : List Byte) : ViewObj :=
  ⟨⟨cs.map some ++ [some 0#8], cs.length + 1⟩, some 1⟩

/-- `ZYAN_STRING_TO_VIEW(string)`: include/Zycore/String.h line 168. The view is the string itself. -/
def viewObjOfString (t : Str) : ViewObj := ⟨strView t, some t.s.v.esz⟩

/-- A call of one of the four functions that make a view. -/
inductive ViewCall where
  | insideView (src : View)
  | insideViewEx (src : View) (index count : Nat)
  | insideBuffer (mem : List (Cell Byte))
  | insideBufferEx (mem : List (Cell Byte)) (length : Nat)

/-- The call with the object `o` as the destination: `ZyanStringViewInsideView` (src/String.c lines 249-260),
`ZyanStringViewInsideViewEx` (262-279), `ZyanStringViewInsideBuffer` (281-292) and
`ZyanStringViewInsideBufferEx` (294-305). Only the data pointer and the size are assigned. -/
def viewCall (o : ViewObj) : ViewCall → Out (Status × ViewObj)
  | .insideView src => .ret ((viewInsideView src).1, { o with view := (viewInsideView src).2 })
  | .insideViewEx src index count =>
    let r := viewInsideViewEx src index count
    .ret (r.1, { o with view := r.2.getD o.view })
  | .insideBuffer mem => (viewInsideBuffer mem).bind fun r => .ret (r.1, { o with view := r.2 })
  | .insideBufferEx mem length =>
    let r := viewInsideBufferEx mem length
    .ret (r.1, { o with view := r.2.getD o.view })

/-- `ZyanStringGetChar(&view, index, &value)`: src/String.c lines 336-354. -/
def viewObjGetChar (o : ViewObj) (index : Nat) : Out (Status × Option (Cell Byte)) :=
  strGetChar o.view o.esz index

end Zy
