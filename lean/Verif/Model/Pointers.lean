import Verif.Model.VectorEach

/-!
# Pointers to elements that are kept over calls

`ZyanVectorGetMutable`, `ZyanVectorGetPointerMutable` (src/Vector.c lines 343-354 and 375-392) and the `element` result
of `ZyanVectorEmplaceEx` (line 518) are pointers into the storage of the vector. `EPtr` and `vecGetMutable` are in
`Model/VectorEach`. A reallocation ends the life of the old block, also if the new one is at the same place (C11,
7.22.3.5), so a pointer into the old block is dangling.
-/

namespace Zy

variable {α : Type}

/-- Reading the element behind a pointer that was obtained earlier (src/Vector.c lines 343-354). -/
def readThrough (s : VS α) (p : EPtr) : Out (Cell α) :=
  withData s.v.data fun b =>
    if p.blk = b.id then
      match b.cells[p.slot]? with
      | none => .ub .oob
      | some x => .ret x
    else .ub .uaf

end Zy
