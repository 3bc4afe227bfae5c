import Verif.Model.VectorEach

/-!
# Removing elements while going through a vector

Three loops of users of the library. `ZyanVectorDelete` is src/Vector.c lines 568-571, `ZYAN_VECTOR_GET` is
include/Zycore/Vector.h lines 149-155. `p` tells which elements are to be removed.
-/

namespace Zy

variable {α : Type}

/-- `for (i = 0; i < vector.size;) { if (p(ZYAN_VECTOR_GET(..., i))) ZyanVectorDelete(&vector, i); else ++i; }`, for at
most `n` rounds (src/Vector.c lines 568-571). The second component is `i`. -/
def sieveUp (p : Cell α → Bool) : Nat → Nat → VS α → Out (VS α × Nat)
  | 0, i, s => .ret (s, i)
  | n + 1, i, s =>
    if i < vecGetSize s then
      (vecGetMacro s i).bind fun x =>
        if p x then (vecDelete s i).bind fun r => sieveUp p n i r.2 else sieveUp p n (i + 1) s
    else .ret (s, i)

/-- `for (i = vector.size; i-- > 0;) if (p(ZYAN_VECTOR_GET(..., i))) ZyanVectorDelete(&vector, i);`, from `i` on
(src/Vector.c lines 568-571). -/
def sieveDown (p : Cell α → Bool) : Nat → VS α → Out (VS α)
  | 0, s => .ret s
  | i + 1, s =>
    (vecGetMacro s i).bind fun x =>
      if p x then (vecDelete s i).bind fun r => sieveDown p i r.2 else sieveDown p i s

/-- The body of a `ZYAN_VECTOR_FOREACH` (Vector.h lines 165-177) that deletes the item; the counter of the program
is the index. -/
def sieveBody (p : Cell α → Bool) (x : Cell α) (s : VS α) (i : Nat) : Out (VS α × Nat) :=
  if p x then (vecDelete s i).bind fun r => .ret (r.2, i + 1) else .ret (s, i + 1)

end Zy
