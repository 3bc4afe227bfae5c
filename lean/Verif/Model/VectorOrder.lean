import Verif.Model.VectorEach

/-!
# Programs that bring the elements of a vector into another order

The library has no function that reverses or sorts a vector. These are the usual programs that do it with
`ZyanVectorSwapElements` (src/Vector.c lines 535-562) and `ZYAN_VECTOR_GET` (include/Zycore/Vector.h lines 149-155).
Every call is checked with `ZYAN_CHECK` (include/Zycore/Status.h lines 80-92), i.e. the first failure is returned.
-/

namespace Zy

variable {α : Type}

/-- Exchanges the pairs of positions, one after the other (src/Vector.c lines 535-562). -/
def swapAll : VS α → List (Nat × Nat) → Out (Status × VS α)
  | s, [] => .ret (stSuccess, s)
  | s, p :: ps =>
    (vecSwap s p.1 p.2).bind fun r => if failed r.1 then .ret r else swapAll r.2 ps

/-- `for (i = 0; i < n / 2; ++i) ZYAN_CHECK(ZyanVectorSwapElements(&v, i, n - 1 - i));` where `n` is the size
(src/Vector.c lines 535-562 and 832-842). -/
def reverseInPlace (s : VS α) : Out (Status × VS α) :=
  swapAll s ((List.range (vecGetSize s / 2)).map fun i => (i, vecGetSize s - 1 - i))

/-- The search for a least element: `n` comparisons from position `i`; `best` is the position of the least element so
far (`ZYAN_VECTOR_GET`, include/Zycore/Vector.h lines 149-155). -/
def minLoop (cmp : Cell α → Cell α → Int) (s : VS α) : Nat → Nat → Nat → Out Nat
  | 0, best, _ => .ret best
  | n + 1, best, i =>
    (vecGetMacro s i).bind fun x =>
    (vecGetMacro s best).bind fun y =>
    minLoop cmp s n (if cmp x y < 0 then i else best) (i + 1)

/-- The loop of selection sort: the least of the last `n` elements, which begin at position `i`, is exchanged with the
first of them (src/Vector.c lines 535-562). -/
def sortLoop (cmp : Cell α → Cell α → Int) : Nat → Nat → VS α → Out (Status × VS α)
  | 0, _, s => .ret (stSuccess, s)
  | n + 1, i, s =>
    (minLoop cmp s n i (i + 1)).bind fun m =>
    (if m = i then .ret (stSuccess, s) else vecSwap s i m).bind fun r =>
    if failed r.1 then .ret r else sortLoop cmp n (i + 1) r.2

/-- Selection sort of a vector in place. -/
def sortInPlace (cmp : Cell α → Cell α → Int) (s : VS α) : Out (Status × VS α) :=
  sortLoop cmp (vecGetSize s) 0 s

end Zy
