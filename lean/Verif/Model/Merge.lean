import Verif.Model.VectorEach

/-!
# Merging

A loop of a user of the library that merges two sorted vectors.
-/

namespace Zy

variable {α : Type}

/-- `ZyanVectorPushBack` (src/Vector.c lines 422-444) of one element, with `ZYAN_CHECK` around it, and then `k`. -/
def checkPush (s : VS α) (x : Cell α) (k : VS α → Out (Status × VS α)) : Out (Status × VS α) :=
  (vecPushBack s (.ext [x])).bind fun r => if failed r.1 then .ret r else k r.2

/-- `while (i < a.size || j < b.size) { if (j == b.size || (i < a.size && cmp(a[i], b[j]) <= 0)) { push(out, a[i++]); }
else { push(out, b[j++]); } }`, at most `n` rounds, where `a[i]` is `ZYAN_VECTOR_GET(T, a, i)` (include/Zycore/Vector.h lines
149-155). -/
def mergeVec (cmp : Cell α → Cell α → Int) (a b : VS α) : Nat → Nat → Nat → VS α → Out (Status × VS α)
  | 0, _, _, s => .ret (stSuccess, s)
  | n + 1, i, j, s =>
    if i < vecGetSize a then
      (vecGetMacro a i).bind fun x =>
      if j < vecGetSize b then
        (vecGetMacro b j).bind fun y =>
        if cmp x y ≤ 0 then checkPush s x (mergeVec cmp a b n (i + 1) j) else checkPush s y (mergeVec cmp a b n i (j + 1))
      else checkPush s x (mergeVec cmp a b n (i + 1) j)
    else if j < vecGetSize b then (vecGetMacro b j).bind fun y => checkPush s y (mergeVec cmp a b n i (j + 1))
    else .ret (stSuccess, s)

end Zy
