import Verif.Spec.ListRun
import Verif.Spec.VectorRun
import Verif.Model.VectorEach

/-!
# Work lists

Two loops of users of the library. `f x` are the items that are found at the item `x`.
-/

namespace Zy

open Spec

variable {α : Type}

/-- A list as a queue: `while ((node = head)) { x = *ZYAN_LIST_GET(T, node); ZyanListPopFront(&list); for (y in f(x))
ZyanListPushBack(&list, &y); }`, at most `n` rounds (include/Zycore/List.h lines 164-171, src/List.c lines 224-234,
338-364 and 494-524). The items are reported in the order of the visits. -/
def workList (f : Cell α → List (Cell α)) : Nat → LS α → Out (List (Cell α) × LS α)
  | 0, s => .ret ([], s)
  | n + 1, s =>
    if (listGetHead s).2.isNone then .ret ([], s)
    else
      (listGet s (listGetHead s).2).bind fun x =>
      (listPopFront s).bind fun r =>
      (runList r.2 ((f x).map .pushBack)).bind fun q =>
      (workList f n q.2).bind fun t => .ret (x :: t.1, t.2)

/-- A vector as a stack: `while (vector.size) { x = ZYAN_VECTOR_GET(T, vector, vector.size - 1);
ZyanVectorPopBack(&vector); for (y in f(x)) ZyanVectorPushBack(&vector, &y); }`, at most `n` rounds
(include/Zycore/Vector.h lines 149-155, src/Vector.c lines 422-444 and 607-631). -/
def workVec (f : Cell α → List (Cell α)) : Nat → VS α → Out (List (Cell α) × VS α)
  | 0, s => .ret ([], s)
  | n + 1, s =>
    if vecGetSize s = 0 then .ret ([], s)
    else
      (vecGetMacro s (vecGetSize s - 1)).bind fun x =>
      (vecPopBack s).bind fun r =>
      (runVec r.2 ((f x).map .push)).bind fun q =>
      (workVec f n q.2).bind fun t => .ret (x :: t.1, t.2)

end Zy
