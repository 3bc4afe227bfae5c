import Verif.Model.List
import Verif.Model.Merge

/-!
# Copying a list into a vector

Loops of a user of the library that go through a list and append its elements to a vector.
-/

namespace Zy

variable {α : Type}

/-- `while (node) { ZYAN_CHECK(ZyanVectorPushBack(v, &ZYAN_LIST_GET(T, node))); ZYAN_CHECK(step(node, &node)); }`, at most `n`
rounds (`ZYAN_LIST_GET`: include/Zycore/List.h lines 164-171). The function `step` is one of the two below. The list and the
vector do not share memory. -/
def walkInto (step : LS α → Option Nat → Out (Status × Option Nat)) (l : LS α) : Nat → Option Nat → VS α →
    Out (Status × VS α)
  | 0, _, v => .ret (stSuccess, v)
  | _ + 1, none, v => .ret (stSuccess, v)
  | n + 1, some a, v =>
    (listGet l (some a)).bind fun x => checkPush v x fun v' =>
    (step l (some a)).bind fun q => if failed q.1 then .ret (q.1, v') else walkInto step l n q.2 v'

/-- From the head (`ZyanListGetHeadNode`: src/List.c lines 224-234) with `ZyanListGetNextNode` (src/List.c lines 260-270). -/
def copyForwards (l : LS α) (n : Nat) (v : VS α) : Out (Status × VS α) := walkInto listGetNext l n (listGetHead l).2 v

/-- From the tail (`ZyanListGetTailNode`: src/List.c lines 236-246) with `ZyanListGetPrevNode` (src/List.c lines 248-258). -/
def copyBackwards (l : LS α) (n : Nat) (v : VS α) : Out (Status × VS α) := walkInto listGetPrev l n (listGetTail l).2 v

/-- `for (i = 0; i < v.size; ++i) { ZYAN_CHECK(ZyanListPushBack(l, &ZYAN_VECTOR_GET(T, v, i))); }`, at most `n` rounds
(`ZyanListPushBack`: src/List.c lines 338-364; `ZYAN_VECTOR_GET`: include/Zycore/Vector.h lines 149-155). -/
def fillList (v : VS α) : Nat → Nat → LS α → Out (Status × LS α)
  | 0, _, l => .ret (stSuccess, l)
  | n + 1, i, l =>
    if i < vecGetSize v then
      (vecGetMacro v i).bind fun x => (listPushBack l (.ext x)).bind fun r =>
      if failed r.1 then .ret r else fillList v n (i + 1) r.2
    else .ret (stSuccess, l)

end Zy
