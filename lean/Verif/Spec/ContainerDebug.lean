import Verif.Model.BitsetDebug
import Verif.Model.ListDebug
import Verif.Spec.BitsetRun
import Verif.Spec.ListRun

/-!
# Calls of the bitset and list functions in a build with assertions
-/

namespace Zy

open Spec

variable {α : Type}

/-- Reading of an API operation on a bitset as a call of the function with its assertions. -/
def bsOpD (t : Bits) : BOp → Out (Status × Bits)
  | .push v => bsPushD t v
  | .pop => bsPopD t
  | .set i => bsModifyD (fun x m => x ||| m) t i
  | .reset i => bsModifyD (fun x m => x &&& ~~~m) t i
  | .assign i v => bsAssignD t i v
  | .toggle i => bsModifyD (fun x m => x ^^^ m) t i
  | .setAll => bsMapAllD (fun _ _ => .ret 0xFF#8) t
  | .resetAll => bsMapAllD (fun _ _ => .ret 0x00#8) t
  | .flip => bsMapAllD (fun s p => (loadByte s p).bind fun x => .ret (~~~x)) t
  | .clear => bsClearD t
  | .reserve n => bsReserveD t n
  | .shrinkToFit => bsShrinkToFitD t

/-- Bitsets that a program can obtain with an allocator that grants or refuses whatever it likes, on buffers of
whatever real size, with any number of bits and any calls. -/
inductive BUsed : Bits → Prop where
  | init {w w' : World Byte} {n a g th : Nat} {st : Status} {t : Bits} (hg : g ≤ 255)
      (h : bsInitEx w n (some a) g th = .ret (st, some t, w')) : BUsed t
  | initBuffer {w : World Byte} {n cap : Nat} {b : Option (Block Byte)} {st : Status} {t : Bits}
      (h : bsInitBuffer w n b cap = .ret (st, some t)) : BUsed t
  | step {t t' : Bits} {st : Status} {op : BOp} (h : BUsed t) (hs : bsOp t op = .ret (st, t')) : BUsed t'
  | logic {t t' u : Bits} {st : Status} (f : Byte → Byte → Status × Byte) (h : BUsed t) (hu : BUsed u)
      (hs : bsPerform f t u = .ret (st, t')) : BUsed t'

/-- Reading of an API operation on a list as a call of the function with its assertions. -/
def listOpD (s : LS α) : LOp α → Out (Status × LS α)
  | .popBack => listPopBackD s
  | .popFront => listPopFrontD s
  | .set i x => (nodeAt s i).bind fun p => listSetNodeDataD s p (.ext x)
  | .clear => listResizeExD s 0 .null
  | .resize n init => listResizeExD s n (linit init)
  | op => listOp s op

/-- Lists that a program can obtain with an allocator that grants or refuses whatever it likes, on buffers of
whatever real size, with any calls, also with node and element pointers that are not valid. -/
inductive LUsed : LS α → Prop where
  | init {esz a : Nat} {dtor : Bool} {st : Status} {l : ZList} {mem : Nat → Option (LNode α)} {w : LWorld α}
      (h : listInitEx esz dtor (some a) = (st, some l)) : LUsed ⟨l, mem, w⟩
  | initBuffer {esz cap : Nat} {dtor : Bool} {b : Option Nat} {st : Status} {l : ZList}
      {mem : Nat → Option (LNode α)} {w : LWorld α} (h : listInitBuffer esz dtor b cap = (st, some l)) :
      LUsed ⟨l, mem, w⟩
  | step {s s' : LS α} {st : Status} {op : LOp α} (h : LUsed s) (hs : listOp s op = .ret (st, s')) : LUsed s'
  | pushBack {s s' : LS α} {st : Status} {x : LSrc α} (h : LUsed s)
      (hs : listPushBack s x = .ret (st, s')) : LUsed s'
  | pushFront {s s' : LS α} {st : Status} {x : LSrc α} (h : LUsed s)
      (hs : listPushFront s x = .ret (st, s')) : LUsed s'
  | set {s s' : LS α} {st : Status} {p : Option Nat} {x : LSrc α} (h : LUsed s)
      (hs : listSetNodeData s p x = .ret (st, s')) : LUsed s'
  | resize {s s' : LS α} {st : Status} {n : Nat} {x : LSrc α} (h : LUsed s)
      (hs : listResizeEx s n x = .ret (st, s')) : LUsed s'

end Zy
