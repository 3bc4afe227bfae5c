import Verif.Model.Vector

/-!
# Model of the loop macros of include/Zycore/Vector.h

`ZYAN_VECTOR_GET` (lines 149-155), `ZYAN_VECTOR_FOREACH` (lines 165-177) and `ZYAN_VECTOR_FOREACH_MUTABLE`
(lines 187-199). The body of a loop is an arbitrary computation on the vector and on the local variables of
the caller (type `σ`); it ends normally (`break`, `return` and `goto` are not modelled).
-/

namespace Zy

variable {α σ : Type}

/-- `ZYAN_VECTOR_GET`: Vector.h lines 149-155. The pointer is dereferenced without a check. -/
def vecGetMacro (s : VS α) (i : Nat) : Out (Cell α) :=
  match vecGet s i with
  | none => .ub .null
  | some i => vecDeref s i

/-- The loop of `ZYAN_VECTOR_FOREACH`: Vector.h lines 168-176, with `n` rounds left. -/
def eachLoop (body : Cell α → VS α → σ → Out (VS α × σ)) : Nat → Nat → VS α → σ → Out (VS α × σ)
  | 0, _, s, a => .ret (s, a)
  | n + 1, i, s, a =>
    (vecGetMacro s i).bind fun x => (body x s a).bind fun r => eachLoop body n (i + 1) r.1 r.2

/-- `ZYAN_VECTOR_FOREACH`: Vector.h lines 165-177. The size is read once, before the loop (line 167). -/
def vecForeach (body : Cell α → VS α → σ → Out (VS α × σ)) (s : VS α) (a : σ) : Out (VS α × σ) :=
  eachLoop body s.v.size 0 s a

/-- A pointer to an element: the block and the slot. -/
structure EPtr where
  blk : Nat
  slot : Nat
deriving DecidableEq, Repr

/-- `ZyanVectorGetMutable` with the block that the result points into. -/
def vecGetMutable (s : VS α) (i : Nat) : Option EPtr :=
  match vecGet s i, s.v.data with
  | some i, some b => some ⟨b.id, i⟩
  | _, _ => none

/-- The loop of `ZYAN_VECTOR_FOREACH_MUTABLE`: Vector.h lines 190-198. -/
def eachMutLoop (body : Option EPtr → VS α → σ → Out (VS α × σ)) : Nat → Nat → VS α → σ → Out (VS α × σ)
  | 0, _, s, a => .ret (s, a)
  | n + 1, i, s, a => (body (vecGetMutable s i) s a).bind fun r => eachMutLoop body n (i + 1) r.1 r.2

/-- `ZYAN_VECTOR_FOREACH_MUTABLE`: Vector.h lines 187-199. -/
def vecForeachMut (body : Option EPtr → VS α → σ → Out (VS α × σ)) (s : VS α) (a : σ) : Out (VS α × σ) :=
  eachMutLoop body s.v.size 0 s a

/-- The statement `*p = f(*p)` for a pointer into the storage of the vector. A pointer into a block that the
vector has given back is dangling. -/
def updateThrough (p : Option EPtr) (f : Cell α → Cell α) (s : VS α) : Out (VS α) :=
  match p with
  | none => .ub .null
  | some p =>
    withData s.v.data fun b =>
      if p.blk = b.id then
        match b.cells[p.slot]? with
        | none => .ub .oob
        | some x => .ret { s with v := { s.v with data := some { b with cells := b.cells.set p.slot (f x) } } }
      else .ub .uaf

end Zy
