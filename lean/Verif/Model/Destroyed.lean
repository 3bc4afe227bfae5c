import Verif.Model.String
import Verif.Model.Bitset
import Verif.Model.List

/-!
# Destroying containers that were destroyed before

`ZyanVectorDestroy` leaves size, capacity and allocator of the vector in place and sets the data pointer to null,
so a second call passes the null pointer to the `deallocate` function of the allocator. `vecDestroy` in
`Model/Vector` treats that as undefined. Here it is left to the allocator.
-/

namespace Zy

variable {α : Type}

/-- What the `deallocate` function of an allocator does with the null pointer. -/
abbrev NullFree (α : Type) := World α → Out (Status × World α)

/-- `ZyanAllocatorDefaultDeallocate` with a null pointer: src/Allocator.c lines 79-94. `free` ignores it. -/
def defaultNullFree : NullFree α := fun w => .ret (stSuccess, w)

/-- The call of `deallocate`: src/Vector.c lines 257-258. -/
def freeData (nf : NullFree α) (s : VS α) (a : Nat) : Out (Status × World α) :=
  match s.v.data with
  | some b => .ret (deallocate s.w a b s.v.esz s.v.cap)
  | none => nf s.w

/-- `ZyanVectorDestroy`: src/Vector.c lines 236-263, with the call of `deallocate` for a null pointer. -/
def vecDestroyN (nf : NullFree α) (s : VS α) : Out (Status × VS α) :=
  (runDtors s 0 s.v.size).bind fun s =>
  match s.v.allocator with
  | some a =>
    if s.v.cap ≠ 0 then
      (freeData nf s a).bind fun r =>
      if failed r.1 then .ret (r.1, { s with w := r.2 })
      else .ret (stSuccess, { v := { s.v with data := none }, w := r.2 })
    else .ret (stSuccess, { s with v := { s.v with data := none } })
  | none => .ret (stSuccess, { s with v := { s.v with data := none } })

/-- `ZyanStringDestroy`: src/String.c lines 106-118. -/
def strDestroyN (nf : NullFree Byte) (t : Str) : Out (Status × Str) :=
  if t.fixed then .ret (stSuccess, t)
  else (vecDestroyN nf t.s).bind fun r => .ret (r.1, { t with s := r.2 })

/-- `ZyanBitsetDestroy`: src/Bitset.c lines 182-190. -/
def bsDestroyN (nf : NullFree Byte) (t : Bits) : Out (Status × Bits) :=
  (vecDestroyN nf t.s).bind fun r => .ret (r.1, { t with s := r.2 })

end Zy
