import Verif.Model.String

/-!
# Appending and inserting text of the string itself

`strInsert` and `strInsertEx` in `Model/String` take views of separate memory. Here the data pointer of the view may
also point into the string itself (`strAppendSrc` and `strAppendExSrc` in `Model/String` do the same for appending).
The second part is about `ZYAN_STRING_TO_VIEW` (include/Zycore/String.h line 168), which is only a cast: source and
destination are the same object then, and what is read from the source after the destination was changed is changed.
-/

namespace Zy

/-- `ZyanStringInsert`: src/String.c lines 392-415, for a view given by its data pointer and size. -/
def strInsertSrc (t : Str) (index : Nat) (src : Src Byte) (size : Nat) : Out (Status × Str) :=
  if size = 0 then .ret (stInvalidArgument, t)
  else if index = t.s.v.size then strAppendSrc t src size
  else if index ≥ t.s.v.size then .ret (stOutOfRange, t)
  else
    (vecInsertRange t.s index src (sub64 size 1)).bind fun r =>
    if failed r.1 then .ret (r.1, { t with s := r.2 }) else .ret (stSuccess, { t with s := r.2 })

/-- `ZyanStringInsertEx`: src/String.c lines 417-447, for a view given by its data pointer and size. -/
def strInsertExSrc (t : Str) (index : Nat) (src : Src Byte) (size srcIndex count : Nat) : Out (Status × Str) :=
  if size = 0 then .ret (stInvalidArgument, t)
  else if index = t.s.v.size then strAppendExSrc t src size srcIndex count
  else if index ≥ t.s.v.size then .ret (stOutOfRange, t)
  else if add64 srcIndex count ≥ size then .ret (stOutOfRange, t)
  else
    (vecInsertRange t.s index (src.offset srcIndex) count).bind fun r =>
    if failed r.1 then .ret (r.1, { t with s := r.2 }) else .ret (stSuccess, { t with s := r.2 })

/-! ## The string as its own view -/

/-- The data pointer of a string. -/
def ownData (t : Str) : Src Byte :=
  match t.s.v.data with
  | some b => .self b.id 0
  | none => .null

/-- `ZyanStringAppend(&string, ZYAN_STRING_TO_VIEW(&string))`: src/String.c lines 453-467. Data pointer and size of the
source are read again after the resize. -/
def strAppendSame (t : Str) : Out (Status × Str) :=
  if t.s.v.size = 0 then .ret (stInvalidArgument, t)
  else
    let len := t.s.v.size
    (vecResize t.s (sub64 (add64 len t.s.v.size) 1)).bind fun r =>
    if failed r.1 then .ret (r.1, { t with s := r.2 })
    else
      let t := { t with s := r.2 }
      (vecMemcpy t.s.v (sub64 len 1) (ownData t) (sub64 t.s.v.size 1)).bind fun v =>
      (nullTerminate { t with s := { t.s with v := v } }).bind fun t => .ret (stSuccess, t)

/-- `ZyanStringAppendEx(&string, ZYAN_STRING_TO_VIEW(&string), srcIndex, count)`: src/String.c lines 469-490. The data
pointer of the source is read after the resize. -/
def strAppendExSame (t : Str) (srcIndex count : Nat) : Out (Status × Str) :=
  if t.s.v.size = 0 then .ret (stInvalidArgument, t)
  else if add64 srcIndex count ≥ t.s.v.size then .ret (stOutOfRange, t)
  else
    let len := t.s.v.size
    (vecResize t.s (add64 len count)).bind fun r =>
    if failed r.1 then .ret (r.1, { t with s := r.2 })
    else
      let t := { t with s := r.2 }
      (vecMemcpy t.s.v (sub64 len 1) ((ownData t).offset srcIndex) count).bind fun v =>
      (nullTerminate { t with s := { t.s with v := v } }).bind fun t => .ret (stSuccess, t)

/-- `ZyanStringInsert(&string, index, ZYAN_STRING_TO_VIEW(&string))`: src/String.c lines 392-415. Data pointer and size
are read before the insertion. -/
def strInsertSame (t : Str) (index : Nat) : Out (Status × Str) :=
  if t.s.v.size = 0 then .ret (stInvalidArgument, t)
  else if index = t.s.v.size then strAppendSame t
  else if index ≥ t.s.v.size then .ret (stOutOfRange, t)
  else
    (vecInsertRange t.s index (ownData t) (sub64 t.s.v.size 1)).bind fun r =>
    if failed r.1 then .ret (r.1, { t with s := r.2 }) else .ret (stSuccess, { t with s := r.2 })

/-- `ZyanStringInsertEx(&string, index, ZYAN_STRING_TO_VIEW(&string), srcIndex, count)`: src/String.c lines 417-447. -/
def strInsertExSame (t : Str) (index srcIndex count : Nat) : Out (Status × Str) :=
  if t.s.v.size = 0 then .ret (stInvalidArgument, t)
  else if index = t.s.v.size then strAppendExSame t srcIndex count
  else if index ≥ t.s.v.size then .ret (stOutOfRange, t)
  else if add64 srcIndex count ≥ t.s.v.size then .ret (stOutOfRange, t)
  else
    (vecInsertRange t.s index ((ownData t).offset srcIndex) count).bind fun r =>
    if failed r.1 then .ret (r.1, { t with s := r.2 }) else .ret (stSuccess, { t with s := r.2 })

end Zy
