import Verif.Model.Vector

/-!
# Model of src/String.c

Simplifications, stated once for the whole file (those of `Model/Vector` apply as well):

* A character is a byte (`BitVec 8`); comparisons with `<` are those of a signed `char`, as on all
  targets where the library's own code is used with GCC, Clang and MSVC defaults on x86. `Model/Targets` has
  both kinds of `char`.
* A view is the memory from its data pointer to the end of the block it points into, and the size field.
  The memory of a view passed as a source is unrelated to the destination string, except in the
  functions ending in `Src`, which take an arbitrary source pointer.
* `ZYAN_STRING_HAS_FIXED_CAPACITY` (String.h line 80) is the only flag.
* Null tests of string and view pointers and of out-parameters are not modelled.
* Decrementing a pointer below the start of its block (the last step of the right searches) is not
  counted as undefined behaviour; dereferencing such a pointer is.
-/

namespace Zy

/-- `ZyanString`: include/Zycore/String.h lines 97-107, with its environment. `fixed` is the flag
`ZYAN_STRING_HAS_FIXED_CAPACITY`. -/
structure Str where
  s : VS Byte
  fixed : Bool

/-- `ZyanStringView`: include/Zycore/String.h lines 131-140: the readable memory starting at the data
pointer, and the size field (which counts one byte more than there are characters). -/
structure View where
  mem : List (Cell Byte)
  size : Nat
deriving DecidableEq, Repr

/-! ## Internal helpers -/

/-- Write of one character at offset `i` of the string data. -/
def strPoke (v : Vec Byte) (i : Nat) (c : Cell Byte) : Out (Vec Byte) :=
  withData v.data fun b =>
    if i < b.cells.length then .ret { v with data := some { b with cells := b.cells.set i c } }
    else .ub .oob

/-- `ZYCORE_STRING_NULLTERMINATE`: src/String.c lines 37-38. -/
def nullTerminate (t : Str) : Out Str :=
  (strPoke t.s.v (sub64 t.s.v.size 1) (some 0#8)).bind fun v => .ret { t with s := { t.s with v := v } }

/-- Read of a character whose value decides what happens next, at offset `i` from a data pointer. -/
def rdChar (mem : List (Cell Byte)) (i : Int) : Out Byte :=
  if i < 0 then .ub .oob
  else match mem[i.toNat]? with
    | none => .ub .oob
    | some none => .ub .indet
    | some (some c) => .ret c

/-- `pointer + i` for a source pointer. -/
def Src.offset (i : Nat) : Src Byte → Src Byte
  | .null => .null
  | .ext cells => .ext (cells.drop i)
  | .self blk j => .self blk (j + i)

/-- `ZYAN_MEMCPY` into a vector's storage. -/
def vecMemcpy (v : Vec Byte) (dst : Nat) (src : Src Byte) (n : Nat) : Out (Vec Byte) :=
  withData v.data fun b => (memcpyIn b dst src n).bind fun b' => .ret { v with data := some b' }

/-! ## Constructor and destructor -/

/-- The common end of both constructors: src/String.c lines 80-83 and 100-103. -/
def strStart (v : Vec Byte) : Out (Vec Byte) :=
  (strPoke v 0 (some 0#8)).bind fun v => .ret { v with size := add64 v.size 1 }

/-- `ZyanStringInitEx`: src/String.c lines 64-84 (`ZYAN_STRING_MIN_CAPACITY` is 32, String.h line 52).
On failure no usable string results (`none`). -/
def strInitEx (w : World Byte) (capacity : Nat) (allocator : Option Nat) (growth shrink : Nat) :
    Out (Status × Option Str × World Byte) :=
  let r := vecInitEx w 1 (add64 (max 32 capacity) 1) false allocator growth shrink
  if failed r.1 then .ret (r.1, none, r.2.2)
  else match r.2.1 with
    | none => .ret (r.1, none, r.2.2)
    | some v => (strStart v).bind fun v => .ret (stSuccess, some ⟨⟨v, r.2.2⟩, false⟩, r.2.2)

/-- `ZyanStringInit`: src/String.c lines 56-60 (growth factor 2, shrink threshold 4: String.h lines
57 and 62). -/
def strInit (w : World Byte) (capacity : Nat) : Out (Status × Option Str × World Byte) :=
  strInitEx w capacity (some 0) 2 4

/-- `ZyanStringInitCustomBuffer`: src/String.c lines 86-104. -/
def strInitBuffer (w : World Byte) (buffer : Option (Block Byte)) (capacity : Nat) :
    Out (Status × Option Str) :=
  if capacity = 0 then .ret (stInvalidArgument, none)
  else
    let r := vecInitBuffer 1 buffer capacity false
    if failed r.1 then .ret (r.1, none)
    else match r.2 with
      | none => .ret (r.1, none)
      | some v => (strStart v).bind fun v => .ret (stSuccess, some ⟨⟨v, w⟩, true⟩)

/-- `ZyanStringDestroy`: src/String.c lines 106-118. -/
def strDestroy (t : Str) : Out (Status × Str) :=
  if t.fixed then .ret (stSuccess, t)
  else (vecDestroy t.s).bind fun r => .ret (r.1, { t with s := r.2 })

/-! ## Duplication and concatenation -/

/-- The copy of one view at the end of the duplicate functions: src/String.c lines 148-153 and
173-178. -/
def dupInto (t : Str) (src : View) : Out Str :=
  (vecMemcpy t.s.v 0 (.ext src.mem) (sub64 src.size 1)).bind fun v =>
  nullTerminate { t with s := { t.s with v := { v with size := src.size } } }

/-- `ZyanStringDuplicateEx`: src/String.c lines 135-154. -/
def strDuplicateEx (w : World Byte) (src : View) (capacity : Nat) (allocator : Option Nat)
    (growth shrink : Nat) : Out (Status × Option Str × World Byte) :=
  if src.size = 0 then .ret (stInvalidArgument, none, w)
  else
    (strInitEx w (max capacity (sub64 src.size 1)) allocator growth shrink).bind fun r =>
    if failed r.1 then .ret r
    else match r.2.1 with
      | none => .ret r
      | some t => (dupInto t src).bind fun t => .ret (stSuccess, some t, r.2.2)

/-- `ZyanStringDuplicateCustomBuffer`: src/String.c lines 156-179. -/
def strDuplicateBuffer (w : World Byte) (src : View) (buffer : Option (Block Byte)) (capacity : Nat) :
    Out (Status × Option Str) :=
  if src.size = 0 then .ret (stInvalidArgument, none)
  else if capacity < src.size then .ret (stInsufficient, none)
  else
    (strInitBuffer w buffer capacity).bind fun r =>
    if failed r.1 then .ret r
    else match r.2 with
      | none => .ret r
      | some t => (dupInto t src).bind fun t => .ret (stSuccess, some t)

/-- The two copies at the end of the concatenation functions: src/String.c lines 210-216 and
236-242. -/
def concatInto (t : Str) (s1 s2 : View) : Out Str :=
  (vecMemcpy t.s.v 0 (.ext s1.mem) (sub64 s1.size 1)).bind fun v =>
  (vecMemcpy v (sub64 s1.size 1) (.ext s2.mem) (sub64 s2.size 1)).bind fun v =>
  nullTerminate { t with s := { t.s with v := { v with size := sub64 (add64 s1.size s2.size) 1 } } }

/-- `ZyanStringConcatEx`: src/String.c lines 196-217. -/
def strConcatEx (w : World Byte) (s1 s2 : View) (capacity : Nat) (allocator : Option Nat)
    (growth shrink : Nat) : Out (Status × Option Str × World Byte) :=
  if s1.size = 0 ∨ s2.size = 0 then .ret (stInvalidArgument, none, w)
  else
    (strInitEx w (max capacity (sub64 (sub64 (add64 s1.size s2.size) 1) 1)) allocator growth
      shrink).bind fun r =>
    if failed r.1 then .ret r
    else match r.2.1 with
      | none => .ret r
      | some t => (concatInto t s1 s2).bind fun t => .ret (stSuccess, some t, r.2.2)

/-- `ZyanStringConcatCustomBuffer`: src/String.c lines 219-243. -/
def strConcatBuffer (w : World Byte) (s1 s2 : View) (buffer : Option (Block Byte)) (capacity : Nat) :
    Out (Status × Option Str) :=
  if s1.size = 0 ∨ s2.size = 0 then .ret (stInvalidArgument, none)
  else if capacity < sub64 (add64 s1.size s2.size) 1 then .ret (stInsufficient, none)
  else
    (strInitBuffer w buffer capacity).bind fun r =>
    if failed r.1 then .ret r
    else match r.2 with
      | none => .ret r
      | some t => (concatInto t s1 s2).bind fun t => .ret (stSuccess, some t)

/-! ## Views -/

/-- `ZYAN_STRING_TO_VIEW` (String.h line 168) / `ZyanStringViewInsideView` on a string: the view of a
whole string. -/
def strView (t : Str) : View :=
  ⟨match t.s.v.data with | some b => b.cells | none => [], t.s.v.size⟩

/-- `ZyanStringViewInsideView`: src/String.c lines 249-260. -/
def viewInsideView (src : View) : Status × View := (stSuccess, ⟨src.mem, src.size⟩)

/-- `ZyanStringViewInsideViewEx`: src/String.c lines 262-279. -/
def viewInsideViewEx (src : View) (index count : Nat) : Status × Option View :=
  if add64 index count ≥ src.size then (stOutOfRange, none)
  else (stSuccess, some ⟨src.mem.drop index, count⟩)

/-- `ZYAN_STRLEN` as required by the C standard: reads up to the first NUL. -/
def cStrlen (mem : List (Cell Byte)) : Out Nat :=
  match mem with
  | [] => .ub .oob
  | none :: _ => .ub .indet
  | some c :: rest => if c = 0#8 then .ret 0 else (cStrlen rest).bind fun n => .ret (n + 1)

/-- `ZyanStringViewInsideBuffer`: src/String.c lines 281-292. -/
def viewInsideBuffer (mem : List (Cell Byte)) : Out (Status × View) :=
  (cStrlen mem).bind fun n => .ret (stSuccess, ⟨mem, add64 n 1⟩)

/-- `ZyanStringViewInsideBufferEx`: src/String.c lines 294-305. -/
def viewInsideBufferEx (mem : List (Cell Byte)) (length : Nat) : Status × Option View :=
  if length = 0 then (stInvalidArgument, none) else (stSuccess, some ⟨mem, add64 length 1⟩)

/-- `ZyanStringViewGetSize`: src/String.c lines 307-318. -/
def viewGetSize (v : View) : Nat := sub64 v.size 1

/-! ## Character access -/

/-- `index * vector->element_size` in `ZYCORE_VECTOR_OFFSET`: src/Vector.c lines 65-66. An element size that
was never written makes the offset indeterminate (`none`), except for index 0. -/
def charOffset (esz : Cell Nat) (index : Nat) : Option Nat :=
  match esz with
  | some e => some (mul64 index e)
  | none => if index = 0 then some 0 else none

/-- `ZyanStringGetChar`: src/String.c lines 336-354, with `ZyanVectorGetPointer` (src/Vector.c lines 356-373)
and `ZYCORE_VECTOR_OFFSET`. `esz` is the field `element_size` of the view, `none` if it was never written.
The value is `none` when it is not written. -/
def strGetChar (v : View) (esz : Cell Nat) (index : Nat) : Out (Status × Option (Cell Byte)) :=
  if add64 index 1 ≥ v.size then .ret (stOutOfRange, none)
  else if index ≥ v.size then .ret (stOutOfRange, none)
  else
    match charOffset esz index with
    | none => .ub .indet
    | some offset =>
      match v.mem[offset]? with
      | none => .ub .oob
      | some c => .ret (stSuccess, some c)

/-- `ZyanStringGetCharMutable`: src/String.c lines 356-370; the result is the offset the returned pointer
denotes. -/
def strGetCharMutable (t : Str) (index : Nat) : Status × Option Nat :=
  if add64 index 1 ≥ t.s.v.size then (stOutOfRange, none) else vecGetPointer t.s index

/-- `ZyanStringSetChar`: src/String.c lines 372-386. -/
def strSetChar (t : Str) (index : Nat) (value : Byte) : Out (Status × Str) :=
  if add64 index 1 ≥ t.s.v.size then .ret (stOutOfRange, t)
  else (vecSet t.s index (.ext [some value])).bind fun r => .ret (r.1, { t with s := r.2 })

/-! ## Appending and insertion -/

/-- `ZyanStringAppend`: src/String.c lines 453-467, for a view given by its data pointer and size. -/
def strAppendSrc (t : Str) (src : Src Byte) (size : Nat) : Out (Status × Str) :=
  if size = 0 then .ret (stInvalidArgument, t)
  else
    let len := t.s.v.size
    (vecResize t.s (sub64 (add64 len size) 1)).bind fun r =>
    if failed r.1 then .ret (r.1, { t with s := r.2 })
    else
      (vecMemcpy r.2.v (sub64 len 1) src (sub64 size 1)).bind fun v =>
      (nullTerminate { t with s := { r.2 with v := v } }).bind fun t => .ret (stSuccess, t)

/-- `ZyanStringAppend` on a view unrelated to the destination. -/
def strAppend (t : Str) (src : View) : Out (Status × Str) := strAppendSrc t (.ext src.mem) src.size

/-- `ZyanStringAppendEx`: src/String.c lines 469-490. -/
def strAppendExSrc (t : Str) (src : Src Byte) (size srcIndex count : Nat) : Out (Status × Str) :=
  if size = 0 then .ret (stInvalidArgument, t)
  else if add64 srcIndex count ≥ size then .ret (stOutOfRange, t)
  else
    let len := t.s.v.size
    (vecResize t.s (add64 len count)).bind fun r =>
    if failed r.1 then .ret (r.1, { t with s := r.2 })
    else
      (vecMemcpy r.2.v (sub64 len 1) (src.offset srcIndex) count).bind fun v =>
      (nullTerminate { t with s := { r.2 with v := v } }).bind fun t => .ret (stSuccess, t)

/-- `ZyanStringAppendEx` on a view unrelated to the destination. -/
def strAppendEx (t : Str) (src : View) (srcIndex count : Nat) : Out (Status × Str) :=
  strAppendExSrc t (.ext src.mem) src.size srcIndex count

/-- `ZyanStringInsert`: src/String.c lines 392-415. -/
def strInsert (t : Str) (index : Nat) (src : View) : Out (Status × Str) :=
  if src.size = 0 then .ret (stInvalidArgument, t)
  else if index = t.s.v.size then strAppend t src
  else if index ≥ t.s.v.size then .ret (stOutOfRange, t)
  else
    (vecInsertRange t.s index (.ext src.mem) (sub64 src.size 1)).bind fun r =>
    if failed r.1 then .ret (r.1, { t with s := r.2 }) else .ret (stSuccess, { t with s := r.2 })

/-- `ZyanStringInsertEx`: src/String.c lines 417-447. -/
def strInsertEx (t : Str) (index : Nat) (src : View) (srcIndex count : Nat) : Out (Status × Str) :=
  if src.size = 0 then .ret (stInvalidArgument, t)
  else if index = t.s.v.size then strAppendEx t src srcIndex count
  else if index ≥ t.s.v.size then .ret (stOutOfRange, t)
  else if add64 srcIndex count ≥ src.size then .ret (stOutOfRange, t)
  else
    (vecInsertRange t.s index ((Src.ext src.mem).offset srcIndex) count).bind fun r =>
    if failed r.1 then .ret (r.1, { t with s := r.2 }) else .ret (stSuccess, { t with s := r.2 })

/-! ## Deletion -/

/-- `ZYAN_CHECK(r); ZYCORE_STRING_NULLTERMINATE(string); return SUCCESS` after a vector call. -/
def checkTerminate (t : Str) (r : Status × VS Byte) : Out (Status × Str) :=
  if failed r.1 then .ret (r.1, { t with s := r.2 })
  else (nullTerminate { t with s := r.2 }).bind fun t => .ret (stSuccess, t)

/-- `ZyanStringDelete`: src/String.c lines 496-513. -/
def strDelete (t : Str) (index count : Nat) : Out (Status × Str) :=
  if add64 index count ≥ t.s.v.size then .ret (stOutOfRange, t)
  else (vecDeleteRange t.s index count).bind fun r => checkTerminate t r

/-- `ZyanStringTruncate`: src/String.c lines 515-532. -/
def strTruncate (t : Str) (index : Nat) : Out (Status × Str) :=
  if index ≥ t.s.v.size then .ret (stOutOfRange, t)
  else
    (vecDeleteRange t.s index (sub64 (sub64 t.s.v.size index) 1)).bind fun r => checkTerminate t r

/-- `ZyanStringClear`: src/String.c lines 534-549. -/
def strClear (t : Str) : Out (Status × Str) :=
  (vecClear t.s).bind fun r =>
  if failed r.1 then .ret (r.1, { t with s := r.2 })
  else (strStart r.2.v).bind fun v => .ret (stSuccess, { t with s := { r.2 with v := v } })

/-! ## Searching

`eq` is the character test of the inner and outer loop: equality, or equality up to bit 5. Positions are
signed offsets from the data pointers. -/

/-- The test `*s == *b` of the exact searches. -/
def eqExact (c1 c2 : Byte) : Bool := c1 == c2

/-- The negation of the test `(c1 != c2) && ((c1 ^ 32) != c2)`: src/String.c lines 660 and 679. -/
def eqFold (c1 c2 : Byte) : Bool := c1 == c2 || (c1 ^^^ 32#8) == c2

/-- The inner loop of the left searches: src/String.c lines 596-612 and 665-683. `some r` is a `return`,
`none` the `break`. The needle position `b` grows with every iteration; `fuel` bounds their number. -/
def lposInner (eq : Byte → Byte → Bool) (hay needle : View) (last : Nat) (s : Int) :
    Nat → Int → Int → Out (Option (Status × Int))
  | 0, _, _ => .ub .diverge
  | fuel + 1, a, b =>
    if toU64 a > last then .ret (some (stFalse, -1))
    else
      (rdChar needle.mem b).bind fun cb =>
      if cb = 0#8 then .ret (some (stTrue, s))
      else
        (rdChar hay.mem a).bind fun ca =>
        if eq ca cb then lposInner eq hay needle last s fuel (a + 1) (b + 1) else .ret none

/-- The outer loop of the left searches: src/String.c lines 587-617 and 656-688. -/
def lposOuter (eq : Byte → Byte → Bool) (hay needle : View) (last : Nat) :
    Nat → Int → Out (Status × Int)
  | 0, _ => .ub .diverge
  | fuel + 1, s =>
    if s + 1 < hay.size then
      (rdChar hay.mem s).bind fun cs =>
      (rdChar needle.mem 0).bind fun cb =>
      if eq cs cb then
        (lposInner eq hay needle last s (hay.size + needle.mem.length + 2) s 0).bind fun r =>
        match r with
        | some res => .ret res
        | none => lposOuter eq hay needle last fuel (s + 1)
      else lposOuter eq hay needle last fuel (s + 1)
    else .ret (stFalse, -1)

/-- `ZyanStringLPosEx` (src/String.c lines 566-618, `eq = eqExact`) and `ZyanStringLPosIEx` (lines 631-689,
`eq = eqFold`). The second component is `*found_index` (`none` when it is not written). -/
def strLPosExWith (eq : Byte → Byte → Bool) (hay needle : View) (index count : Nat) :
    Out (Status × Option Int) :=
  if add64 index count ≥ hay.size then .ret (stOutOfRange, none)
  else if hay.size = 1 ∨ needle.size = 1 ∨ hay.size < needle.size then .ret (stFalse, some (-1))
  else
    (lposOuter eq hay needle (add64 index count) (hay.size + 2) (toI64 index)).bind fun r =>
    .ret (r.1, some r.2)

/-- `ZyanStringLPosEx`. -/
def strLPosEx := strLPosExWith eqExact
/-- `ZyanStringLPosIEx`. -/
def strLPosIEx := strLPosExWith eqFold
/-- `ZyanStringLPos`: src/String.c lines 555-564. -/
def strLPos (hay needle : View) : Out (Status × Option Int) :=
  strLPosEx hay needle 0 (sub64 hay.size 1)
/-- `ZyanStringLPosI`: src/String.c lines 620-629. -/
def strLPosI (hay needle : View) : Out (Status × Option Int) :=
  strLPosIEx hay needle 0 (sub64 hay.size 1)

/-- The inner loop of the right searches: src/String.c lines 734-750 and 805-823. -/
def rposInner (eq : Byte → Byte → Bool) (hay needle : View) (first : Int) :
    Nat → Int → Int → Out (Option (Status × Int))
  | 0, _, _ => .ub .diverge
  | fuel + 1, a, b =>
    if b < 0 then .ret (some (stTrue, a + 1))
    else if a < first then .ret (some (stFalse, -1))
    else
      (rdChar hay.mem a).bind fun ca =>
      (rdChar needle.mem b).bind fun cb =>
      if eq ca cb then rposInner eq hay needle first fuel (a - 1) (b - 1) else .ret none

/-- The outer loop of the right searches: src/String.c lines 725-755 and 796-828. -/
def rposOuter (eq : Byte → Byte → Bool) (hay needle : View) (first : Int) :
    Nat → Int → Out (Status × Int)
  | 0, _ => .ub .diverge
  | fuel + 1, s =>
    if 0 ≤ s then
      (rdChar hay.mem s).bind fun cs =>
      (rdChar needle.mem ((needle.size : Int) - 2)).bind fun cb =>
      if eq cs cb then
        (rposInner eq hay needle first (needle.size + 2) s ((needle.size : Int) - 2)).bind fun r =>
        match r with
        | some res => .ret res
        | none => rposOuter eq hay needle first fuel (s - 1)
      else rposOuter eq hay needle first fuel (s - 1)
    else .ret (stFalse, -1)

/-- `ZyanStringRPosEx` (src/String.c lines 703-756) and `ZyanStringRPosIEx` (lines 770-829). -/
def strRPosExWith (eq : Byte → Byte → Bool) (hay needle : View) (index count : Nat) :
    Out (Status × Option Int) :=
  if index ≥ hay.size ∨ count > index then .ret (stOutOfRange, none)
  else if index = 0 ∨ count = 0 ∨ hay.size = 1 ∨ needle.size = 1 ∨ hay.size < needle.size then
    .ret (stFalse, some (-1))
  else
    (rposOuter eq hay needle ((index : Int) - count) (index + 1) ((index : Int) - 1)).bind fun r =>
    .ret (r.1, some r.2)

/-- `ZyanStringRPosEx`. -/
def strRPosEx := strRPosExWith eqExact
/-- `ZyanStringRPosIEx`. -/
def strRPosIEx := strRPosExWith eqFold
/-- `ZyanStringRPos`: src/String.c lines 691-701. -/
def strRPos (hay needle : View) : Out (Status × Option Int) :=
  strRPosEx hay needle (sub64 hay.size 1) (sub64 hay.size 1)
/-- `ZyanStringRPosI`: src/String.c lines 758-768. -/
def strRPosI (hay needle : View) : Out (Status × Option Int) :=
  strRPosIEx hay needle (sub64 hay.size 1) (sub64 hay.size 1)

/-! ## Comparing -/

/-- The loop of the comparison functions: src/String.c lines 855-863 and 905-913; the result is the index
at which it stops. -/
def cmpLoop (eq : Byte → Byte → Bool) (s1 s2 : View) : Nat → Nat → Out Nat
  | 0, _ => .ub .diverge
  | fuel + 1, i =>
    if add64 i 1 < s1.size ∧ add64 i 1 < s2.size then
      (rdChar s1.mem i).bind fun a =>
      (rdChar s2.mem i).bind fun b =>
      if eq a b then cmpLoop eq s1 s2 fuel (i + 1) else .ret i
    else .ret i

/-- `ZyanStringCompare` (src/String.c lines 835-879, `eq = eqExact`) and `ZyanStringCompareI` (lines
881-929, `eq = eqFold`). -/
def strCompareWith (eq : Byte → Byte → Bool) (s1 s2 : View) : Out (Status × Int) :=
  if s1.size < s2.size then .ret (stFalse, -1)
  else if s1.size > s2.size then .ret (stFalse, 1)
  else
    (cmpLoop eq s1 s2 (s1.size + 1) 0).bind fun i =>
    (rdChar s1.mem i).bind fun a =>
    (rdChar s2.mem i).bind fun b =>
    if a = b then .ret (stTrue, 0)
    else if (a ||| 32#8).toInt < (b ||| 32#8).toInt then .ret (stFalse, -1)
    else .ret (stFalse, 1)

/-- `ZyanStringCompare`. -/
def strCompare := strCompareWith eqExact
/-- `ZyanStringCompareI`. -/
def strCompareI := strCompareWith eqFold

/-! ## Case conversion -/

/-- The body of the lower-case loop: src/String.c lines 965-969. -/
def lowerByte (c : Byte) : Byte :=
  if (65#8).toInt ≤ c.toInt ∧ c.toInt ≤ (90#8).toInt then c ||| 32#8 else c

/-- The body of the upper-case loop: src/String.c lines 1006-1010. -/
def upperByte (c : Byte) : Byte :=
  if (97#8).toInt ≤ c.toInt ∧ c.toInt ≤ (122#8).toInt then c &&& ~~~32#8 else c

/-- The loops of the case conversions: src/String.c lines 962-971 and 1003-1012; `n` characters from
offset `i`. -/
def caseLoop (f : Byte → Byte) (v : Vec Byte) (i : Nat) : Nat → Out (Vec Byte)
  | 0 => .ret v
  | n + 1 =>
    withData v.data fun b =>
    (rdChar b.cells i).bind fun c =>
    (strPoke v i (some (f c))).bind fun v => caseLoop f v (i + 1) n

/-- `ZyanStringToLowerCaseEx` (src/String.c lines 945-974) and `ZyanStringToUpperCaseEx` (lines 986-1015). -/
def strCaseEx (f : Byte → Byte) (t : Str) (index count : Nat) : Out (Status × Str) :=
  if add64 index count ≥ t.s.v.size then .ret (stOutOfRange, t)
  else
    (caseLoop f t.s.v index (add64 index count - index)).bind fun v =>
    .ret (stSuccess, { t with s := { t.s with v := v } })

/-- `ZyanStringToLowerCaseEx`. -/
def strToLowerEx := strCaseEx lowerByte
/-- `ZyanStringToUpperCaseEx`. -/
def strToUpperEx := strCaseEx upperByte
/-- `ZyanStringToLowerCase`: src/String.c lines 935-943. -/
def strToLower (t : Str) : Out (Status × Str) := strToLowerEx t 0 (sub64 t.s.v.size 1)
/-- `ZyanStringToUpperCase`: src/String.c lines 976-984. -/
def strToUpper (t : Str) : Out (Status × Str) := strToUpperEx t 0 (sub64 t.s.v.size 1)

/-! ## Memory management and information -/

/-- `ZyanStringResize`: src/String.c lines 1021-1032. -/
def strResize (t : Str) (size : Nat) : Out (Status × Str) :=
  (vecResize t.s (add64 size 1)).bind fun r => checkTerminate t r

/-- `ZyanStringReserve`: src/String.c lines 1034-1042. -/
def strReserve (t : Str) (capacity : Nat) : Out (Status × Str) :=
  (vecReserve t.s capacity).bind fun r => .ret (r.1, { t with s := r.2 })

/-- `ZyanStringShrinkToFit`: src/String.c lines 1044-1052. -/
def strShrinkToFit (t : Str) : Out (Status × Str) :=
  (vecShrinkToFit t.s).bind fun r => .ret (r.1, { t with s := r.2 })

/-- `ZyanStringGetCapacity`: src/String.c lines 1058-1069. -/
def strGetCapacity (t : Str) : Nat := sub64 t.s.v.cap 1
/-- `ZyanStringGetSize`: src/String.c lines 1071-1082. -/
def strGetSize (t : Str) : Nat := sub64 t.s.v.size 1

end Zy
