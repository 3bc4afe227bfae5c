import Verif.Model.Bitset
import Verif.Model.VectorDebug

/-!
# Model of src/Bitset.c in a build with assertions

The functions of src/Bitset.c that contain a `ZYAN_ASSERT` or reach one in src/Vector.c. A failed assertion
is the outcome `.ub .assertion`.

Simplifications: as in `Model/Bitset.lean` and `Model/VectorDebug.lean`; the assertion that the vector
handed to `ZyanBitsetInitVectorElements` is not null (src/Bitset.c line 89) is left out.
-/

namespace Zy

/-- `ZYAN_CHECK(ZyanVectorGetPointer(Mutable)(...))` followed by `k`, which receives the pointer; for example
src/Bitset.c lines 253-254. -/
def withPointerD {β : Type} (s : VS Byte) (i : Nat) (err : Status → β) (k : Nat → Out β) : Out β :=
  (vecGetPointerD s i).bind fun r =>
  if failed r.1 then .ret (err r.1)
  else match r.2 with
    | none => .ub .null
    | some p => k p

/-- `ZyanBitsetInitVectorElements`: src/Bitset.c lines 87-98. -/
def bsInitElementsD (s : VS Byte) : Nat → Out (Status × VS Byte)
  | 0 => .ret (stSuccess, s)
  | n + 1 =>
    (vecPushBackD s (.ext [some 0#8])).bind fun r =>
    if failed r.1 then .ret r else bsInitElementsD r.2 n

/-- `ZyanBitsetInitEx`: src/Bitset.c lines 142-158. -/
def bsInitExD (w : World Byte) (count : Nat) (allocator : Option Nat) (growth shrink : Nat) :
    Out (Status × Option Bits × World Byte) :=
  let bytes := bitsToBytes count
  let r := vecInitEx w 1 bytes false allocator growth shrink
  if failed r.1 then .ret (r.1, none, r.2.2)
  else match r.2.1 with
    | none => .ret (r.1, none, r.2.2)
    | some v =>
      (bsInitElementsD ⟨v, r.2.2⟩ bytes).bind fun q =>
      if failed q.1 then .ret (q.1, none, q.2.w) else .ret (stSuccess, some ⟨count, q.2⟩, q.2.w)

/-- `ZyanBitsetInitBuffer`: src/Bitset.c lines 160-180. -/
def bsInitBufferD (w : World Byte) (count : Nat) (buffer : Option (Block Byte)) (capacity : Nat) :
    Out (Status × Option Bits) :=
  let bytes := bitsToBytes count
  if capacity < bytes then .ret (stInsufficient, none)
  else
    let r := vecInitBuffer 1 buffer capacity false
    if failed r.1 then .ret (r.1, none)
    else match r.2 with
      | none => .ret (r.1, none)
      | some v =>
        (bsInitElementsD ⟨v, w⟩ bytes).bind fun q =>
        if failed q.1 then .ret (q.1, none) else .ret (stSuccess, some ⟨count, q.2⟩)

/-- `ZyanBitsetDestroy`: src/Bitset.c lines 182-190. -/
def bsDestroyD (t : Bits) : Out (Status × Bits) :=
  (vecDestroyD t.s).bind fun r => .ret (r.1, { t with s := r.2 })

/-- The loop of `ZyanBitsetPerformByteOperation`: src/Bitset.c lines 210-221, with the assertions of lines
217 and 218. -/
def bsOpLoopD (op : Byte → Byte → Status × Byte) (src : VS Byte) : Nat → VS Byte → Nat →
    Out (Status × VS Byte)
  | 0, dst, _ => .ret (stSuccess, dst)
  | n + 1, dst, i =>
    (vecGetPointerD dst i).bind fun r1 =>
    if failed r1.1 then .ret (r1.1, dst)
    else
      (vecGetPointerD src i).bind fun r2 =>
      if failed r2.1 then .ret (r2.1, dst)
      else
        assertThat r1.2.isSome <| assertThat r2.2.isSome <|
        match r1.2, r2.2 with
        | some p1, some p2 =>
          (loadByte dst p1).bind fun x =>
          (loadByte src p2).bind fun y =>
          let r := op x y
          (vecStore dst p1 (some r.2)).bind fun dst =>
          if failed r.1 then .ret (r.1, dst) else bsOpLoopD op src n dst (i + 1)
        | _, _ => .ub .null

/-- `ZyanBitsetPerformByteOperation`: src/Bitset.c lines 196-224. -/
def bsPerformD (op : Byte → Byte → Status × Byte) (dst src : Bits) : Out (Status × Bits) :=
  let n := min (vecGetSize dst.s) (vecGetSize src.s)
  (bsOpLoopD op src.s n dst.s 0).bind fun r => .ret (r.1, { dst with s := r.2 })

/-- The loops over all bytes of `ZyanBitsetFlip`, `ZyanBitsetSetAll` and `ZyanBitsetResetAll`: src/Bitset.c
lines 250-255, 374-379 and 393-398. -/
def bsMapLoopD (f : VS Byte → Nat → Out Byte) : Nat → VS Byte → Nat → Out (Status × VS Byte)
  | 0, s, _ => .ret (stSuccess, s)
  | n + 1, s, i =>
    withPointerD s i (fun st => (st, s)) fun p =>
    (f s p).bind fun x =>
    (vecStore s p (some x)).bind fun s => bsMapLoopD f n s (i + 1)

/-- A function that runs such a loop over the whole bitset: src/Bitset.c lines 241-258, 365-382 and
384-401. -/
def bsMapAllD (f : VS Byte → Nat → Out Byte) (t : Bits) : Out (Status × Bits) :=
  (bsMapLoopD f (vecGetSize t.s) t.s 0).bind fun r => .ret (r.1, { t with s := r.2 })

/-- The common body of `ZyanBitsetSet`, `ZyanBitsetReset` and `ZyanBitsetToggle`: src/Bitset.c lines 264-281,
283-299 and 310-326. -/
def bsModifyD (f : Byte → Byte → Byte) (t : Bits) (index : Nat) : Out (Status × Bits) :=
  if index ≥ t.size then .ret (stOutOfRange, t)
  else
    withPointerD t.s (index / 8) (fun st => (st, t)) fun p =>
    (loadByte t.s p).bind fun x =>
    (vecStore t.s p (some (f x (bitMask index)))).bind fun s => .ret (stSuccess, { t with s := s })

/-- `ZyanBitsetAssign`: src/Bitset.c lines 301-308. -/
def bsAssignD (t : Bits) (index : Nat) (value : Bool) : Out (Status × Bits) :=
  if value then bsModifyD (fun x m => x ||| m) t index else bsModifyD (fun x m => x &&& ~~~m) t index

/-- `ZyanBitsetTest`: src/Bitset.c lines 328-346. -/
def bsTestD (t : Bits) (index : Nat) : Out Status :=
  if index ≥ t.size then .ret stOutOfRange
  else
    withPointerD t.s (index / 8) id fun p =>
    (loadByte t.s p).bind fun x =>
    if x &&& bitMask index = 0#8 then .ret stFalse else .ret stTrue

/-- `ZyanBitsetPush`: src/Bitset.c lines 407-421. -/
def bsPushD (t : Bits) (value : Bool) : Out (Status × Bits) :=
  let old := t.size
  let t := { t with size := add64 t.size 1 }
  (if old % 8 = 0 then vecPushBackD t.s (.ext [some 0#8]) else .ret (stSuccess, t.s)).bind fun r =>
  let t := { t with s := r.2 }
  if failed r.1 then .ret (r.1, t) else bsAssignD t (sub64 t.size 1) value

/-- `ZyanBitsetPop`: src/Bitset.c lines 423-436. -/
def bsPopD (t : Bits) : Out (Status × Bits) :=
  let t := { t with size := sub64 t.size 1 }
  if t.size % 8 = 0 then (vecPopBackD t.s).bind fun r => .ret (r.1, { t with s := r.2 })
  else .ret (stSuccess, t)

/-- `ZyanBitsetClear`: src/Bitset.c lines 438-447. -/
def bsClearD (t : Bits) : Out (Status × Bits) :=
  (vecResizeExD t.s 0 .null).bind fun r => .ret (r.1, ⟨0, r.2⟩)

/-- `ZyanBitsetReserve`: src/Bitset.c lines 453-456. -/
def bsReserveD (t : Bits) (count : Nat) : Out (Status × Bits) :=
  (vecReserveD t.s (bitsToBytes count)).bind fun r => .ret (r.1, { t with s := r.2 })

/-- `ZyanBitsetShrinkToFit`: src/Bitset.c lines 458-461. -/
def bsShrinkToFitD (t : Bits) : Out (Status × Bits) :=
  (vecShrinkToFitD t.s).bind fun r => .ret (r.1, { t with s := r.2 })

/-- The loop of `ZyanBitsetCount`: src/Bitset.c lines 520-531. -/
def bsCountLoopD (s : VS Byte) : Nat → Nat → Nat → Out (Status × Nat)
  | 0, _, acc => .ret (stSuccess, acc)
  | n + 1, i, acc =>
    withPointerD s i (fun st => (st, acc)) fun p =>
    (loadByte s p).bind fun x => bsCountLoopD s n (i + 1) (add64 acc (popcnt x).toNat)

/-- `ZyanBitsetCount`: src/Bitset.c lines 509-536. -/
def bsCountD (t : Bits) : Out (Status × Nat) :=
  (bsCountLoopD t.s (vecGetSize t.s) 0 0).bind fun r =>
  if failed r.1 then .ret r else .ret (stSuccess, min r.2 t.size)

/-- The loops of `ZyanBitsetAll`, `ZyanBitsetAny` and `ZyanBitsetNone`: src/Bitset.c lines 547-567, 579-599
and 611-631. -/
def bsScanD (t : Bits) (whole : Byte → Bool) (last : Byte → Byte → Bool) (hit miss : Status) :
    Nat → Nat → Out Status
  | 0, _ => .ret miss
  | n + 1, i =>
    withPointerD t.s i id fun p =>
    (loadByte t.s p).bind fun x =>
    if i < sub64 (vecGetSize t.s) 1 then
      if whole x then .ret hit else bsScanD t whole last hit miss n (i + 1)
    else
      if last x (lastMask t.size) then .ret hit else bsScanD t whole last hit miss n (i + 1)

/-- `ZyanBitsetAll`: src/Bitset.c lines 538-568. -/
def bsAllD (t : Bits) : Out Status :=
  bsScanD t (fun x => x != 0xFF#8) (fun x m => (x &&& m) != m) stFalse stTrue (vecGetSize t.s) 0
/-- `ZyanBitsetAny`: src/Bitset.c lines 570-600. -/
def bsAnyD (t : Bits) : Out Status :=
  bsScanD t (fun x => x != 0x00#8) (fun x m => (x &&& m) != 0x00#8) stTrue stFalse (vecGetSize t.s) 0
/-- `ZyanBitsetNone`: src/Bitset.c lines 602-632. -/
def bsNoneD (t : Bits) : Out Status :=
  bsScanD t (fun x => x != 0x00#8) (fun x m => (x &&& m) != 0x00#8) stFalse stTrue (vecGetSize t.s) 0

end Zy
