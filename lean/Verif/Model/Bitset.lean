import Verif.Model.Vector

/-!
# Model of src/Bitset.c

Simplifications, stated once for the whole file (those of `Model/Vector` apply as well):

* The vector element is a byte (`BitVec 8`).
* For a logical operation of a bitset with itself, both arguments are the same value here. In C each
  iteration of the loop reads and writes only the byte of its own index, so the results agree.
* A failed initialisation returns no bitset (the C struct is then partly initialised and must not be used).
* `1 << offset` is an `int` in C; only its low eight bits reach the byte, so it is a `BitVec 8` here.
-/

namespace Zy

/-- `ZyanBitset`: include/Zycore/Bitset.h lines 54-64; `s` is the `bits` vector with its environment. -/
structure Bits where
  size : Nat
  s : VS Byte

/-! ## Macros and helpers -/

/-- `ZYAN_BITSET_CEIL`: src/Bitset.c lines 48-49, for a `ZyanUSize` argument. -/
def bsCeil (x : Nat) : Nat :=
  if x = x % 4294967296 then x % 4294967296 else (x % 4294967296 + 1) % 4294967296

/-- `ZYAN_BITSET_BITS_TO_BYTES`: src/Bitset.c lines 58-59. The division is an integer division. -/
def bitsToBytes (x : Nat) : Nat := bsCeil (x / 8)

/-- `1 << ZYAN_BITSET_BIT_OFFSET(index)`: src/Bitset.c lines 68-69. -/
def bitMask (index : Nat) : Byte := 1#8 <<< (7 - index % 8)

/-- Store through a pointer obtained from `ZyanVectorGetPointerMutable`. -/
def vecStore (s : VS Byte) (k : Nat) (c : Cell Byte) : Out (VS Byte) :=
  withData s.v.data fun b =>
  (writeRange b.cells k [c]).bind fun cs =>
  .ret { s with v := { s.v with data := some { b with cells := cs } } }

/-- `ZYAN_CHECK(ZyanVectorGetPointer(Mutable)(...))` followed by `k`, which receives the pointer. -/
def withPointer {β : Type} (s : VS Byte) (i : Nat) (err : Status → β) (k : Nat → Out β) : Out β :=
  let r := vecGetPointer s i
  if failed r.1 then .ret (err r.1)
  else match r.2 with
    | none => .ub .null
    | some p => k p

/-- Dereference of a byte pointer whose value is used. -/
def loadByte (s : VS Byte) (p : Nat) : Out Byte :=
  (vecDeref s p).bind fun c =>
  match c with
  | none => .ub .indet
  | some x => .ret x

/-- `ZyanBitsetInitVectorElements`: src/Bitset.c lines 87-98. -/
def bsInitElements (s : VS Byte) : Nat → Out (Status × VS Byte)
  | 0 => .ret (stSuccess, s)
  | n + 1 =>
    (vecPushBack s (.ext [some 0#8])).bind fun r =>
    if failed r.1 then .ret r else bsInitElements r.2 n

/-! ## Constructor and destructor -/

/-- `ZyanBitsetInitEx`: src/Bitset.c lines 142-158. -/
def bsInitEx (w : World Byte) (count : Nat) (allocator : Option Nat) (growth shrink : Nat) :
    Out (Status × Option Bits × World Byte) :=
  let bytes := bitsToBytes count
  let r := vecInitEx w 1 bytes false allocator growth shrink
  if failed r.1 then .ret (r.1, none, r.2.2)
  else match r.2.1 with
    | none => .ret (r.1, none, r.2.2)
    | some v =>
      (bsInitElements ⟨v, r.2.2⟩ bytes).bind fun q =>
      if failed q.1 then .ret (q.1, none, q.2.w) else .ret (stSuccess, some ⟨count, q.2⟩, q.2.w)

/-- `ZyanBitsetInit`: src/Bitset.c lines 134-138 (growth factor 2, shrink threshold 2, lines 34-35). -/
def bsInit (w : World Byte) (count : Nat) : Out (Status × Option Bits × World Byte) :=
  bsInitEx w count (some 0) 2 2

/-- `ZyanBitsetInitBuffer`: src/Bitset.c lines 160-180. -/
def bsInitBuffer (w : World Byte) (count : Nat) (buffer : Option (Block Byte)) (capacity : Nat) :
    Out (Status × Option Bits) :=
  let bytes := bitsToBytes count
  if capacity < bytes then .ret (stInsufficient, none)
  else
    let r := vecInitBuffer 1 buffer capacity false
    if failed r.1 then .ret (r.1, none)
    else match r.2 with
      | none => .ret (r.1, none)
      | some v =>
        (bsInitElements ⟨v, w⟩ bytes).bind fun q =>
        if failed q.1 then .ret (q.1, none) else .ret (stSuccess, some ⟨count, q.2⟩)

/-- `ZyanBitsetDestroy`: src/Bitset.c lines 182-190. -/
def bsDestroy (t : Bits) : Out (Status × Bits) :=
  (vecDestroy t.s).bind fun r => .ret (r.1, { t with s := r.2 })

/-! ## Logical operations -/

/-- The loop of `ZyanBitsetPerformByteOperation`: src/Bitset.c lines 210-221, for `n` iterations from
byte `i`. The operation receives both bytes and returns its status and the new first byte. -/
def bsOpLoop (op : Byte → Byte → Status × Byte) (src : VS Byte) : Nat → VS Byte → Nat →
    Out (Status × VS Byte)
  | 0, dst, _ => .ret (stSuccess, dst)
  | n + 1, dst, i =>
    withPointer dst i (fun st => (st, dst)) fun p1 =>
    withPointer src i (fun st => (st, dst)) fun p2 =>
    (loadByte dst p1).bind fun x =>
    (loadByte src p2).bind fun y =>
    let r := op x y
    (vecStore dst p1 (some r.2)).bind fun dst =>
    if failed r.1 then .ret (r.1, dst) else bsOpLoop op src n dst (i + 1)

/-- `ZyanBitsetPerformByteOperation`: src/Bitset.c lines 196-224. -/
def bsPerform (op : Byte → Byte → Status × Byte) (dst src : Bits) : Out (Status × Bits) :=
  let n := min (vecGetSize dst.s) (vecGetSize src.s)
  (bsOpLoop op src.s n dst.s 0).bind fun r => .ret (r.1, { dst with s := r.2 })

/-- `ZyanBitsetAND`: src/Bitset.c lines 104-108 and 226-229. -/
def bsAnd : Bits → Bits → Out (Status × Bits) := bsPerform fun x y => (stSuccess, x &&& y)
/-- `ZyanBitsetOR`: src/Bitset.c lines 110-114 and 231-234. -/
def bsOr : Bits → Bits → Out (Status × Bits) := bsPerform fun x y => (stSuccess, x ||| y)
/-- `ZyanBitsetXOR`: src/Bitset.c lines 116-120 and 236-239. -/
def bsXor : Bits → Bits → Out (Status × Bits) := bsPerform fun x y => (stSuccess, x ^^^ y)

/-- The loops over all bytes of `ZyanBitsetFlip`, `ZyanBitsetSetAll` and `ZyanBitsetResetAll`: src/Bitset.c
lines 250-255, 374-379 and 393-398, for `n` iterations from byte `i`; `f` is the assignment. -/
def bsMapLoop (f : VS Byte → Nat → Out Byte) : Nat → VS Byte → Nat → Out (Status × VS Byte)
  | 0, s, _ => .ret (stSuccess, s)
  | n + 1, s, i =>
    withPointer s i (fun st => (st, s)) fun p =>
    (f s p).bind fun x =>
    (vecStore s p (some x)).bind fun s => bsMapLoop f n s (i + 1)

/-- A function that runs such a loop over the whole bitset. -/
def bsMapAll (f : VS Byte → Nat → Out Byte) (t : Bits) : Out (Status × Bits) :=
  (bsMapLoop f (vecGetSize t.s) t.s 0).bind fun r => .ret (r.1, { t with s := r.2 })

/-- `ZyanBitsetFlip`: src/Bitset.c lines 241-258. -/
def bsFlip : Bits → Out (Status × Bits) :=
  bsMapAll fun s p => (loadByte s p).bind fun x => .ret (~~~x)

/-! ## Bit access -/

/-- The common body of `ZyanBitsetSet`, `ZyanBitsetReset` and `ZyanBitsetToggle`; `f` combines the byte and
the mask. -/
def bsModify (f : Byte → Byte → Byte) (t : Bits) (index : Nat) : Out (Status × Bits) :=
  if index ≥ t.size then .ret (stOutOfRange, t)
  else
    withPointer t.s (index / 8) (fun st => (st, t)) fun p =>
    (loadByte t.s p).bind fun x =>
    (vecStore t.s p (some (f x (bitMask index)))).bind fun s => .ret (stSuccess, { t with s := s })

/-- `ZyanBitsetSet`: src/Bitset.c lines 264-281. -/
def bsSet : Bits → Nat → Out (Status × Bits) := bsModify fun x m => x ||| m
/-- `ZyanBitsetReset`: src/Bitset.c lines 283-299. -/
def bsReset : Bits → Nat → Out (Status × Bits) := bsModify fun x m => x &&& ~~~m
/-- `ZyanBitsetAssign`: src/Bitset.c lines 301-308. -/
def bsAssign (t : Bits) (index : Nat) (value : Bool) : Out (Status × Bits) :=
  if value then bsSet t index else bsReset t index
/-- `ZyanBitsetToggle`: src/Bitset.c lines 310-326. -/
def bsToggle : Bits → Nat → Out (Status × Bits) := bsModify fun x m => x ^^^ m

/-- `ZyanBitsetTest`: src/Bitset.c lines 328-346. -/
def bsTest (t : Bits) (index : Nat) : Out Status :=
  if index ≥ t.size then .ret stOutOfRange
  else
    withPointer t.s (index / 8) id fun p =>
    (loadByte t.s p).bind fun x =>
    if x &&& bitMask index = 0#8 then .ret stFalse else .ret stTrue

/-- `ZyanBitsetTestMSB`: src/Bitset.c lines 348-356. -/
def bsTestMSB (t : Bits) : Out Status := bsTest t (sub64 t.size 1)
/-- `ZyanBitsetTestLSB`: src/Bitset.c lines 358-361. -/
def bsTestLSB (t : Bits) : Out Status := bsTest t 0

/-- `ZyanBitsetSetAll`: src/Bitset.c lines 365-382. -/
def bsSetAll : Bits → Out (Status × Bits) := bsMapAll fun _ _ => .ret 0xFF#8
/-- `ZyanBitsetResetAll`: src/Bitset.c lines 384-401. -/
def bsResetAll : Bits → Out (Status × Bits) := bsMapAll fun _ _ => .ret 0x00#8

/-! ## Size and memory management -/

/-- `ZyanBitsetPush`: src/Bitset.c lines 407-421. The size is increased before anything can fail. -/
def bsPush (t : Bits) (value : Bool) : Out (Status × Bits) :=
  let old := t.size
  let t := { t with size := add64 t.size 1 }
  (if old % 8 = 0 then vecPushBack t.s (.ext [some 0#8]) else .ret (stSuccess, t.s)).bind fun r =>
  let t := { t with s := r.2 }
  if failed r.1 then .ret (r.1, t) else bsAssign t (sub64 t.size 1) value

/-- `ZyanBitsetPop`: src/Bitset.c lines 423-436. -/
def bsPop (t : Bits) : Out (Status × Bits) :=
  let t := { t with size := sub64 t.size 1 }
  if t.size % 8 = 0 then (vecPopBack t.s).bind fun r => .ret (r.1, { t with s := r.2 })
  else .ret (stSuccess, t)

/-- `ZyanBitsetClear`: src/Bitset.c lines 438-447. -/
def bsClear (t : Bits) : Out (Status × Bits) :=
  (vecClear t.s).bind fun r => .ret (r.1, ⟨0, r.2⟩)

/-- `ZyanBitsetReserve`: src/Bitset.c lines 453-456. -/
def bsReserve (t : Bits) (count : Nat) : Out (Status × Bits) :=
  (vecReserve t.s (bitsToBytes count)).bind fun r => .ret (r.1, { t with s := r.2 })

/-- `ZyanBitsetShrinkToFit`: src/Bitset.c lines 458-461. -/
def bsShrinkToFit (t : Bits) : Out (Status × Bits) :=
  (vecShrinkToFit t.s).bind fun r => .ret (r.1, { t with s := r.2 })

/-! ## Information -/

/-- `ZyanBitsetGetSize`: src/Bitset.c lines 467-477. -/
def bsGetSize (t : Bits) : Nat := t.size
/-- `ZyanBitsetGetSizeBytes`: src/Bitset.c lines 487-495. -/
def bsGetSizeBytes (t : Bits) : Nat := vecGetSize t.s
/-- `ZyanBitsetGetCapacityBytes`: src/Bitset.c lines 497-505. -/
def bsGetCapacityBytes (t : Bits) : Nat := vecGetCapacity t.s
/-- `ZyanBitsetGetCapacity`: src/Bitset.c lines 479-485. -/
def bsGetCapacity (t : Bits) : Nat := mul64 (bsGetCapacityBytes t) 8

/-- The bit counting of one byte: src/Bitset.c lines 525-528. -/
def popcnt (b : Byte) : Byte :=
  let b := (b &&& 0x55#8) + ((b >>> 1) &&& 0x55#8)
  let b := (b &&& 0x33#8) + ((b >>> 2) &&& 0x33#8)
  (b &&& 0x0F#8) + ((b >>> 4) &&& 0x0F#8)

/-- The loop of `ZyanBitsetCount`: src/Bitset.c lines 520-531, for `n` iterations from byte `i`. -/
def bsCountLoop (s : VS Byte) : Nat → Nat → Nat → Out (Status × Nat)
  | 0, _, acc => .ret (stSuccess, acc)
  | n + 1, i, acc =>
    withPointer s i (fun st => (st, acc)) fun p =>
    (loadByte s p).bind fun x => bsCountLoop s n (i + 1) (add64 acc (popcnt x).toNat)

/-- `ZyanBitsetCount`: src/Bitset.c lines 509-536. -/
def bsCount (t : Bits) : Out (Status × Nat) :=
  (bsCountLoop t.s (vecGetSize t.s) 0 0).bind fun r =>
  if failed r.1 then .ret r else .ret (stSuccess, min r.2 t.size)

/-- `const ZyanU8 mask = ~(8 - (bitset->size % 8))`: src/Bitset.c lines 559, 591 and 623. -/
def lastMask (size : Nat) : Byte := ~~~(BitVec.ofNat 8 (8 - size % 8))

/-- The loops of `ZyanBitsetAll`, `ZyanBitsetAny` and `ZyanBitsetNone`: src/Bitset.c lines 547-567, 579-599
and 611-631, for `n` iterations from byte `i`. `whole` and `last` decide whether to stop with the status
`hit` at a byte in front and at the last byte; `miss` is the status after the loop. -/
def bsScan (t : Bits) (whole : Byte → Bool) (last : Byte → Byte → Bool) (hit miss : Status) :
    Nat → Nat → Out Status
  | 0, _ => .ret miss
  | n + 1, i =>
    withPointer t.s i id fun p =>
    (loadByte t.s p).bind fun x =>
    if i < sub64 (vecGetSize t.s) 1 then
      if whole x then .ret hit else bsScan t whole last hit miss n (i + 1)
    else
      if last x (lastMask t.size) then .ret hit else bsScan t whole last hit miss n (i + 1)

/-- `ZyanBitsetAll`: src/Bitset.c lines 538-568. -/
def bsAll (t : Bits) : Out Status :=
  bsScan t (fun x => x != 0xFF#8) (fun x m => (x &&& m) != m) stFalse stTrue (vecGetSize t.s) 0
/-- `ZyanBitsetAny`: src/Bitset.c lines 570-600. -/
def bsAny (t : Bits) : Out Status :=
  bsScan t (fun x => x != 0x00#8) (fun x m => (x &&& m) != 0x00#8) stTrue stFalse (vecGetSize t.s) 0
/-- `ZyanBitsetNone`: src/Bitset.c lines 602-632. -/
def bsNone (t : Bits) : Out Status :=
  bsScan t (fun x => x != 0x00#8) (fun x m => (x &&& m) != 0x00#8) stFalse stTrue (vecGetSize t.s) 0

end Zy
