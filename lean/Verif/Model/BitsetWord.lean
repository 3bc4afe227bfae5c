import Verif.Model.VectorWord
import Verif.Spec.BitsetRun

/-!
# Bitsets on targets with another width of `size_t`

The functions of src/Bitset.c that compute with sizes once more, with the number `m` of values of `size_t`
as a parameter, on top of `Model/VectorWord.lean`. The other functions are those of `Model/Bitset.lean`. The
casts to `ZyanU32` in `ZYAN_BITSET_CEIL` do not depend on the width.
-/

namespace Zy

open Spec

/-- `ZyanBitsetInitVectorElements`: src/Bitset.c lines 87-98. -/
def bsInitElementsW (m : Nat) (s : VS Byte) : Nat → Out (Status × VS Byte)
  | 0 => .ret (stSuccess, s)
  | n + 1 =>
    (vecPushBackW m s (.ext [some 0#8])).bind fun r =>
    if failed r.1 then .ret r else bsInitElementsW m r.2 n

/-- `ZyanBitsetInitEx`: src/Bitset.c lines 142-158. -/
def bsInitExW (m : Nat) (w : World Byte) (count : Nat) (allocator : Option Nat) (growth shrink : Nat) :
    Out (Status × Option Bits × World Byte) :=
  let bytes := bitsToBytes count
  let r := vecInitExW m w 1 bytes false allocator growth shrink
  if failed r.1 then .ret (r.1, none, r.2.2)
  else match r.2.1 with
    | none => .ret (r.1, none, r.2.2)
    | some v =>
      (bsInitElementsW m ⟨v, r.2.2⟩ bytes).bind fun q =>
      if failed q.1 then .ret (q.1, none, q.2.w) else .ret (stSuccess, some ⟨count, q.2⟩, q.2.w)

/-- `ZyanBitsetInitBuffer`: src/Bitset.c lines 160-180. -/
def bsInitBufferW (m : Nat) (w : World Byte) (count : Nat) (buffer : Option (Block Byte)) (capacity : Nat) :
    Out (Status × Option Bits) :=
  let bytes := bitsToBytes count
  if capacity < bytes then .ret (stInsufficient, none)
  else
    let r := vecInitBuffer 1 buffer capacity false
    if failed r.1 then .ret (r.1, none)
    else match r.2 with
      | none => .ret (r.1, none)
      | some v =>
        (bsInitElementsW m ⟨v, w⟩ bytes).bind fun q =>
        if failed q.1 then .ret (q.1, none) else .ret (stSuccess, some ⟨count, q.2⟩)

/-- `ZyanBitsetTestMSB`: src/Bitset.c lines 348-356. -/
def bsTestMSBW (m : Nat) (t : Bits) : Out Status := bsTest t (subW m t.size 1)

/-- `ZyanBitsetPush`: src/Bitset.c lines 407-421. The size is increased before anything can fail. -/
def bsPushW (m : Nat) (t : Bits) (value : Bool) : Out (Status × Bits) :=
  let old := t.size
  let t := { t with size := addW m t.size 1 }
  (if old % 8 = 0 then vecPushBackW m t.s (.ext [some 0#8]) else .ret (stSuccess, t.s)).bind fun r =>
  let t := { t with s := r.2 }
  if failed r.1 then .ret (r.1, t) else bsAssign t (subW m t.size 1) value

/-- `ZyanBitsetPop`: src/Bitset.c lines 423-436. -/
def bsPopW (m : Nat) (t : Bits) : Out (Status × Bits) :=
  let t := { t with size := subW m t.size 1 }
  if t.size % 8 = 0 then (vecPopBackW m t.s).bind fun r => .ret (r.1, { t with s := r.2 })
  else .ret (stSuccess, t)

/-- `ZyanBitsetClear`: src/Bitset.c lines 438-447. -/
def bsClearW (m : Nat) (t : Bits) : Out (Status × Bits) :=
  (vecClearW m t.s).bind fun r => .ret (r.1, ⟨0, r.2⟩)

/-- `ZyanBitsetReserve`: src/Bitset.c lines 453-456. -/
def bsReserveW (m : Nat) (t : Bits) (count : Nat) : Out (Status × Bits) :=
  (vecReserveW m t.s (bitsToBytes count)).bind fun r => .ret (r.1, { t with s := r.2 })

/-- `ZyanBitsetShrinkToFit`: src/Bitset.c lines 458-461. -/
def bsShrinkToFitW (m : Nat) (t : Bits) : Out (Status × Bits) :=
  (vecShrinkToFitW m t.s).bind fun r => .ret (r.1, { t with s := r.2 })

/-- `ZyanBitsetGetCapacity`: src/Bitset.c lines 479-485. -/
def bsGetCapacityW (m : Nat) (t : Bits) : Nat := mulW m (bsGetCapacityBytes t) 8

/-- The loop of `ZyanBitsetCount`: src/Bitset.c lines 520-531, for `n` iterations from byte `i`. -/
def bsCountLoopW (m : Nat) (s : VS Byte) : Nat → Nat → Nat → Out (Status × Nat)
  | 0, _, acc => .ret (stSuccess, acc)
  | n + 1, i, acc =>
    withPointer s i (fun st => (st, acc)) fun p =>
    (loadByte s p).bind fun x => bsCountLoopW m s n (i + 1) (addW m acc (popcnt x).toNat)

/-- `ZyanBitsetCount`: src/Bitset.c lines 509-536. -/
def bsCountW (m : Nat) (t : Bits) : Out (Status × Nat) :=
  (bsCountLoopW m t.s (vecGetSize t.s) 0 0).bind fun r =>
  if failed r.1 then .ret r else .ret (stSuccess, min r.2 t.size)

/-- The loops of `ZyanBitsetAll`, `ZyanBitsetAny` and `ZyanBitsetNone`: src/Bitset.c lines 547-567, 579-599
and 611-631 (compare `bsScan`). -/
def bsScanW (m : Nat) (t : Bits) (whole : Byte → Bool) (last : Byte → Byte → Bool) (hit miss : Status) :
    Nat → Nat → Out Status
  | 0, _ => .ret miss
  | n + 1, i =>
    withPointer t.s i id fun p =>
    (loadByte t.s p).bind fun x =>
    if i < subW m (vecGetSize t.s) 1 then
      if whole x then .ret hit else bsScanW m t whole last hit miss n (i + 1)
    else
      if last x (lastMask t.size) then .ret hit else bsScanW m t whole last hit miss n (i + 1)

/-- `ZyanBitsetAll`: src/Bitset.c lines 538-568. -/
def bsAllW (m : Nat) (t : Bits) : Out Status :=
  bsScanW m t (fun x => x != 0xFF#8) (fun x k => (x &&& k) != k) stFalse stTrue (vecGetSize t.s) 0
/-- `ZyanBitsetAny`: src/Bitset.c lines 570-600. -/
def bsAnyW (m : Nat) (t : Bits) : Out Status :=
  bsScanW m t (fun x => x != 0x00#8) (fun x k => (x &&& k) != 0x00#8) stTrue stFalse (vecGetSize t.s) 0
/-- `ZyanBitsetNone`: src/Bitset.c lines 602-632. -/
def bsNoneW (m : Nat) (t : Bits) : Out Status :=
  bsScanW m t (fun x => x != 0x00#8) (fun x k => (x &&& k) != 0x00#8) stFalse stTrue (vecGetSize t.s) 0

/-- Reading of an API operation as a call of the modelled function (compare `bsOp`). -/
def bsOpW (m : Nat) (t : Bits) : BOp → Out (Status × Bits)
  | .push v => bsPushW m t v
  | .pop => bsPopW m t
  | .set i => bsSet t i
  | .reset i => bsReset t i
  | .assign i v => bsAssign t i v
  | .toggle i => bsToggle t i
  | .setAll => bsSetAll t
  | .resetAll => bsResetAll t
  | .flip => bsFlip t
  | .clear => bsClearW m t
  | .reserve n => bsReserveW m t n
  | .shrinkToFit => bsShrinkToFitW m t

/-- A history of API calls: the statuses returned and the final state. -/
def runBitsW (m : Nat) (t : Bits) : List BOp → Out (List Status × Bits)
  | [] => .ret ([], t)
  | op :: ops => (bsOpW m t op).bind fun r => (runBitsW m r.2 ops).bind fun q => .ret (r.1 :: q.1, q.2)

end Zy
