import Verif.Model.Bitset

/-!
# Model of the logical operations with one bitset as both arguments

`ZyanBitsetPerformByteOperation(bitset, bitset, operation)`: both element pointers point to the same byte, so a
byte that was already replaced is seen through both. `Model/Bitset` has two separate bitsets.
-/

namespace Zy

/-- The loop of `ZyanBitsetPerformByteOperation` when both arguments are the same bitset: src/Bitset.c lines
210-221, for `n` iterations from byte `i`. Both bytes are loaded from the current storage. -/
def bsSelfLoop (op : Byte → Byte → Status × Byte) : Nat → VS Byte → Nat → Out (Status × VS Byte)
  | 0, s, _ => .ret (stSuccess, s)
  | n + 1, s, i =>
    withPointer s i (fun st => (st, s)) fun p1 =>
    withPointer s i (fun st => (st, s)) fun p2 =>
    (loadByte s p1).bind fun x =>
    (loadByte s p2).bind fun y =>
    let r := op x y
    (vecStore s p1 (some r.2)).bind fun s =>
    if failed r.1 then .ret (r.1, s) else bsSelfLoop op n s (i + 1)

/-- `ZyanBitsetPerformByteOperation` with one bitset as both arguments: src/Bitset.c lines 196-224. -/
def bsPerformSelf (op : Byte → Byte → Status × Byte) (t : Bits) : Out (Status × Bits) :=
  let n := min (vecGetSize t.s) (vecGetSize t.s)
  (bsSelfLoop op n t.s 0).bind fun r => .ret (r.1, { t with s := r.2 })

/-- `ZyanBitsetAND(bitset, bitset)`: src/Bitset.c lines 104-108 and 226-229. -/
def bsAndSelf : Bits → Out (Status × Bits) := bsPerformSelf fun x y => (stSuccess, x &&& y)
/-- `ZyanBitsetOR(bitset, bitset)`: src/Bitset.c lines 110-114 and 231-234. -/
def bsOrSelf : Bits → Out (Status × Bits) := bsPerformSelf fun x y => (stSuccess, x ||| y)
/-- `ZyanBitsetXOR(bitset, bitset)`: src/Bitset.c lines 116-120 and 236-239. -/
def bsXorSelf : Bits → Out (Status × Bits) := bsPerformSelf fun x y => (stSuccess, x ^^^ y)

end Zy
