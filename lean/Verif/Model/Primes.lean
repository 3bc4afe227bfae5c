import Verif.Model.Bitset

/-!
# The sieve of Eratosthenes

A program of a user of the library that finds primes with a bitset.
-/

namespace Zy

/-- `while (j < size) { ZYAN_CHECK(ZyanBitsetSet(&bitset, j)); j += i; }`, at most `n` rounds (`ZyanBitsetSet`: src/Bitset.c
lines 264-281). The bound is a means of writing the loop; the sieve passes the number of bits, which is enough. -/
def strikeOut (i : Nat) : Nat → Nat → Bits → Out (Status × Bits)
  | 0, _, t => .ret (stSuccess, t)
  | n + 1, j, t =>
    if j < bsGetSize t then
      (bsSet t j).bind fun r => if failed r.1 then .ret r else strikeOut i n (add64 j i) r.2
    else .ret (stSuccess, t)

/-- `for (i = ...; i < size; ++i) { if (ZyanBitsetTest(&bitset, i) == ZYAN_STATUS_FALSE) { j = i + i; ... } }`, at most `n`
rounds, with the loop `strikeOut` for the dots (`ZyanBitsetTest`: src/Bitset.c lines 328-346). -/
def sieveFrom : Nat → Nat → Bits → Out (Status × Bits)
  | 0, _, t => .ret (stSuccess, t)
  | n + 1, i, t =>
    if i < bsGetSize t then
      (bsTest t i).bind fun st =>
      if st = stFalse then
        (strikeOut i (bsGetSize t) (add64 i i) t).bind fun r => if failed r.1 then .ret r else sieveFrom n (add64 i 1) r.2
      else sieveFrom n (add64 i 1) t
    else .ret (stSuccess, t)

/-- `ZYAN_CHECK(ZyanBitsetResetAll(&bitset))` (src/Bitset.c lines 384-401), and then the loop from 2 on. -/
def sievePrimes (t : Bits) : Out (Status × Bits) :=
  (bsResetAll t).bind fun r => if failed r.1 then .ret r else sieveFrom (bsGetSize r.2) 2 r.2

end Zy
