import Verif.Model.LibCMem

/-!
# Model of the C library replacements

`include/Zycore/LibC.h` lines 230-502, the code that is used if the library is built with
`ZYAN_NO_LIBC`. Every function works on a flat memory; a pointer is an address, a null pointer
`none`. A load or store at an address that is not accessible is undefined behaviour (`oob`), and so is
a decision that depends on an indeterminate byte (`indet`).

Simplifications: addresses and sizes are natural numbers (objects do not wrap around the address
space, and a size fits into `size_t` because it is at most the size of an object). The conversions `(char)c` and
`(ZyanU8)c` of an `int` keep its low eight bits. Loops without a counter get the size of the memory
plus one as fuel; every round reads at an address that grows, so that the fuel is never exhausted
before an address behind the end is read.
-/

namespace Zy

/-! ## Accesses -/

/-- A load whose value decides something or is computed with. -/
def ld (m : Mem) (p : Nat) : Out Byte :=
  match m[p]? with
  | some (.byte b) => .ret b
  | some .raw => .ub .indet
  | _ => .ub .oob

/-- A load whose value is only stored again: indeterminate bytes may be copied. -/
def ldAny (m : Mem) (p : Nat) : Out MCell :=
  match m[p]? with
  | some .raw => .ret .raw
  | some (.byte b) => .ret (.byte b)
  | _ => .ub .oob

/-- A store. -/
def stCell (m : Mem) (p : Nat) (c : MCell) : Out Mem :=
  match m[p]? with
  | some .raw => .ret (m.set p c)
  | some (.byte _) => .ret (m.set p c)
  | _ => .ub .oob

/-- The difference of two bytes as an `int`. -/
def byteDiff (a b : Byte) : Int := (a.toNat : Int) - (b.toNat : Int)

/-! ## Memory functions -/

/-- `ZYAN_MEMCHR`: LibC.h lines 234-248. -/
def lcMemchr (m : Mem) (p : Nat) (c : Int) : Nat → Out (Option Nat)
  | 0 => .ret none
  | n + 1 =>
    (ld m p).bind fun b =>
    if b ≠ BitVec.ofInt 8 c then lcMemchr m (p + 1) c n else .ret (some p)

/-- `ZYAN_MEMCMP`: LibC.h lines 250-262. -/
def lcMemcmp (m : Mem) (p1 p2 : Nat) : Nat → Out Int
  | 0 => .ret 0
  | n + 1 =>
    (ld m p1).bind fun a => (ld m p2).bind fun b =>
    if a ≠ b then .ret (byteDiff a b) else lcMemcmp m (p1 + 1) (p2 + 1) n

/-- The ascending copy loop: LibC.h lines 268-271 and 286-289. -/
def copyUp (m : Mem) (dp sp : Nat) : Nat → Out Mem
  | 0 => .ret m
  | n + 1 => (ldAny m sp).bind fun c => (stCell m dp c).bind fun m => copyUp m (dp + 1) (sp + 1) n

/-- The descending copy loop: LibC.h lines 281-284. -/
def copyDown (m : Mem) (pd ps : Nat) : Nat → Out Mem
  | 0 => .ret m
  | n + 1 =>
    (ldAny m (ps - 1)).bind fun c => (stCell m (pd - 1) c).bind fun m => copyDown m (pd - 1) (ps - 1) n

/-- `ZYAN_MEMCPY`: LibC.h lines 264-273. -/
def lcMemcpy (m : Mem) (dst src n : Nat) : Out (Nat × Mem) :=
  (copyUp m dst src n).bind fun m => .ret (dst, m)

/-- `ZYAN_MEMMOVE`: LibC.h lines 275-293. -/
def lcMemmove (m : Mem) (dst src n : Nat) : Out (Nat × Mem) :=
  if src < dst then (copyDown m (dst + n) (src + n) n).bind fun m => .ret (dst, m)
  else (copyUp m dst src n).bind fun m => .ret (dst, m)

/-- The loop of `ZYAN_MEMSET` and the filling loop of `ZYAN_STRNCPY`: LibC.h lines 298-301, 418-421. -/
def fillUp (m : Mem) (p : Nat) (b : Byte) : Nat → Out Mem
  | 0 => .ret m
  | n + 1 => (stCell m p (.byte b)).bind fun m => fillUp m (p + 1) b n

/-- `ZYAN_MEMSET`: LibC.h lines 295-303. -/
def lcMemset (m : Mem) (dst : Nat) (val : Int) (n : Nat) : Out (Nat × Mem) :=
  (fillUp m dst (BitVec.ofInt 8 val) n).bind fun m => .ret (dst, m)

/-! ## Strings: length, copies -/

/-- Advancing to the terminator: LibC.h lines 308-311, 371-374, 381-384. -/
def toEnd (m : Mem) : Nat → Nat → Out Nat
  | _, 0 => .ub .diverge
  | p, fuel + 1 => (ld m p).bind fun b => if b ≠ 0#8 then toEnd m (p + 1) fuel else .ret p

/-- `ZYAN_STRLEN`: LibC.h lines 368-376. -/
def lcStrlen (m : Mem) (str : Nat) : Out Nat :=
  (toEnd m str (m.length + 1)).bind fun e => .ret (e - str)

/-- `while ((*dest++ = *src++));`: LibC.h lines 312 and 350. -/
def copyStr : Mem → Nat → Nat → Nat → Out Mem
  | _, _, _, 0 => .ub .diverge
  | m, dest, src, fuel + 1 =>
    (ld m src).bind fun c => (stCell m dest (.byte c)).bind fun m =>
    if c ≠ 0#8 then copyStr m (dest + 1) (src + 1) fuel else .ret m

/-- `ZYAN_STRCPY`: LibC.h lines 347-352. -/
def lcStrcpy (m : Mem) (dest src : Nat) : Out (Nat × Mem) :=
  (copyStr m dest src (m.length + 1)).bind fun m => .ret (dest, m)

/-- `ZYAN_STRCAT`: LibC.h lines 305-314. -/
def lcStrcat (m : Mem) (dest src : Nat) : Out (Nat × Mem) :=
  (toEnd m dest (m.length + 1)).bind fun d =>
  (copyStr m d src (m.length + 1)).bind fun m => .ret (dest, m)

/-- The loop of `ZYAN_STRNCAT` and the final store: LibC.h lines 385-392. -/
def catLoop (m : Mem) (dest src : Nat) : Nat → Out Mem
  | 0 => stCell m dest (.byte 0#8)
  | n + 1 =>
    (ld m src).bind fun c => (stCell m dest (.byte c)).bind fun m =>
    if c = 0#8 then .ret m else catLoop m (dest + 1) (src + 1) n

/-- `ZYAN_STRNCAT`: LibC.h lines 378-394. -/
def lcStrncat (m : Mem) (dest src n : Nat) : Out (Nat × Mem) :=
  (toEnd m dest (m.length + 1)).bind fun d => (catLoop m d src n).bind fun m => .ret (dest, m)

/-- Both loops of `ZYAN_STRNCPY`: LibC.h lines 411-421. -/
def ncpyLoop (m : Mem) (dest src : Nat) : Nat → Out Mem
  | 0 => .ret m
  | n + 1 =>
    (ld m src).bind fun c => (stCell m dest (.byte c)).bind fun m =>
    if c ≠ 0#8 then ncpyLoop m (dest + 1) (src + 1) n else fillUp m (dest + 1) 0#8 n

/-- `ZYAN_STRNCPY`: LibC.h lines 408-423. -/
def lcStrncpy (m : Mem) (dest src n : Nat) : Out (Nat × Mem) :=
  (ncpyLoop m dest src n).bind fun m => .ret (dest, m)

/-- `ZYAN_STRXFRM`: LibC.h lines 494-502. -/
def lcStrxfrm (m : Mem) (dest src n : Nat) : Out (Nat × Mem) :=
  (lcStrlen m src).bind fun n2 =>
  if n > n2 then (lcStrcpy m dest src).bind fun r => .ret (n2, r.2) else .ret (n2, m)

/-! ## Strings: comparisons -/

/-- The loop of `ZYAN_STRCMP` and the final difference: LibC.h lines 330-334. -/
def scmpLoop (m : Mem) : Nat → Nat → Nat → Out Int
  | _, _, 0 => .ub .diverge
  | s1, s2, fuel + 1 =>
    (ld m s1).bind fun a => (ld m s2).bind fun b =>
    if a ≠ 0#8 ∧ a = b then scmpLoop m (s1 + 1) (s2 + 1) fuel else .ret (byteDiff a b)

/-- `ZYAN_STRCMP`: LibC.h lines 328-335. -/
def lcStrcmp (m : Mem) (s1 s2 : Nat) : Out Int := scmpLoop m s1 s2 (m.length + 1)

/-- `ZYAN_STRNCMP`: LibC.h lines 396-406. -/
def lcStrncmp (m : Mem) (s1 s2 : Nat) : Nat → Out Int
  | 0 => .ret 0
  | n + 1 =>
    (ld m s1).bind fun a => (ld m s2).bind fun b =>
    if a ≠ b then .ret (byteDiff a b) else lcStrncmp m (s1 + 1) (s2 + 1) n

/-- `ZYAN_STRCOLL`: LibC.h lines 337-345 (a stub). -/
def lcStrcoll (_m : Mem) (_s1 _s2 : Nat) : Out Int := .ret 0

/-! ## Strings: searches -/

/-- The loop of `ZYAN_STRCHR`: LibC.h lines 318-325. -/
def chrLoop (m : Mem) (c : Byte) : Nat → Nat → Out (Option Nat)
  | _, 0 => .ub .diverge
  | s, fuel + 1 =>
    (ld m s).bind fun b =>
    if b ≠ c then (if b = 0#8 then .ret none else chrLoop m c (s + 1) fuel) else .ret (some s)

/-- `ZYAN_STRCHR`: LibC.h lines 316-326. -/
def lcStrchr (m : Mem) (s : Nat) (c : Int) : Out (Option Nat) :=
  chrLoop m (BitVec.ofInt 8 c) s (m.length + 1)

/-- The loop of `ZYAN_STRRCHR`: LibC.h lines 439-447. -/
def rchrLoop (m : Mem) (c : Byte) : Nat → Option Nat → Nat → Out (Option Nat)
  | _, _, 0 => .ub .diverge
  | s, ret, fuel + 1 =>
    (ld m s).bind fun b =>
    let ret := if b = c then some s else ret
    if b ≠ 0#8 then rchrLoop m c (s + 1) ret fuel else .ret ret

/-- `ZYAN_STRRCHR`: LibC.h lines 437-448. -/
def lcStrrchr (m : Mem) (s : Nat) (c : Int) : Out (Option Nat) :=
  rchrLoop m (BitVec.ofInt 8 c) s none (m.length + 1)

/-- The loop of `ZYAN_STRSPN`: LibC.h lines 452-457. The character is passed to `ZYAN_STRCHR` as an
`int`. -/
def spnLoop (m : Mem) (s2 : Nat) : Nat → Nat → Nat → Out Nat
  | _, _, 0 => .ub .diverge
  | s1, ret, fuel + 1 =>
    (ld m s1).bind fun a =>
    if a ≠ 0#8 then
      (lcStrchr m s2 a.toInt).bind fun r =>
      if r.isSome then spnLoop m s2 (s1 + 1) (ret + 1) fuel else .ret ret
    else .ret ret

/-- `ZYAN_STRSPN`: LibC.h lines 450-458. -/
def lcStrspn (m : Mem) (s1 s2 : Nat) : Out Nat := spnLoop m s2 s1 0 (m.length + 1)

/-- The loop of `ZYAN_STRCSPN`: LibC.h lines 356-365. -/
def cspnLoop (m : Mem) (s2 : Nat) : Nat → Nat → Nat → Out Nat
  | _, _, 0 => .ub .diverge
  | s1, ret, fuel + 1 =>
    (ld m s1).bind fun a =>
    if a ≠ 0#8 then
      (lcStrchr m s2 a.toInt).bind fun r =>
      if r.isSome then .ret ret else cspnLoop m s2 (s1 + 1) (ret + 1) fuel
    else .ret ret

/-- `ZYAN_STRCSPN`: LibC.h lines 354-366. -/
def lcStrcspn (m : Mem) (s1 s2 : Nat) : Out Nat := cspnLoop m s2 s1 0 (m.length + 1)

/-- The loop of `ZYAN_STRPBRK`: LibC.h lines 427-434. -/
def pbrkLoop (m : Mem) (s2 : Nat) : Nat → Nat → Out (Option Nat)
  | _, 0 => .ub .diverge
  | s1, fuel + 1 =>
    (ld m s1).bind fun a =>
    if a ≠ 0#8 then
      (lcStrchr m s2 a.toInt).bind fun r =>
      if r.isSome then .ret (some s1) else pbrkLoop m s2 (s1 + 1) fuel
    else .ret none

/-- `ZYAN_STRPBRK`: LibC.h lines 425-435. -/
def lcStrpbrk (m : Mem) (s1 s2 : Nat) : Out (Option Nat) := pbrkLoop m s2 s1 (m.length + 1)

/-- The loop of `ZYAN_STRSTR`: LibC.h lines 463-470. -/
def strLoop (m : Mem) (s2 n : Nat) : Nat → Nat → Out (Option Nat)
  | _, 0 => .ub .diverge
  | s1, fuel + 1 =>
    (ld m s1).bind fun a =>
    if a ≠ 0#8 then
      (lcMemcmp m s1 s2 n).bind fun r => if r = 0 then .ret (some s1) else strLoop m s2 n (s1 + 1) fuel
    else .ret none

/-- `ZYAN_STRSTR`: LibC.h lines 460-471. -/
def lcStrstr (m : Mem) (s1 s2 : Nat) : Out (Option Nat) :=
  (lcStrlen m s2).bind fun n => strLoop m s2 n s1 (m.length + 1)

/-! ## strtok -/

/-- The part of `ZYAN_STRTOK` behind the choice of the start: LibC.h lines 484-491. The result is the
returned pointer, the new value of the static variable and the memory. -/
def tokFrom (m : Mem) (p delim : Nat) : Out (Option Nat × Option Nat × Mem) :=
  (lcStrspn m p delim).bind fun k =>
  let str := p + k
  (lcStrcspn m str delim).bind fun l =>
  let p := str + l
  if p = str then .ret (none, none, m)
  else
    (ld m p).bind fun b =>
    if b ≠ 0#8 then (stCell m p (.byte 0#8)).bind fun m => .ret (some str, some (p + 1), m)
    else .ret (some str, none, m)

/-- `ZYAN_STRTOK`: LibC.h lines 473-492; `static` is the value of its static variable. -/
def lcStrtok (m : Mem) (static str : Option Nat) (delim : Nat) :
    Out (Option Nat × Option Nat × Mem) :=
  match str with
  | some p => tokFrom m p delim
  | none =>
    match static with
    | none => .ret (none, none, m)
    | some p => tokFrom m p delim

end Zy
