import Verif.Model.VectorBytes

/-!
# Model of `ZyanVectorSwapElements` by the letter of the C standard

`vecSwap` and `vecSwapB` treat a copy of an element onto itself as a no-op and ignore the type of the three
pointers. Here both are taken seriously: `memcpy` between overlapping ranges is undefined (C11 7.24.2.1), and
so is the conversion to `ZyanU64*` of an address that is not aligned for `ZyanU64` (C11 6.3.2.3, paragraph 7).

Simplifications: as in `Model/VectorBytes.lean`. `al` is the alignment of `ZyanU64`, `base` the address of the
first byte of the storage.
-/

namespace Zy

/-- `ZyanU64* const t = ZYCORE_VECTOR_OFFSET(...)`: src/Vector.c lines 554-556. -/
def asU64Pointer (al addr : Nat) : Out Unit := if addr % al = 0 then .ret () else .ub .other

/-- `ZYAN_MEMCPY`: include/Zycore/LibC.h line 113, between two places of one block. -/
def memcpyWithin (cells : List (Cell Byte)) (dst src n : Nat) : Out (List (Cell Byte)) :=
  if dst < src + n ∧ src < dst + n then .ub .overlap else memmoveCells cells dst src n

/-- `ZyanVectorSwapElements`: src/Vector.c lines 535-562. -/
def vecSwapC (al base : Nat) (s : VB) (i j : Nat) : Out (Status × VB) :=
  if i ≥ s.v.size ∨ j ≥ s.v.size then .ret (stOutOfRange, s)
  else if s.v.size = s.v.cap then .ret (stInsufficient, s)
  else
    withData s.v.data fun blk =>
    let t := byteOffset s.v s.v.size
    let a := byteOffset s.v i
    let b := byteOffset s.v j
    (asU64Pointer al (base + t)).bind fun _ =>
    (asU64Pointer al (base + a)).bind fun _ =>
    (asU64Pointer al (base + b)).bind fun _ =>
    (memcpyWithin blk.cells t a s.v.esz).bind fun cs =>
    (memcpyWithin cs a b s.v.esz).bind fun cs =>
    (memcpyWithin cs b t s.v.esz).bind fun cs =>
    .ret (stSuccess, { s with v := { s.v with data := some { blk with cells := cs } } })

end Zy
