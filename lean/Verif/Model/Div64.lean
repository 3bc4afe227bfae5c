import Verif.Base

/-!
# Model of `ZYAN_DIV64`

include/Zycore/Defines.h lines 492-497. In the Linux kernel the macro is `do_div`, which converts the divisor to
32 bits before it divides (kernel documentation of `do_div` in `include/asm-generic/div64.h`; trusted).
-/

namespace Zy

/-- `ZYAN_DIV64(n, divisor)` outside of the Linux kernel: Defines.h line 496. The result is the new value of `n`. -/
def div64 (n divisor : Nat) : Out Nat := if divisor = 0 then .ub .other else .ret (n / divisor)

/-- `ZYAN_DIV64(n, divisor)` inside of the Linux kernel: Defines.h line 494. -/
def div64Kernel (n divisor : Nat) : Out Nat :=
  if divisor % 2 ^ 32 = 0 then .ub .other else .ret (n / (divisor % 2 ^ 32))

end Zy
