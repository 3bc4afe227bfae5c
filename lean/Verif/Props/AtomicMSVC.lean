import Verif.Lemmas.AtomicMSVC
import Verif.Props.Atomic

/-!
# Property theorems: the atomic operations of the two compilers
-/

namespace Zy

open Zy.Spec

variable {w : Nat}

/-! ## C112 -/

/-- C112: for all programs of all threads and every schedule, the functions for the two compilers leave the
same value in the variable and return the same results, at each moment of the execution. -/
theorem C112_same (v : BitVec w) (progs : List (List (AOp w))) (sched : List Nat) :
    (msvcRun (msvcStart v progs) sched).value = (sysRun (sysStart v progs) sched).value ∧
    ∀ i, msvcReturned (msvcRun (msvcStart v progs) sched) i = returned (sysRun (sysStart v progs) sched) i := by
  have h := (SameSys.start v progs).run sched
  exact ⟨h.value, h.returned⟩

/-- C112: therefore the functions for the Microsoft compiler are linearizable as well. -/
theorem C112_linearizable (v : BitVec w) (progs : List (List (AOp w))) :
    ∃ order : List Nat → List (ACall w),
      (∀ sched more, order sched <+: order (sched ++ more)) ∧
      ∀ sched, Sequential v (order sched) (msvcRun (msvcStart v progs) sched).value ∧
        ∀ i, msvcReturned (msvcRun (msvcStart v progs) sched) i <+: byThread (order sched) i ∧
          (byThread (order sched) i).length ≤
            (msvcReturned (msvcRun (msvcStart v progs) sched) i).length + 1 ∧
          (byThread (order sched) i).map (·.1) <+: progs.getD i [] := by
  obtain ⟨order, h1, h2⟩ := C96_linearizable v progs
  refine ⟨order, h1, fun sched => ?_⟩
  obtain ⟨e1, e2⟩ := C112_same v progs sched
  rw [e1]
  simp only [e2]
  exact h2 sched

/-- A counter that overflows, and a compare-exchange whose arguments are negative as signed integers. -/
example : msvcRun (msvcStart 254#8 [[.inc, .inc], [.cas 255#8 200#8]]) [0, 1, 0, 1, 0, 0] =
    ⟨201#8, [⟨[], none, [(.inc, 255#8), (.inc, 201#8)]⟩, ⟨[], none, [(.cas 255#8 200#8, 255#8)]⟩]⟩ := by decide
example : sysRun (sysStart 254#8 [[.inc, .inc], [.cas 255#8 200#8]]) [0, 1, 0, 1, 0, 0] =
    ⟨201#8, [⟨[], none, [(.inc, 255#8), (.inc, 201#8)]⟩, ⟨[], none, [(.cas 255#8 200#8, 255#8)]⟩]⟩ := by decide

end Zy
