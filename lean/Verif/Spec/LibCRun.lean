import Verif.Model.LibC

/-!
# Repeated calls of the strtok replacement

The caller passes the delimiter string `delim` in every call. `args` are the first arguments of the
calls. The static variable of the function and the memory are passed on from call to call.
-/

namespace Zy.Spec

open Zy

/-- The pointers returned by a sequence of calls of `ZYAN_STRTOK`, and the memory afterwards. -/
def strtokCalls (delim : Nat) : Mem → Option Nat → List (Option Nat) → Out (List (Option Nat) × Mem)
  | m, _, [] => .ret ([], m)
  | m, static, a :: args =>
    (lcStrtok m static a delim).bind fun r =>
    (strtokCalls delim r.2.2 r.2.1 args).bind fun rs => .ret (r.1 :: rs.1, rs.2)

end Zy.Spec
