import Verif.Model.Windows
import Verif.Spec.Api
import Verif.Spec.Sync

/-!
# Specification of portable use of the system functions
-/

namespace Zy.Spec

/-- The section refused a leave: the thread was not inside. -/
def refusedLeave (e : CsEvent) : Bool := e.2.1 == .leave && e.2.2 != .status stSuccess

/-- The system grants the request of a call. -/
def granted : TlsCall → Bool
  | .alloc (.error _) => false
  | .set _ _ (some _) => false
  | _ => true

/-- Page `q` belongs to one of the regions. -/
def MappedIn (m : List Region) (q : Nat) : Prop := ∃ r ∈ m, r.first ≤ q ∧ q < r.first + r.pages

/-- No page belongs to two regions, and no region is empty. -/
def SeparateRegions (m : List Region) : Prop :=
  (∀ r ∈ m, 0 < r.pages) ∧
    ∀ r ∈ m, ∀ r' ∈ m, ∀ q, r.first ≤ q → q < r.first + r.pages → r'.first ≤ q → q < r'.first + r'.pages → r = r'

end Zy.Spec
