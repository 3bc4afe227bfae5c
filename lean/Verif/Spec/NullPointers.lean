import Verif.Model.NullPointers
import Verif.Spec.VectorRun
import Verif.Spec.StringRun
import Verif.Spec.BitsetRun
import Verif.Spec.ListRun

/-!
# Which pointers a caller may leave out

A pointer is optional if the documentation in the header says so (`constructor`, `destructor`, `prefix`) or if the
library itself passes null for it (`initializer`, `error_token`); every other pointer is required.
-/

namespace Zy

open Spec

variable {α : Type}

/-- A required pointer besides the vector is null. -/
def VecCall.Missing : VecCall α → Prop
  | .getPointer _ value => value = false
  | .set _ value => value = .null
  | .pushBack element => element = .null
  | .insert _ element => element = .null
  | .insertRange _ elements _ => elements = .null
  | .emplace element _ => element = false
  | .emplaceEx _ element _ => element = false
  | .find found comparison => found = false ∨ comparison = none
  | .findEx found comparison _ _ => found = false ∨ comparison = none
  | .binarySearch found comparison => found = false ∨ comparison = none
  | .binarySearchEx found comparison _ _ => found = false ∨ comparison = none
  | .getCapacity capacity => capacity = false
  | .getSize size => size = false
  | _ => False

/-- A required pointer besides the string is null. -/
def StrCall.Missing : StrCall → Prop
  | .getCharMutable _ value => value = false
  | .insert _ source => source = none
  | .insertEx _ source _ _ => source = none
  | .append source => source = none
  | .appendEx source _ _ => source = none
  | .getCapacity capacity => capacity = false
  | .getSize size => size = false
  | .getData value => value = false
  | .appendFormat format => format = none
  | _ => False

/-- A required pointer is null. -/
def ViewFn.Missing : ViewFn → Prop
  | .insideView view source => view = false ∨ source = none
  | .insideViewEx view source _ _ => view = false ∨ source = none
  | .insideBuffer view string => view = false ∨ string = none
  | .insideBufferEx view buffer _ => view = false ∨ buffer = none
  | .getSize view size => view = none ∨ size = false
  | .getData view buffer => view = none ∨ buffer = false
  | .getChar string _ _ value => string = none ∨ value = false
  | .lpos h n found | .lposI h n found | .rpos h n found | .rposI h n found => h = none ∨ n = none ∨ found = false
  | .lposEx h n found _ _ | .lposIEx h n found _ _ | .rposEx h n found _ _ | .rposIEx h n found _ _ =>
    h = none ∨ n = none ∨ found = false
  | .compare s1 s2 result | .compareI s1 s2 result => s1 = none ∨ s2 = none ∨ result = false

/-- A required pointer besides the bitset is null. -/
def BitCall.Missing : BitCall → Prop
  | .perform source operation => source = .none ∨ operation = .none
  | .and source | .or source | .xor source => source = .none
  | .getSize out | .getCapacity out | .getSizeBytes out | .getCapacityBytes out | .count out => out = false
  | _ => False

/-- A required pointer besides the list is null. -/
def ListCall.Missing : ListCall α → Prop
  | .getHead node | .getTail node => node = false
  | .setNodeData node value => node = none ∨ value = .null
  | .pushBack item | .pushFront item => item = .null
  | .emplaceBack item _ | .emplaceFront item _ => item = false
  | .remove node => node = none
  | .removeRange first last => first = none ∨ last = none
  | .getSize size => size = false
  | _ => False

/-- The vector functions that write to a result pointer or call a comparison without looking at it. -/
def VecCall.Careless : VecCall α → Prop
  | .emplace .. | .emplaceEx .. | .find .. | .findEx .. | .binarySearch .. | .binarySearchEx .. | .getCapacity _
  | .getSize _ => True
  | _ => False

/-- The string functions that write to a result pointer without looking at it. -/
def StrCall.Careless : StrCall → Prop
  | .getCapacity _ | .getSize _ | .getData _ => True
  | _ => False

/-- The view functions that write to a result pointer without looking at it. -/
def ViewFn.Careless : ViewFn → Prop
  | .compare .. | .compareI .. => True
  | _ => False

/-- The bitset functions that write to a result pointer without looking at it. -/
def BitCall.Careless : BitCall → Prop
  | .getSize _ | .getCapacity _ | .getSizeBytes _ | .getCapacityBytes _ => True
  | _ => False

/-- The list functions that write to a result pointer without looking at it, or look at nothing. -/
def ListCall.Careless : ListCall α → Prop
  | .getHead _ | .getTail _ | .getSize _ | .remove _ | .removeRange _ _ => True
  | _ => False

/-- A call of C01 with all its pointers. -/
def VecCall.ofOp : VOp α → VecCall α
  | .push x => .pushBack (.ext [x])
  | .insertRange i xs => .insertRange i (.ext xs) xs.length
  | .emplace i c => .emplaceEx i true c
  | .set i x => .set i (.ext [x])
  | .swap i j => .swap i j
  | .deleteRange i n => .deleteRange i n
  | .pop => .popBack
  | .clear => .clear
  | .resize n init => .resizeEx n (initSrc init)
  | .reserve c => .reserve c
  | .shrinkToFit => .shrinkToFit

/-- A call of C19 with all its pointers. -/
def StrCall.ofOp : SOp → StrCall
  | .append x => .append (some (textView x))
  | .appendEx x j n => .appendEx (some (textView x)) j n
  | .insert i x => .insert i (some (textView x))
  | .insertEx i x j n => .insertEx i (some (textView x)) j n
  | .delete i n => .delete i n
  | .truncate i => .truncate i
  | .clear => .clear
  | .setChar i c => .setChar i c
  | .lower i n => .toLowerEx i n
  | .upper i n => .toUpperEx i n
  | .resize n => .resize n
  | .reserve c => .reserve c
  | .shrinkToFit => .shrinkToFit

/-- A call of C38 with all its pointers. -/
def BitCall.ofOp : BOp → BitCall
  | .push v => .push v
  | .pop => .pop
  | .set i => .set i
  | .reset i => .reset i
  | .assign i v => .assign i v
  | .toggle i => .toggle i
  | .setAll => .setAll
  | .resetAll => .resetAll
  | .flip => .flip
  | .clear => .clear
  | .reserve n => .reserve n
  | .shrinkToFit => .shrinkToFit

/-- Status and object after a call, without the number written to the result pointer. -/
def dropRes {σ : Type} (r : PRes σ) : Out (Status × Option σ) := r.bind fun q => .ret (q.1, q.2.1)

/-- Status and object after a call of a function behind its argument checks. -/
def keepObj {σ : Type} (r : Out (Status × σ)) : Out (Status × Option σ) := r.bind fun q => .ret (q.1, some q.2)

end Zy
