import Verif.Spec.String
import Verif.Spec.Pointers

/-!
# Which requests make a string move, and which characters they leave where they are

Nothing in this file refers to the model of the code. `SState` is the text with its bytes of storage.
-/

namespace Zy.Spec

/-- Appending and resizing: other memory is needed if the text with its terminator, `need` bytes, is too long for the
storage, and also if it is so short that memory is given back. -/
def Refit (P : Params) (bytes need : Nat) : Prop := P.allocator.isSome ∧ (bytes < need ∨ Loose P bytes need)

/-- The requests for which a string needs other memory. A string on a buffer of the caller never does. -/
def SMoves (P : Params) (s : SState) : SOp → Prop
  | .append x => x ≠ [] ∧ Refit P s.bytes (s.text.length + x.length + 1)
  | .appendEx x j n => (j + n ≤ x.length ∧ n ≠ 0) ∧ Refit P s.bytes (s.text.length + n + 1)
  | .insert i x =>
    (i = s.text.length + 1 ∧ x ≠ [] ∧ Refit P s.bytes (s.text.length + x.length + 1)) ∨
      (i ≤ s.text.length ∧ x ≠ [] ∧ P.allocator.isSome ∧ s.bytes < s.text.length + x.length + 1)
  | .insertEx i x j n =>
    (i = s.text.length + 1 ∧ (j + n ≤ x.length ∧ n ≠ 0) ∧ Refit P s.bytes (s.text.length + n + 1)) ∨
      (i ≤ s.text.length ∧ (j + n ≤ x.length ∧ n ≠ 0) ∧ P.allocator.isSome ∧ s.bytes < s.text.length + n + 1)
  | .delete i n =>
    (n ≠ 0 ∧ i + n ≤ s.text.length) ∧ P.allocator.isSome ∧ Loose P s.bytes (s.text.length + 1 - n)
  | .truncate i => i < s.text.length ∧ P.allocator.isSome ∧ Loose P s.bytes (i + 1)
  | .clear => P.allocator.isSome ∧ Loose P s.bytes 0 ∧ 1 < s.bytes
  | .setChar _ _ => False
  | .lower _ _ => False
  | .upper _ _ => False
  | .resize n => n ≠ s.text.length ∧ Refit P s.bytes (n + 1)
  | .reserve c => P.allocator.isSome ∧ s.bytes < c
  | .shrinkToFit => P.allocator.isSome

/-- The requests that leave the character at position `k` of the text where and what it is. -/
def SSpares (k : Nat) : SOp → Prop
  | .append _ => True
  | .appendEx _ _ _ => True
  | .insert i _ => k < i
  | .insertEx i _ _ _ => k < i
  | .delete i _ => k < i
  | .truncate i => k < i
  | .clear => False
  | .setChar i _ => k ≠ i
  | .lower i n => k < i ∨ i + n ≤ k
  | .upper i n => k < i ∨ i + n ≤ k
  | .resize n => k < n
  | .reserve _ => True
  | .shrinkToFit => True

/-- No request of the history needs other memory or touches one of the `n` characters from position `i`, whatever the
unspecified characters are. -/
inductive SAtRest (P : Params) (i n : Nat) : SState → List SOp → Prop where
  | nil (s : SState) : SAtRest P i n s []
  | cons {s : SState} {op : SOp} {ops : List SOp} (h : ¬ SMoves P s op)
      (hs : ∀ k, i ≤ k → k < i + n → SSpares k op)
      (t : ∀ junk, junk.length = sjunkLen s op → SAtRest P i n (sstep P junk s op).2 ops) :
      SAtRest P i n s (op :: ops)

end Zy.Spec
