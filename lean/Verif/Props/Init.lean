import Verif.Model.Allocator
import Verif.Model.Bitset
import Verif.Model.List
import Verif.Lemmas.Init

/-!
# Property theorems: arguments and capacity of the constructors
-/

namespace Zy

variable {α : Type}

/-! ## C94 -/

/-- C94, dynamic vectors: refused exactly for a missing allocator, element size zero or growth factor
zero; then nothing happens. Otherwise the allocator is asked once and its status returned. -/
theorem C94_vector (w : World α) (esz cap : Nat) (dt : Bool) (al : Option Nat) (growth shrink : Nat) :
    ((al = none ∨ esz = 0 ∨ growth = 0) →
      vecInitEx w esz cap dt al growth shrink = (stInvalidArgument, none, w)) ∧
    (¬ (al = none ∨ esz = 0 ∨ growth = 0) →
      ∃ v w', vecInitEx w esz cap dt al growth shrink = (w.oracle w.calls, some v, w') ∧
        w'.calls = w.calls + 1 ∧ w'.trace.length = w.trace.length + 1) := by
  cases al with
  | none => exact ⟨fun _ => rfl, fun h => absurd (Or.inl rfl) h⟩
  | some a =>
    constructor
    · intro h
      have h' : esz = 0 ∨ growth < 1 := by
        rcases h with h | h | h
        · cases h
        · exact Or.inl h
        · exact Or.inr (by omega)
      simp only [vecInitEx]
      rw [if_pos h']
    · intro h
      have h' : ¬ (esz = 0 ∨ growth < 1) := fun hh => h (hh.elim (fun e => Or.inr (Or.inl e))
        fun e => Or.inr (Or.inr (by omega)))
      simp only [vecInitEx]
      rw [if_neg h']
      by_cases hf : failed (w.oracle w.calls) = true
      · simp only [allocate, if_pos hf]
        exact ⟨_, _, rfl, rfl, by simp [World.log]⟩
      · simp only [allocate, if_neg hf]
        exact ⟨_, _, rfl, rfl, by simp [World.log]⟩

/-- C94, vectors in a caller buffer: refused exactly for a missing buffer, element size zero or capacity
zero. -/
theorem C94_vector_buffer (esz : Nat) (buffer : Option (Block α)) (cap : Nat) (dt : Bool) :
    ((buffer = none ∨ esz = 0 ∨ cap = 0) → vecInitBuffer esz buffer cap dt = (stInvalidArgument, none)) ∧
    (¬ (buffer = none ∨ esz = 0 ∨ cap = 0) →
      ∃ v, vecInitBuffer esz buffer cap dt = (stSuccess, some v) ∧ v.data = buffer ∧ v.size = 0) := by
  cases buffer with
  | none => exact ⟨fun _ => rfl, fun h => absurd (Or.inl rfl) h⟩
  | some b =>
    constructor
    · intro h
      have h' : esz = 0 ∨ cap = 0 := h.elim (fun e => by cases e) id
      simp only [vecInitBuffer]
      rw [if_pos h']
    · intro h
      have h' : ¬ (esz = 0 ∨ cap = 0) := fun hh => h (Or.inr hh)
      simp only [vecInitBuffer]
      rw [if_neg h']
      exact ⟨_, rfl, rfl, rfl⟩

/-- C94, strings: refused for a missing allocator or buffer, growth factor zero or capacity zero of a
buffer; then nothing happens. -/
theorem C94_string (w : World Byte) (cap : Nat) (al : Option Nat) (growth shrink : Nat)
    (buffer : Option (Block Byte)) :
    ((al = none ∨ growth = 0) → strInitEx w cap al growth shrink = .ret (stInvalidArgument, none, w)) ∧
    ((buffer = none ∨ cap = 0) → strInitBuffer w buffer cap = .ret (stInvalidArgument, none)) := by
  have hf : failed stInvalidArgument = true := by decide
  constructor
  · intro h
    have := (C94_vector w 1 (add64 (max 32 cap) 1) false al growth shrink).1
      (h.elim Or.inl fun e => Or.inr (Or.inr e))
    simp only [strInitEx]
    rw [this]
    simp only [hf, if_true]
  · intro h
    simp only [strInitBuffer]
    by_cases h0 : cap = 0
    · rw [if_pos h0]
    · rw [if_neg h0, (C94_vector_buffer 1 buffer cap false).1 (h.elim Or.inl fun e => absurd e h0)]
      simp only [hf, if_true]

/-- C94, bitsets: the same; a buffer that is too small for the bits is refused as insufficient. -/
theorem C94_bitset (w : World Byte) (count cap : Nat) (al : Option Nat) (growth shrink : Nat)
    (buffer : Option (Block Byte)) :
    ((al = none ∨ growth = 0) → bsInitEx w count al growth shrink = .ret (stInvalidArgument, none, w)) ∧
    (cap < bitsToBytes count → bsInitBuffer w count buffer cap = .ret (stInsufficient, none)) ∧
    (¬ cap < bitsToBytes count → (buffer = none ∨ cap = 0) →
      bsInitBuffer w count buffer cap = .ret (stInvalidArgument, none)) := by
  have hf : failed stInvalidArgument = true := by decide
  refine ⟨?_, ?_, ?_⟩
  · intro h
    have := (C94_vector w 1 (bitsToBytes count) false al growth shrink).1
      (h.elim Or.inl fun e => Or.inr (Or.inr e))
    simp only [bsInitEx]
    rw [this]
    simp only [hf, if_true]
  · intro h
    simp only [bsInitBuffer]
    rw [if_pos h]
  · intro h0 h
    simp only [bsInitBuffer]
    rw [if_neg h0, (C94_vector_buffer 1 buffer cap false).1 (h.elim Or.inl fun e => Or.inr (Or.inr e))]
    simp only [hf, if_true]

/-- C94, lists: refused exactly for a missing allocator or buffer, element size zero or capacity zero of a
buffer. -/
theorem C94_list (esz cap : Nat) (dt : Bool) (al buffer : Option Nat) :
    ((al = none ∨ esz = 0) → listInitEx esz dt al = (stInvalidArgument, none)) ∧
    (¬ (al = none ∨ esz = 0) → ∃ l, listInitEx esz dt al = (stSuccess, some l) ∧ l.size = 0 ∧ l.head = none ∧
      l.tail = none) ∧
    ((buffer = none ∨ esz = 0 ∨ cap = 0) → listInitBuffer esz dt buffer cap = (stInvalidArgument, none)) ∧
    (¬ (buffer = none ∨ esz = 0 ∨ cap = 0) → ∃ l, listInitBuffer esz dt buffer cap = (stSuccess, some l) ∧
      l.size = 0 ∧ l.head = none ∧ l.tail = none) := by
  refine ⟨fun h => ?_, fun h => ?_, fun h => ?_, fun h => ?_⟩
  · unfold listInitEx; rw [if_pos h.symm]
  · unfold listInitEx; rw [if_neg fun hh => h hh.symm]; exact ⟨_, rfl, rfl, rfl, rfl⟩
  · unfold listInitBuffer
    rw [if_pos (by rcases h with h | h | h <;> simp [h])]
  · unfold listInitBuffer
    rw [if_neg (fun hh => h (by rcases hh with h | h | h <;> simp [h]))]
    exact ⟨_, rfl, rfl, rfl, rfl⟩

/-- C94, allocators: refused exactly if the object or one of the three functions is missing; an accepted allocator has
exactly the functions passed, a refused one is unchanged. -/
theorem C94_allocator {F : Type} (old : AllocatorFns F) (f g d : Option F) :
    allocatorInit none f g d = (stInvalidArgument, none) ∧
    (f = none ∨ g = none ∨ d = none → allocatorInit (some old) f g d = (stInvalidArgument, some old)) ∧
    (∀ f' g' d', f = some f' → g = some g' → d = some d' →
      allocatorInit (some old) f g d = (stSuccess, some ⟨some f', some g', some d'⟩)) := by
  refine ⟨rfl, ?_, ?_⟩
  · intro h
    rcases h with rfl | rfl | rfl <;> simp [allocatorInit]
  · rintro f' g' d' rfl rfl rfl
    rfl

/-- A world with an allocator that works. -/
def initW : World Nat := ⟨fun _ => stSuccess, 0, 1, []⟩

example : vecInitEx initW 0 5 false (some 0) 2 4 = (stInvalidArgument, none, initW) :=
  (C94_vector initW 0 5 false (some 0) 2 4).1 (Or.inr (Or.inl rfl))
example : ∃ v w', vecInitEx initW 8 5 false (some 0) 2 4 = (stSuccess, some v, w') ∧ w'.calls = 1 ∧
    w'.trace.length = 1 := (C94_vector initW 8 5 false (some 0) 2 4).2 (by decide)
example : vecInitBuffer 8 (some (⟨1, [none, none]⟩ : Block Nat)) 0 false = (stInvalidArgument, none) :=
  (C94_vector_buffer 8 _ 0 false).1 (Or.inr (Or.inr rfl))
example : ∃ l, listInitEx 8 true (some 3) = (stSuccess, some l) ∧ l.size = 0 ∧ l.head = none ∧ l.tail = none :=
  (C94_list 8 0 true (some 3) none).2.1 (by decide)
example : allocatorInit (some ⟨some 1, some 2, some 3⟩) (some 4) none (some 6) =
    (stInvalidArgument, some ⟨some 1, some 2, some 3⟩) := (C94_allocator _ _ _ _).2.1 (Or.inr (Or.inl rfl))

/-! ## C95 -/

/-- C95 for vectors. The property demands the conclusion for every element size and capacity.

Missing: sizes whose product is not a machine word, see `C95_vector_negation`. -/
theorem C95_vector_partial {w : World α} {esz cap growth shrink a : Nat} {dt : Bool} {st : Status} {v : Vec α}
    {w' : World α} (hi : vecInitEx w esz cap dt (some a) growth shrink = (st, some v, w'))
    (hst : failed st = false) (hc : esz * max 1 cap < 2 ^ 64) :
    cap ≤ v.cap ∧ ∃ b, v.data = some b ∧ b.cells.length = v.cap := by
  obtain ⟨he, h1, _, h2⟩ := initEx_inv hi hst
  refine ⟨by omega, _, h2, ?_⟩
  simp only [List.length_replicate, grantedCells]
  rw [show mul64 esz (max 1 cap) = esz * max 1 cap from mul64_eq hc, Nat.mul_div_cancel_left _ he, h1]

/-- C95 is false for every other element size and capacity: the vector is created, but its block is too
small, and filling it up to its capacity writes behind the block. -/
theorem C95_vector_negation {w : World α} {esz cap growth shrink a : Nat} {dt : Bool} {st : Status} {v : Vec α}
    {w' : World α} (hi : vecInitEx w esz cap dt (some a) growth shrink = (st, some v, w'))
    (hst : failed st = false) (h64 : cap < 2 ^ 64) (hc : 2 ^ 64 ≤ esz * cap) (xs : List (Cell α))
    (hx : xs.length = cap) :
    v.cap = cap ∧ (∃ b, v.data = some b ∧ b.cells.length < cap) ∧
      vecInsertRange ⟨v, w'⟩ 0 (.ext xs) cap = .ub .oob := by
  obtain ⟨he, h1, h0, h2⟩ := initEx_inv hi hst
  have hc0 : 0 < cap := by
    rcases Nat.eq_zero_or_pos cap with h | h
    · rw [h, Nat.mul_zero] at hc; omega
    · exact h
  have hcap : v.cap = cap := by omega
  have hl : (List.replicate (grantedCells esz (max 1 cap)) (none : Cell α)).length < cap := by
    rw [List.length_replicate, show max 1 cap = cap by omega]
    unfold grantedCells
    have := mul64_lt esz cap
    apply Nat.div_lt_of_lt_mul
    omega
  have hi := insert_oob (s := ⟨v, w'⟩) h0 h2 (by show 0 < v.cap; omega) (by show v.cap < _; omega)
    (by show _ < v.cap; rw [hcap]; exact hl) (xs := xs) (by show _ = v.cap; omega)
  simp only [hcap] at hi
  exact ⟨hcap, ⟨_, h2, hl⟩, hi⟩

/-- C95 for strings. The property demands the conclusion for every capacity.

Missing: the greatest machine word, see `C95_string_negation`. -/
theorem C95_string_partial {w : World Byte} {cap growth shrink a : Nat} {st : Status} {t : Str}
    {w' : World Byte} (hi : strInitEx w cap (some a) growth shrink = .ret (st, some t, w'))
    (hc : cap + 1 < 2 ^ 64) : cap + 1 ≤ t.s.v.cap ∧ ∃ b, t.s.v.data = some b ∧ b.cells.length = t.s.v.cap := by
  have hcap : add64 (max 32 cap) 1 = max 32 cap + 1 := add64_eq (by omega)
  simp only [strInitEx] at hi
  cases hv : vecInitEx w 1 (add64 (max 32 cap) 1) false (some a) growth shrink with
  | mk s r =>
    obtain ⟨ov, w2⟩ := r
    rw [hv] at hi
    simp only at hi
    cases hf : failed s with
    | true => rw [hf] at hi; simp at hi
    | false =>
      rw [hf] at hi
      cases ov with
      | none => simp at hi
      | some v =>
        have hv' := hv
        rw [hcap] at hv'
        obtain ⟨h1, b, h2, h3⟩ := C95_vector_partial hv' hf (by omega)
        simp only [strStart, strPoke, withData, h2] at hi
        simp only [Bool.false_eq_true, if_false] at hi
        by_cases hlen : 0 < b.cells.length
        · rw [if_pos hlen] at hi
          simp only [Out.ret_bind', Out.ret.injEq, Prod.mk.injEq, Option.some.injEq] at hi
          obtain ⟨_, rfl, _⟩ := hi
          refine ⟨by simp only; omega, _, rfl, ?_⟩
          simp only [List.length_set]
          exact h3
        · rw [if_neg hlen] at hi; cases hi

/-- C95 is false for the greatest machine word: the string is created with a capacity of one byte. -/
theorem C95_string_negation {w : World Byte} {growth shrink a : Nat} (hg : 1 ≤ growth)
    (hst : failed (w.oracle w.calls) = false) :
    ∃ t w', strInitEx w 18446744073709551615 (some a) growth shrink = .ret (stSuccess, some t, w') ∧
      t.s.v.cap = 1 := by
  have hv : vecInitEx w 1 (add64 (max 32 18446744073709551615) 1) false (some a) growth shrink =
      (w.oracle w.calls, some ⟨some a, growth, shrink, 0, 1, 1, false, some ⟨w.nextBlk, [none]⟩⟩,
        (allocate w a 1 1).2.2) := by
    simp only [vecInitEx]
    rw [if_neg (by omega)]
    simp only [show max 1 (add64 (max 32 18446744073709551615) 1) = 1 from rfl, allocate, hst,
      Bool.false_eq_true, if_false, grantedCells, show mul64 1 1 / 1 = 1 from rfl, List.replicate]
  simp only [strInitEx]
  rw [hv]
  simp only [hst, Bool.false_eq_true, if_false]
  exact ⟨_, _, rfl, rfl⟩

example : ∀ st v w', vecInitEx initW 8 5 false (some 0) 2 4 = (st, some v, w') → failed st = false →
    5 ≤ v.cap ∧ ∃ b, v.data = some b ∧ b.cells.length = v.cap :=
  fun _ _ _ hi hst => C95_vector_partial hi hst (by decide)
/-- Two elements of 2^63 bytes: a block of zero bytes. -/
example : vecInsertRange
    ⟨(vecInitEx initW 9223372036854775808 2 false (some 0) 2 4).2.1.get (by decide),
      (vecInitEx initW 9223372036854775808 2 false (some 0) 2 4).2.2⟩ 0 (.ext [some 1, some 2]) 2 = .ub .oob :=
  (C95_vector_negation (w := initW) (esz := 9223372036854775808) (cap := 2) (growth := 2) (shrink := 4) (a := 0)
    (dt := false) (st := stSuccess) rfl (by decide) (by decide) (by decide) [some 1, some 2] rfl).2.2
example : ∀ (st : Status) (t : Str) (w' : World Byte),
    strInitEx ⟨fun _ => stSuccess, 0, 1, []⟩ 40 (some 0) 2 4 = .ret (st, some t, w') →
    41 ≤ t.s.v.cap ∧ ∃ b, t.s.v.data = some b ∧ b.cells.length = t.s.v.cap :=
  fun _ _ _ hi => C95_string_partial hi (by decide)
example : ∃ t w', strInitEx ⟨fun _ => stSuccess, 0, 1, []⟩ 18446744073709551615 (some 0) 2 4 =
    .ret (stSuccess, some t, w') ∧ t.s.v.cap = 1 := C95_string_negation (by decide) (by decide)

end Zy
