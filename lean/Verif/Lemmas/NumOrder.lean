import Verif.Lemmas.Format
import Verif.Props.String

/-!
# Lemmas: numerals compared as texts
-/

namespace Zy

open Spec

/-- The number a list of digits stands for. -/
def digitsVal (base : Nat) : List Nat → Nat
  | [] => 0
  | d :: ds => d * base ^ ds.length + digitsVal base ds

theorem digitsVal_lt {base : Nat} : ∀ ds : List Nat, (∀ d ∈ ds, d < base) → digitsVal base ds < base ^ ds.length := by
  intro ds
  induction ds with
  | nil => intro _; simp [digitsVal]
  | cons d ds ih =>
    intro h
    have h1 := ih fun x hx => h x (List.mem_cons_of_mem _ hx)
    have h2 : d + 1 ≤ base := h d List.mem_cons_self
    have h3 := Nat.mul_le_mul_right (base ^ ds.length) h2
    simp only [digitsVal, List.length_cons, Nat.pow_succ]
    rw [Nat.add_mul] at h3
    rw [Nat.mul_comm (base ^ ds.length) base]
    omega

theorem digitsVal_append (base : Nat) (xs ys : List Nat) :
    digitsVal base (xs ++ ys) = digitsVal base xs * base ^ ys.length + digitsVal base ys := by
  induction xs with
  | nil => simp [digitsVal]
  | cons d xs ih =>
    simp only [List.cons_append, digitsVal, ih, List.length_append, Nat.pow_add, Nat.add_mul]
    rw [Nat.mul_assoc]
    omega

theorem digitsVal_zeros (base k : Nat) : digitsVal base (List.replicate k 0) = 0 := by
  induction k with
  | zero => rfl
  | succ k ih => simp [List.replicate_succ, digitsVal, ih]

theorem digitsVal_digits {base : Nat} (hb : 2 ≤ base) : ∀ n, digitsVal base (digits base n) = n := by
  intro n
  induction n using Nat.strongRecOn with
  | _ n ih =>
    by_cases h : n < base
    · rw [digits_lt h]; simp [digitsVal]
    · rw [digits_step hb (by omega), digitsVal_append, ih _ (Nat.div_lt_self (by omega) (by omega))]
      simp only [digitsVal, List.length_cons, List.length_nil]
      have := Nat.div_add_mod n base
      rw [Nat.mul_comm] at this
      simp only [Nat.zero_add, Nat.pow_one, Nat.pow_zero, Nat.mul_one, Nat.add_zero]
      omega

/-- Of two lists of digits of the same length, the one for the smaller number has the smaller digit where they
differ first. -/
theorem digitsVal_split {base : Nat} : ∀ xs ys : List Nat, xs.length = ys.length → (∀ d ∈ xs, d < base) →
    (∀ d ∈ ys, d < base) → digitsVal base xs < digitsVal base ys →
    ∃ p a u b v, xs = p ++ a :: u ∧ ys = p ++ b :: v ∧ u.length = v.length ∧ a < b ∧ b < base := by
  intro xs
  induction xs with
  | nil =>
    intro ys hl _ _ h
    cases ys with
    | nil => simp at h
    | cons _ _ => simp at hl
  | cons a u ih =>
    intro ys hl hx hy h
    cases ys with
    | nil => simp at hl
    | cons b v =>
      have hl' : u.length = v.length := by simpa using hl
      rcases Nat.lt_trichotomy a b with hab | hab | hab
      · exact ⟨[], a, u, b, v, rfl, rfl, hl', hab, hy b List.mem_cons_self⟩
      · subst hab
        simp only [digitsVal, hl'] at h
        obtain ⟨p, a', u', b', v', h1, h2, h3, h4, h5⟩ := ih v hl' (fun d hd => hx d (List.mem_cons_of_mem _ hd))
          (fun d hd => hy d (List.mem_cons_of_mem _ hd)) (by omega)
        exact ⟨a :: p, a', u', b', v', by rw [h1]; rfl, by rw [h2]; rfl, h3, h4, h5⟩
      · exfalso
        have h1 := digitsVal_lt v fun d hd => hy d (List.mem_cons_of_mem _ hd)
        have h2 := Nat.mul_le_mul_right (base ^ v.length) (show b + 1 ≤ a from hab)
        rw [Nat.add_mul] at h2
        simp only [digitsVal, hl'] at h
        omega

theorem digits_length_mono {base : Nat} (hb : 2 ≤ base) : ∀ n m, n ≤ m →
    (digits base n).length ≤ (digits base m).length := by
  intro n
  induction n using Nat.strongRecOn with
  | _ n ih =>
    intro m h
    by_cases h1 : n < base
    · rw [digits_lt h1]
      have := List.length_pos_iff.mpr (digits_ne_nil base m)
      simp only [List.length_cons, List.length_nil]; omega
    · rw [digits_step hb (by omega), digits_step hb (show base ≤ m by omega)]
      have := ih _ (Nat.div_lt_self (show 0 < n by omega) (by omega)) _ (Nat.div_le_div_right (c := base) h)
      simp only [List.length_append, List.length_cons, List.length_nil]
      omega

/-- The digits of a padded numeral. -/
def paddedDigits (base w n : Nat) : List Nat :=
  List.replicate (w - (digits base n).length) 0 ++ digits base n

theorem padded_numeral (base : Nat) (upper : Bool) (w n : Nat) :
    padded w (numeral base upper n) = (paddedDigits base w n).map (digitChar upper) := by
  unfold padded numeral paddedDigits
  simp only [List.map_append, List.map_replicate, List.length_map]
  rfl

theorem paddedDigits_val {base : Nat} (hb : 2 ≤ base) (w n : Nat) : digitsVal base (paddedDigits base w n) = n := by
  unfold paddedDigits
  rw [digitsVal_append, digitsVal_zeros, digitsVal_digits hb]
  omega

theorem paddedDigits_bound {base : Nat} (hb : 2 ≤ base) (w n : Nat) : ∀ d ∈ paddedDigits base w n, d < base := by
  intro d hd
  unfold paddedDigits at hd
  rcases List.mem_append.mp hd with h | h
  · rw [List.eq_of_mem_replicate h]; omega
  · exact digits_bound hb n d h

theorem digitChar_order (upper : Bool) : ∀ b, b < 16 → ∀ a, a < b →
    (digitChar upper a ||| 32#8).toInt < (digitChar upper b ||| 32#8).toInt := by
  cases upper <;> decide +kernel

/-- A padded numeral is smaller, as texts are compared, than a padded numeral of a larger number, also behind the
same beginning. -/
theorem numeral_compare {base : Nat} (hb : 2 ≤ base) (hb' : base ≤ 16) (upper : Bool) {w n m : Nat} (h : n < m)
    {v1 v2 : View} {z : List Byte} (h1 : ShowsTerminated v1 (z ++ padded w (numeral base upper n)))
    (h2 : ShowsTerminated v2 (z ++ padded w (numeral base upper m)))
    (hf : (z ++ padded w (numeral base upper n)).length + 1 < 18446744073709551616) :
    strCompare v1 v2 = .ret (stFalse, -1) ∧ strCompare v2 v1 = .ret (stFalse, 1) := by
  have key := C25_compare_order_partial h1 h2 hf
  have hl := digits_length_mono hb n m (by omega)
  rcases Nat.lt_or_ge (padded w (numeral base upper n)).length (padded w (numeral base upper m)).length with hlt | hge
  · exact key.1 (by rw [List.length_append, List.length_append]; omega)
  · rw [padded_numeral, padded_numeral] at hge
    simp only [List.length_map] at hge
    have hle : (paddedDigits base w n).length ≤ (paddedDigits base w m).length := by
      unfold paddedDigits
      simp only [List.length_append, List.length_replicate]
      omega
    obtain ⟨p, a, u, b, v, e1, e2, e3, e4, e5⟩ := digitsVal_split _ _ (Nat.le_antisymm hle hge)
      (paddedDigits_bound hb w n) (paddedDigits_bound hb w m)
      (by rw [paddedDigits_val hb, paddedDigits_val hb]; exact h)
    refine key.2 (z ++ p.map (digitChar upper)) (digitChar upper a) (digitChar upper b) (u.map (digitChar upper))
      (v.map (digitChar upper)) ?_ ?_ (by simp [e3]) (digitChar_order upper b (by omega) a e4)
    · rw [padded_numeral, e1]; simp
    · rw [padded_numeral, e2]; simp

theorem padded_length_le {w n : Nat} (hn : n < 18446744073709551616) (base : Nat) (hb : 10 ≤ base) (upper : Bool) :
    (padded w (numeral base upper n)).length ≤ max w 20 := by
  have : (digits base n).length ≤ 20 := digits_length (by omega) 19 n
    (Nat.lt_of_lt_of_le hn (Nat.le_trans (by decide) (Nat.pow_le_pow_left hb 20)))
  unfold padded numeral
  simp only [List.length_append, List.length_replicate, List.length_map]
  omega

/-- A string with an allocator is not one without. -/
theorem room_of_alloc {P : Params} (hP : P.allocator.isSome) {q : Prop} : P.allocator = none → q := by
  intro h; rw [h] at hP; simp at hP

end Zy
