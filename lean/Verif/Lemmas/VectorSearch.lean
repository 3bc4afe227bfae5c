import Verif.Lemmas.VectorReach

/-!
# Helper lemmas: linear and binary search
-/

namespace Zy

variable {α : Type}

theorem toI64_small {n : Nat} (h : n < 9223372036854775808) : toI64 n = n := by
  unfold toI64; rw [if_pos h]

theorem toU64_nat {n : Nat} (h : n < 18446744073709551616) : toU64 (n : Int) = n := by
  unfold toU64; omega

/-- The upper end of a non-empty range, as computed by the binary search. -/
theorem toI64_last {n : Nat} (h0 : 0 < n) (h : n < 9223372036854775808) :
    toI64 (sub64 n 1) = (n : Int) - 1 := by
  have h1 : sub64 n 1 = n - 1 := sub64_eq (by omega) (by omega)
  rw [h1, toI64_small (by omega)]
  omega

/-- The linear search loop finds the first matching slot. -/
theorem findLoop_spec (cells : List (Cell α)) (eq : Cell α → Bool) (n : Nat) : ∀ i,
    i + n ≤ cells.length → i + n < 9223372036854775808 →
    (∃ k, ∃ _ : k < n, ∃ hb : i + k < cells.length, findLoop cells eq i n = .ret (stTrue, ((i + k : Nat) : Int)) ∧
      eq cells[i + k] = true ∧ ∀ j (hj : j < k), eq (cells[i + j]'(by omega)) = false) ∨
    (findLoop cells eq i n = .ret (stFalse, -1) ∧
      ∀ j (_ : j < n) (hb : i + j < cells.length), eq cells[i + j] = false) := by
  induction n with
  | zero => intro i _ _; right; exact ⟨rfl, by intro j hj; omega⟩
  | succ n ih =>
    intro i hi hl
    have hget : cells[i]? = some (cells[i]'(by omega)) := List.getElem?_eq_getElem _
    simp only [findLoop, hget]
    by_cases he : eq (cells[i]'(by omega)) = true
    · left
      refine ⟨0, by omega, by omega, ?_, he, by intro j hj; omega⟩
      rw [if_pos he, toI64_small (by omega)]; simp
    · rw [if_neg he]
      rcases ih (i + 1) (by omega) (by omega) with ⟨k, hk, hb, h1, h2, h3⟩ | ⟨h1, h2⟩
      · left
        refine ⟨k + 1, by omega, by omega, ?_, ?_, ?_⟩
        · rw [h1]; congr 3; omega
        · have : i + (k + 1) = i + 1 + k := by omega
          simp only [this]; exact h2
        · intro j hj
          cases j with
          | zero => simpa using he
          | succ j =>
            have := h3 j (by omega)
            have e : i + (j + 1) = i + 1 + j := by omega
            simp only [e]; exact this
      · right
        refine ⟨h1, ?_⟩
        intro j hj hb
        cases j with
        | zero => simpa using he
        | succ j =>
          have := h2 j (by omega) (by omega)
          have e : i + (j + 1) = i + 1 + j := by omega
          simp only [e]; exact this

/-- What the binary search loop does on the range `[lo, hi)`, for an arbitrary callback. `extra` are the
slots that were compared. -/
theorem bsearchLoop_spec (cells : List (Cell α)) (cmp : Cell α → Int) (fuel : Nat) :
    ∀ (lo hi : Nat) (st : Status) (log : List Nat), lo ≤ hi → hi - lo < fuel → hi ≤ cells.length →
    hi < 9223372036854775808 →
    ∃ p extra, lo ≤ p ∧ p ≤ hi ∧
      bsearchLoop cells cmp fuel (lo : Int) ((hi : Int) - 1) st log =
        .ret (if (extra.any fun m => (cells[m]?.map cmp) == some 0) then stTrue else st, (p : Int),
          log ++ extra) ∧
      (∀ m ∈ extra, lo ≤ m ∧ m < hi) ∧
      (extra = [] ∨ 2 ^ (extra.length - 1) ≤ hi - lo) ∧
      (p = hi ∨ p ∈ extra) ∧
      ((∀ i j (hj : j < cells.length) (hij : i ≤ j), lo ≤ i → j < hi → cmp cells[j] < 0 → cmp (cells[i]'(by omega)) < 0) →
        (∀ i (hi' : i < cells.length), lo ≤ i → i < p → cmp cells[i] < 0) ∧
        (∀ i (hi' : i < cells.length), p ≤ i → i < hi → 0 ≤ cmp cells[i])) := by
  induction fuel with
  | zero => intro lo hi st log h1 h2; omega
  | succ fuel ih =>
    intro lo hi st log hle hf hlen hlen2
    by_cases hlt : lo < hi
    · have hle' : (lo : Int) ≤ (hi : Int) - 1 := by omega
      generalize hmid : lo + (hi - 1 - lo) / 2 = mid
      have hm1 : lo ≤ mid := by omega
      have hm2 : mid < hi := by omega
      have hmc : mid < cells.length := by omega
      have hfm : mid - lo < fuel := by omega
      have hmidE : toU64 ((lo : Int) + ((hi : Int) - 1 - (lo : Int)) / 2) = mid := by
        have : (lo : Int) + ((hi : Int) - 1 - (lo : Int)) / 2 = (mid : Int) := by omega
        rw [this]; exact toU64_nat (by omega)
      have hget : cells[mid]? = some (cells[mid]'(by omega)) := List.getElem?_eq_getElem _
      simp only [bsearchLoop]
      rw [if_pos hle', hmidE, hget]
      simp only
      by_cases hc : cmp (cells[mid]'(by omega)) < 0
      · rw [if_pos hc]
        have hl' : toI64 (add64 mid 1) = ((mid + 1 : Nat) : Int) := by
          rw [add64_eq (by omega), toI64_small (by omega)]
        rw [hl']
        clear hl'
        obtain ⟨p, extra, hp1, hp2, he, hin, hlog, hpe, hpart⟩ :=
          ih (mid + 1) hi st (log ++ [mid]) (by omega) (by omega) hlen hlen2
        refine ⟨p, mid :: extra, by omega, hp2, ?_, ?_, ?_, ?_, ?_⟩
        · rw [he]
          have hne : (cells[mid]?.map cmp == some 0) = false := by
            rw [hget]; simp; omega
          simp only [List.any_cons, hne, Bool.false_or, List.append_assoc, List.singleton_append]
        · intro m hm
          rcases List.mem_cons.1 hm with h | h
          · omega
          · have := hin m h; omega
        · right
          rcases hlog with h | h
          · subst h; simp; omega
          · cases extra with
            | nil => simp; omega
            | cons e es =>
              simp only [List.length_cons, Nat.add_sub_cancel] at h ⊢
              rw [Nat.pow_succ]; omega
        · rcases hpe with h | h
          · exact Or.inl h
          · exact Or.inr (List.mem_cons_of_mem _ h)
        · intro hs
          obtain ⟨h1, h2⟩ := hpart (fun i j hj hij hi1 hj1 h => hs i j hj hij (by omega) hj1 h)
          refine ⟨?_, h2⟩
          intro i hi' hi1 hi2
          by_cases h : mid + 1 ≤ i
          · exact h1 i hi' h hi2
          · exact hs i mid (by omega) (by omega) hi1 hm2 hc
      · rw [if_neg hc]
        have hh' : toI64 (sub64 mid 1) = (mid : Int) - 1 := by
          unfold toI64 sub64
          split <;> omega
        rw [hh']
        clear hh'
        generalize hst : (if cmp (cells[mid]'hmc) = 0 then stTrue else st) = st'
        obtain ⟨p, extra, hp1, hp2, he, hin, hlog, hpe, hpart⟩ :=
          ih lo mid st' (log ++ [mid]) hm1 hfm (Nat.le_of_lt hmc) (Nat.lt_trans hm2 hlen2)
        refine ⟨p, mid :: extra, hp1, by omega, ?_, ?_, ?_, ?_, ?_⟩
        · rw [he]
          simp only [List.any_cons, hget, Option.map_some, List.append_assoc, List.singleton_append]
          rw [← hst]
          by_cases h0 : cmp (cells[mid]'hmc) = 0
          · simp [h0]
          · simp [h0]
        · intro m hm
          rcases List.mem_cons.1 hm with h | h
          · omega
          · have := hin m h; omega
        · right
          rcases hlog with h | h
          · subst h; simp; omega
          · cases extra with
            | nil => simp; omega
            | cons e es =>
              simp only [List.length_cons, Nat.add_sub_cancel] at h ⊢
              rw [Nat.pow_succ]; omega
        · rcases hpe with h | h
          · exact Or.inr (by rw [h]; exact List.mem_cons_self)
          · exact Or.inr (List.mem_cons_of_mem _ h)
        · intro hs
          obtain ⟨h1, h2⟩ := hpart (fun i j hj hij hi1 hj1 h => hs i j hj hij hi1 (by omega) h)
          refine ⟨h1, ?_⟩
          intro i hi' hi1 hi2
          by_cases h : i < mid
          · exact h2 i hi' hi1 h
          · have h3 : ¬ cmp cells[i] < 0 := fun hneg => hc (hs mid i hi' (by omega) hm1 hi2 hneg)
            omega
    · have : lo = hi := by omega
      subst this
      refine ⟨lo, [], by omega, by omega, ?_, by simp, Or.inl rfl, Or.inl rfl, ?_⟩
      · simp only [bsearchLoop]
        rw [if_neg (by omega)]; simp
      · intro _; exact ⟨fun i _ h1 h2 => by omega, fun i _ h1 h2 => by omega⟩

end Zy
