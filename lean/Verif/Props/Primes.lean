import Verif.Lemmas.Primes
import Verif.Props.Bitset

/-!
# Property theorems: the sieve of Eratosthenes (C200)
-/

namespace Zy

open Spec

/-- **C200**: whatever bits the bitset had, the sieve succeeds and leaves exactly the bits of the primes unset among those
from 2 on; the number of bits stays the same. -/
theorem C200_primes {P : Params} {t : Bits} (h : BReach P t) (hs : bsGetSize t < 9223372036854775808) :
    ∃ t', sievePrimes t = .ret (stSuccess, t') ∧ bsGetSize t' = bsGetSize t ∧
      ∀ k, 2 ≤ k → k < bsGetSize t →
        (IsPrime k → bsTest t' k = .ret stFalse) ∧ (¬ IsPrime k → bsTest t' k = .ret stTrue) := by
  rw [reach_size h] at hs ⊢
  obtain ⟨t', i', e', h', l', hi', _, g'⟩ := sievePrimes_ok h hs
  refine ⟨t', e', by rw [reach_size h', l'], fun k h2 hk => ?_⟩
  have hp := struck_prime h2 (Nat.le_trans (Nat.le_of_lt hk) hi')
  rcases test_reach h' (i := k) (by omega) with ⟨hon, et⟩ | ⟨hoff, et⟩
  · exact ⟨fun hprime => absurd ((g' k).1 hon).2 (hp.2 hprime), fun _ => et⟩
  · refine ⟨fun _ => et, fun hno => absurd (hp.1 fun hst => hoff ((g' k).2 ⟨hk, hst⟩)) hno⟩

/-- **C200**: the bits 0 and 1 are unset. -/
theorem C200_first {P : Params} {t : Bits} (h : BReach P t) (hs : bsGetSize t < 9223372036854775808) {t' : Bits}
    {st : Status} (he : sievePrimes t = .ret (st, t')) {k : Nat} (hk : k < 2) (hks : k < bsGetSize t) :
    bsTest t' k = .ret stFalse := by
  rw [reach_size h] at hs hks
  obtain ⟨t'', i', e', h', l', hi', _, g'⟩ := sievePrimes_ok h hs
  rw [e'] at he
  obtain ⟨-, rfl⟩ := Prod.mk.inj (Out.ret.inj he)
  rcases test_reach h' (i := k) (by omega) with ⟨hon, _⟩ | ⟨_, et⟩
  · obtain ⟨_, d, a, _, _, b⟩ := (g' k).1 hon
    omega
  · exact et

/-- **C200**: `ZyanBitsetCount` afterwards counts the bits from 2 on that are not primes, whatever was beyond the end of the
bitset before: with the primes below the size and the two bits at the beginning these are all bits. -/
theorem C200_count {P : Params} {t : Bits} (h : BReach P t) (hs : bsGetSize t < 9223372036854775808) {ps : List Nat}
    (hn : ps.Nodup) (hp : ∀ k, k ∈ ps ↔ k < bsGetSize t ∧ IsPrime k) :
    ∃ t' c, sievePrimes t = .ret (stSuccess, t') ∧ bsCount t' = .ret (stSuccess, c) ∧
      c + ps.length + min 2 (bsGetSize t) = bsGetSize t := by
  rw [reach_size h] at hs hp ⊢
  obtain ⟨t', i', e', h', l', hi', s', g'⟩ := sievePrimes_ok h hs
  refine ⟨t', _, e', (C42_count_partial h').2.1 s', ?_⟩
  have hc := count_unset (babsOf t').bits (babsOf t').bits.length (Nat.le_refl _)
  rw [List.take_length, l'] at hc
  have hperm : ((List.range (babsOf t).bits.length).filter fun k => decide ((babsOf t').bits[k]? ≠ some true)).Perm
      (List.range (min 2 (babsOf t).bits.length) ++ ps) := by
    rw [List.perm_ext_iff_of_nodup (List.nodup_range.filter _) (List.nodup_append.2 ⟨List.nodup_range, hn, ?_⟩)]
    · intro k
      rw [List.mem_filter, List.mem_range, decide_eq_true_iff, List.mem_append, List.mem_range, hp]
      have hg : (babsOf t').bits[k]? = some true ↔ _ := g' k
      rw [Ne, hg]
      constructor
      · rintro ⟨hk, hno⟩
        by_cases h2 : k < 2
        · exact Or.inl (by omega)
        · exact Or.inr ⟨hk, (struck_prime (by omega) (by omega)).1 fun hst => hno ⟨hk, hst⟩⟩
      · rintro (hk | ⟨hk, hpr⟩)
        · refine ⟨by omega, ?_⟩
          rintro ⟨_, d, a, _, _, b⟩
          omega
        · exact ⟨hk, fun hst => (struck_prime hpr.1 (Nat.le_trans (Nat.le_of_lt hk) hi')).2 hpr hst.2⟩
    · intro a ha b hb hab
      have := ((hp b).1 hb).2.1
      rw [List.mem_range] at ha
      omega
  have hlen := hperm.length_eq
  rw [List.length_append, List.length_range] at hlen
  omega

/-! ## Concrete examples meeting the hypotheses -/

/-- The eleven bits of `exBits`: 2, 3, 5 and 7 remain. -/
example : (sievePrimes exBits).bind (fun r => .ret (babsOf r.2).bits) = .ret [false, false, false, false, true, false, true,
    false, true, true, true] := by decide +kernel

example : ∃ t', sievePrimes exBits = .ret (stSuccess, t') ∧ bsTest t' 7 = .ret stFalse ∧ bsTest t' 9 = .ret stTrue := by
  obtain ⟨t', h1, _, h2⟩ := C200_primes exBits_reach (by decide)
  refine ⟨t', h1, (h2 7 (by decide) (by decide)).1 ⟨by decide, fun d hd => ?_⟩, (h2 9 (by decide) (by decide)).2 fun h => ?_⟩
  · have := Nat.le_of_dvd (by decide) hd
    have hall : ∀ d ≤ 7, d ∣ 7 → d = 1 ∨ d = 7 := by decide
    exact hall d this hd
  · rcases h.2 3 (by decide) with h | h <;> cases h

example : ∃ t' c, sievePrimes exBits = .ret (stSuccess, t') ∧ bsCount t' = .ret (stSuccess, c) ∧ c + 4 + 2 = 11 := by
  refine C200_count exBits_reach (by decide) (ps := [2, 3, 5, 7]) (by decide) fun k => ?_
  have hsmall : ∀ k < 11, k ∈ [2, 3, 5, 7] ↔ 2 ≤ k ∧ ∀ d < 12, d ∣ k → d = 1 ∨ d = k := by decide +kernel
  have hsize : bsGetSize exBits = 11 := by decide
  rw [hsize]
  constructor
  · intro hk
    have hlt : k < 11 := by
      have hall : ∀ k ∈ [2, 3, 5, 7], k < 11 := by decide
      exact hall k hk
    obtain ⟨h2, hd⟩ := (hsmall k hlt).1 hk
    exact ⟨hlt, h2, fun d hdk => hd d (by have := Nat.le_of_dvd (by omega) hdk; omega) hdk⟩
  · rintro ⟨hlt, h2, hd⟩
    exact (hsmall k hlt).2 ⟨h2, fun d _ => hd d⟩

end Zy
