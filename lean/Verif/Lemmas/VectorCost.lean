import Verif.Spec.VectorCost
import Verif.Lemmas.Requests
import Verif.Lemmas.VectorBounds

/-!
# Lemmas: what a vector costs
-/

namespace Zy

open Spec

variable {α β γ : Type}

@[simp] theorem spent_append (t u : List (Event α)) : spent (t ++ u) = spent t + spent u := by
  simp [spent]

/-- From `s` to `r` nothing was reallocated. -/
def Still (s r : VS α) : Prop :=
  spent r.w.trace = spent s.w.trace ∧ r.v.cap = s.v.cap ∧ r.v.allocator = s.v.allocator ∧
    r.v.shrink = s.v.shrink ∧ r.v.growth = s.v.growth

theorem Still.refl (s : VS α) : Still s s := ⟨rfl, rfl, rfl, rfl, rfl⟩

theorem Still.trans {s r q : VS α} (h : Still s r) (h' : Still r q) : Still s q :=
  ⟨h'.1.trans h.1, h'.2.1.trans h.2.1, h'.2.2.1.trans h.2.2.1, h'.2.2.2.1.trans h.2.2.2.1,
    h'.2.2.2.2.trans h.2.2.2.2⟩

/-- From `s` to `r` at most one reallocation happened, to the capacity of `r`, and only if `t`. -/
def Cost (t : Prop) (s r : VS α) : Prop :=
  (spent s.w.trace ≤ spent r.w.trace ∧ spent r.w.trace ≤ spent s.w.trace + r.v.cap) ∧ (¬ t → spent r.w.trace = spent s.w.trace)

/-- From `s` to `r` exactly one reallocation happened, to the capacity of `r`. -/
def Once (s r : VS α) : Prop := spent r.w.trace = spent s.w.trace + r.v.cap

theorem Still.cost {s r : VS α} (h : Still s r) (t : Prop) : Cost t s r :=
  ⟨⟨by rw [h.1]; omega, by rw [h.1]; omega⟩, fun _ => h.1⟩

theorem Cost.still {t : Prop} {s r q : VS α} (h : Cost t s r) (h' : Still r q) : Cost t s q :=
  ⟨⟨by rw [h'.1]; exact h.1.1, by rw [h'.1, h'.2.1]; exact h.1.2⟩, fun n => by rw [h'.1]; exact h.2 n⟩

theorem Still.then {t : Prop} {s r q : VS α} (h : Still s r) (h' : Cost t r q) : Cost t s q :=
  ⟨⟨by rw [← h.1]; exact h'.1.1, by rw [← h.1]; exact h'.1.2⟩, fun n => by rw [← h.1]; exact h'.2 n⟩

theorem Cost.mono {t t' : Prop} {s r : VS α} (h : Cost t s r) (i : t → t') : Cost t' s r :=
  ⟨h.1, fun n => h.2 fun x => n (i x)⟩

theorem destroyLoop_still : ∀ (n : Nat) (s : VS α) (i : Nat), Ensures (destroyLoop s i n) (Still s)
  | 0, s, _ => ensures_ret (.refl s)
  | n + 1, s, i => by
    unfold destroyLoop
    refine ensures_withData fun b _ => ?_
    split
    · exact ensures_ub
    · refine (destroyLoop_still n _ (i + 1)).imp fun r h => ?_
      refine Still.trans ?_ h
      exact ⟨by simp [World.log, spent, asked], rfl, rfl, rfl, rfl⟩

theorem runDtors_still (s : VS α) (lo hi : Nat) : Ensures (runDtors s lo hi) (Still s) :=
  ensures_ite (fun _ => destroyLoop_still _ _ _) fun _ => ensures_ret (.refl s)

theorem shiftLeft_still (s : VS α) (i n : Nat) : Ensures (shiftLeft s i n) (Still s) :=
  ensures_withData fun _ _ => (ensures_any _).bind fun _ _ => ensures_ret ⟨rfl, rfl, rfl, rfl, rfl⟩

theorem shiftRight_still (s : VS α) (i n : Nat) : Ensures (shiftRight s i n) (Still s) :=
  ensures_withData fun _ _ => (ensures_any _).bind fun _ _ => ensures_ret ⟨rfl, rfl, rfl, rfl, rfl⟩

theorem reallocTo_cost (s : VS α) (a c : Nat) :
    Ensures (reallocTo s a c) fun r => Cost True s r.2 ∧ (failed r.1 = false → Once s r.2) := by
  refine ensures_withData fun b _ => ?_
  by_cases hf : failed (s.w.oracle s.w.calls)
  · refine ensures_ite (fun _ => ensures_ret ?_) fun h => absurd ?_ h
    · refine ⟨⟨⟨?_, ?_⟩, fun h => absurd trivial h⟩, fun h => ?_⟩
      · simp [reallocBlock, hf, World.log, spent, asked]
      · simp [reallocBlock, hf, World.log, spent, asked]
      · simp only [reallocBlock, hf, if_true] at h; simp at h
    · simp [reallocBlock, hf]
  · have hs : spent (reallocBlock s.w a b s.v.esz c).2.2.trace = spent s.w.trace + c := by
      simp [reallocBlock, hf, World.log, spent, asked]
    refine ensures_ite (fun _ => ensures_ret ?_) fun _ => ensures_ret ?_
    · exact ⟨⟨⟨by show _ ≤ spent _; rw [hs]; omega, by show spent _ ≤ _; rw [hs]; exact Nat.le_refl _⟩, fun h => absurd trivial h⟩, fun _ => hs⟩
    · exact ⟨⟨⟨by show _ ≤ spent _; rw [hs]; omega, by show spent _ ≤ _; rw [hs]; exact Nat.le_refl _⟩, fun h => absurd trivial h⟩, fun _ => hs⟩

theorem reallocate_cost (s : VS α) (c : Nat) :
    Ensures (reallocate s c) fun r => Cost True s r.2 ∧
      (s.v.allocator.isSome → 1 ≤ c → failed r.1 = false → Once s r.2) := by
  unfold reallocate
  cases hal : s.v.allocator with
  | none =>
    exact ensures_ite (fun _ => ensures_ret ⟨(Still.refl s).cost _, fun h => by simp at h⟩) fun _ =>
      ensures_ret ⟨(Still.refl s).cost _, fun h => by simp at h⟩
  | some a =>
    refine ensures_ite (fun h1 => ensures_ite (fun _ => ?_) fun _ => ?_) fun _ => ?_
    · exact (reallocTo_cost s a 1).imp fun r h => ⟨h.1, fun _ h' => by omega⟩
    · exact ensures_ret ⟨(Still.refl s).cost _, fun _ h' => by omega⟩
    · exact (reallocTo_cost s a c).imp fun r h => ⟨h.1, fun _ _ => h.2⟩

theorem growFor_cost (s : VS α) (n : Nat) :
    Ensures (growFor s n) fun r => Cost (s.v.cap < n) s r.2 ∧
      (s.v.cap < n → s.v.allocator.isSome → failed r.1 = false → Once s r.2) := by
  refine ensures_ite (fun h => ?_) fun h => ensures_ret ⟨(Still.refl s).cost _, fun h' => ?_⟩
  · have hn : s.v.cap < n := by simpa [shouldGrow] using h
    exact (reallocate_cost s _).imp fun r hr => ⟨⟨hr.1.1, fun h' => absurd hn h'⟩,
      fun _ ha hf => hr.2 ha (by omega) hf⟩
  · exact absurd (by simpa [shouldGrow] using h') h

theorem shrinkAfter_cost (s : VS α) :
    Ensures (shrinkAfter s) fun r => Cost (shouldShrink s.v.size s.v.cap s.v.shrink = true) s r.2 ∧
      (shouldShrink s.v.size s.v.cap s.v.shrink = true → s.v.allocator.isSome → failed r.1 = false →
        Once s r.2) := by
  refine ensures_ite (fun h => ?_) fun h => ensures_ret ⟨(Still.refl s).cost _, fun h' => absurd h' h⟩
  exact (reallocate_cost s _).imp fun r hr => ⟨⟨hr.1.1, fun h' => absurd h h'⟩,
      fun _ ha hf => hr.2 ha (by omega) hf⟩

theorem copyIn_still (s : VS α) (i : Nat) (x : Src α) (n m : Nat) (st : Status) :
    Ensures (withData s.v.data fun b => (memcpyIn b i x n).bind fun b' =>
      .ret (st, ({ s with v := { s.v with data := some b', size := m } } : VS α)))
      fun r => Still s r.2 ∧ r.1 = st :=
  ensures_withData fun _ _ => (ensures_any _).bind fun _ _ => ensures_ret ⟨⟨rfl, rfl, rfl, rfl, rfl⟩, rfl⟩

theorem vecPushBack_cost (s : VS α) (x : Src α) :
    Ensures (vecPushBack s x) fun r => Cost (s.v.cap < add64 s.v.size 1) s r.2 ∧
      (s.v.cap < add64 s.v.size 1 → s.v.allocator.isSome → failed r.1 = false → x.isNull = false →
        Once s r.2) := by
  refine ensures_ite (fun h => ensures_ret ⟨(Still.refl s).cost _, fun _ _ _ h' => by simp [h] at h'⟩)
    fun _ => (growFor_cost s _).bind fun r hr => ?_
  refine ensures_ite (fun h => ensures_ret ⟨hr.1, fun _ _ h' => by simp [h] at h'⟩) fun hf => ?_
  refine (copyIn_still r.2 _ _ _ _ _).imp fun q hq => ⟨hr.1.still hq.1, fun h1 h2 _ _ => ?_⟩
  have := hr.2 h1 h2 (by simpa using hf)
  unfold Once at this ⊢
  rw [hq.1.1, hq.1.2.1, this]

theorem vecInsertRange_cost (s : VS α) (i : Nat) (x : Src α) (n : Nat) :
    Ensures (vecInsertRange s i x n) fun r => Cost (¬ i > s.v.size ∧ s.v.cap < add64 s.v.size n) s r.2 := by
  refine ensures_ite (fun h => ensures_ret ((Still.refl s).cost _)) fun _ =>
    ensures_ite (fun h => ensures_ret ((Still.refl s).cost _)) fun hi =>
    Ensures.imp (Q := fun r => Cost (s.v.cap < add64 s.v.size n) s r.2) ?_ fun r h => h.mono fun h => ⟨hi, h⟩
  refine (growFor_cost s _).bind fun r hr => ensures_ite (fun _ => ensures_ret hr.1) fun _ => ?_
  refine Ensures.bind (Q := fun q => Still r.2 q) ?_ fun q hq =>
    (copyIn_still q _ _ _ _ _).imp fun p hp => (hr.1.still hq).still hp.1
  exact ensures_ite (fun _ => shiftRight_still _ _ _) fun _ => ensures_ret (.refl _)

theorem vecEmplaceEx_cost (s : VS α) (i : Nat) (c : Ctor α) :
    Ensures (vecEmplaceEx s i c) fun r => Cost (¬ i > s.v.size ∧ s.v.cap < add64 s.v.size 1) s r.2 := by
  refine ensures_ite (fun h => ensures_ret ((Still.refl s).cost _)) fun hi =>
    Ensures.imp (Q := fun r => Cost (s.v.cap < add64 s.v.size 1) s r.2) ?_ fun r h => h.mono fun h => ⟨hi, h⟩
  refine (growFor_cost s _).bind fun r hr => ensures_ite (fun _ => ensures_ret hr.1) fun _ => ?_
  refine Ensures.bind (Q := fun q => Still r.2 q) ?_ fun q hq => ?_
  · exact ensures_ite (fun _ => shiftRight_still _ _ _) fun _ => ensures_ret (.refl _)
  · cases c with
    | none => exact ensures_ret ((hr.1.still hq).still ⟨rfl, rfl, rfl, rfl, rfl⟩)
    | some f =>
      refine ensures_withData fun b hb => ?_
      split
      · exact ensures_ub
      · exact ensures_ite (fun _ => ensures_ret ((hr.1.still hq).still ⟨rfl, rfl, rfl, rfl, rfl⟩)) fun _ =>
          ensures_ret ((hr.1.still hq).still ⟨rfl, rfl, rfl, rfl, rfl⟩)

theorem vecSet_still (s : VS α) (i : Nat) (x : Src α) :
    Ensures (vecSet s i x) fun r => Still s r.2 :=
  ensures_ite (fun _ => ensures_ret (.refl s)) fun _ => ensures_ite (fun _ => ensures_ret (.refl s)) fun _ =>
    (runDtors_still s _ _).bind fun r hr =>
      (copyIn_still r i x 1 r.v.size stSuccess).imp fun _ h => hr.trans h.1

theorem vecSwap_still (s : VS α) (i j : Nat) : Ensures (vecSwap s i j) fun r => Still s r.2 :=
  ensures_ite (fun _ => ensures_ret (.refl s)) fun _ => ensures_ite (fun _ => ensures_ret (.refl s)) fun _ =>
    ensures_withData fun _ _ => (ensures_any _).bind fun _ _ => (ensures_any _).bind fun _ _ =>
      (ensures_any _).bind fun _ _ => ensures_ret ⟨rfl, rfl, rfl, rfl, rfl⟩

theorem runDtors_size (s : VS α) (lo hi : Nat) : Ensures (runDtors s lo hi) fun r => r.v.size = s.v.size :=
  fun _ e => congrArg Vec.size (runDtors_v e)

theorem ensures_and {x : Out β} {Q R : β → Prop} (h : Ensures x Q) (h' : Ensures x R) :
    Ensures x fun r => Q r ∧ R r := fun r e => ⟨h r e, h' r e⟩

theorem shiftLeft_size (s : VS α) (i n : Nat) : Ensures (shiftLeft s i n) fun r => r.v.size = s.v.size :=
  ensures_withData fun _ _ => (ensures_any _).bind fun _ _ => ensures_ret rfl

theorem vecDeleteRange_cost (s : VS α) (i n : Nat) :
    Ensures (vecDeleteRange s i n) fun r =>
      Cost ((n ≠ 0 ∧ ¬ add64 i n > s.v.size) ∧
        shouldShrink (sub64 s.v.size n) s.v.cap s.v.shrink = true) s r.2 := by
  refine ensures_ite (fun _ => ensures_ret ((Still.refl s).cost _)) fun hn =>
    ensures_ite (fun _ => ensures_ret ((Still.refl s).cost _)) fun hi =>
    Ensures.imp (Q := fun r => Cost (shouldShrink (sub64 s.v.size n) s.v.cap s.v.shrink = true) s r.2) ?_
      fun r h => h.mono fun h => ⟨⟨hn, hi⟩, h⟩
  refine (ensures_and (runDtors_still s _ _) (runDtors_size s _ _)).bind fun r hr => ?_
  refine Ensures.bind (Q := fun q => Still r q ∧ q.v.size = r.v.size) ?_ fun q hq => ?_
  · exact ensures_ite (fun _ => ensures_and (shiftLeft_still _ _ _) (shiftLeft_size _ _ _)) fun _ =>
      ensures_ret ⟨.refl _, rfl⟩
  · refine (shrinkAfter_cost _).imp fun p hp => ?_
    have h := hr.1.trans hq.1
    have hc := hp.1
    simp only [hq.2, hr.2, h.2.1, h.2.2.2.1] at hc
    exact (h.trans (r := q) ⟨rfl, rfl, rfl, rfl, rfl⟩).then hc

theorem vecPopBack_cost (s : VS α) :
    Ensures (vecPopBack s) fun r =>
      Cost (s.v.size ≠ 0 ∧ shouldShrink (s.v.size - 1) s.v.cap s.v.shrink = true) s r.2 ∧
      (shouldShrink (s.v.size - 1) s.v.cap s.v.shrink = true → s.v.allocator.isSome → failed r.1 = false →
        s.v.size ≠ 0 → Once s r.2) := by
  refine ensures_ite (fun h0 => ensures_ret ⟨(Still.refl s).cost _, fun _ _ _ h => absurd h0 h⟩) fun h0 =>
    (ensures_and (runDtors_still s _ _) (runDtors_size s _ _)).bind fun r hr => ?_
  refine (shrinkAfter_cost _).imp fun p hp => ?_
  have hc := hp.1
  have ho := hp.2
  simp only [hr.2, hr.1.2.1, hr.1.2.2.2.1, hr.1.2.2.1] at hc ho
  refine ⟨(hr.1.then hc).mono fun h => ⟨h0, h⟩, fun h1 h2 h3 _ => ?_⟩
  have := ho h1 h2 h3
  unfold Once at this ⊢
  rw [this, hr.1.1]

theorem vecResizeEx_cost (s : VS α) (n : Nat) (x : Src α) :
    Ensures (vecResizeEx s n x) fun r =>
      Cost (n ≠ s.v.size ∧ (s.v.cap < n ∨ shouldShrink n s.v.cap s.v.shrink = true)) s r.2 := by
  refine ensures_ite (fun _ => ensures_ret ((Still.refl s).cost _)) fun hn => ?_
  refine Ensures.bind (Q := fun r => Still s r) ?_ fun r hr => ?_
  · exact ensures_ite (fun _ => runDtors_still s _ _) fun _ => ensures_ret (.refl s)
  refine Ensures.bind (Q := fun q => Cost (n ≠ s.v.size ∧
    (s.v.cap < n ∨ shouldShrink n s.v.cap s.v.shrink = true)) s q.2) ?_ fun q hq => ?_
  · refine ensures_ite (fun h => ?_) fun _ => ensures_ret (hr.cost _)
    simp only [shouldGrow, hr.2.1, hr.2.2.2.1, Bool.or_eq_true, decide_eq_true_eq] at h
    refine (reallocate_cost r _).imp fun q hq => ?_
    exact ⟨⟨by rw [← hr.1]; exact hq.1.1.1, by rw [← hr.1]; exact hq.1.1.2⟩, fun h' => absurd ⟨hn, h⟩ h'⟩
  refine ensures_ite (fun _ => ensures_ret hq) fun _ => ensures_ite (fun _ => ?_) fun _ =>
    ensures_ret (hq.still ⟨rfl, rfl, rfl, rfl, rfl⟩)
  exact ensures_withData fun b hb => (ensures_any _).bind fun _ _ =>
    ensures_ret (hq.still ⟨rfl, rfl, rfl, rfl, rfl⟩)

theorem vecReserve_cost (s : VS α) (c : Nat) :
    Ensures (vecReserve s c) fun r => Cost (s.v.cap < c) s r.2 := by
  refine ensures_ite (fun h => ?_) fun h => ensures_ret ((Still.refl s).cost _)
  refine (reallocate_cost s _).bind fun r hr => ?_
  exact ensures_ite (fun _ => ensures_ret ⟨hr.1.1, fun h' => absurd h h'⟩) fun _ =>
    ensures_ret ⟨hr.1.1, fun h' => absurd h h'⟩

/-! ## Arithmetic of the potential -/

/-- Credit that pays for the next reallocation: twice the excess of the elements, times growth, over the
capacity, or the growth times the reverse. -/
def credit (g s c : Nat) : Nat := 2 * (g * s - c) + g * (c - g * s)

theorem twice {g : Nat} (hg : 2 ≤ g) (k : Nat) : 2 * k ≤ g * k := Nat.mul_le_mul_right _ hg

theorem pay_grow {g s c k : Nat} (hg : 2 ≤ g) (hc : c < s + k) :
    (s + k) * g + credit g (s + k) ((s + k) * g) ≤ credit g s c + g * g * k := by
  have e : (s + k) * g = g * s + g * k := by rw [Nat.mul_comm, Nat.mul_add]
  have e2 : g * (s + k) = g * s + g * k := Nat.mul_add _ _ _
  have e3 : g * g * k = g * (g * k) := Nat.mul_assoc _ _ _
  have h1 := twice hg s
  have h2 := twice hg k
  have h3 := twice hg (g * k)
  have h4 : credit g (s + k) (g * s + g * k) = 0 := by
    unfold credit; rw [e2]; simp
  rw [e, h4, e3]
  unfold credit
  by_cases h : s ≤ k
  · have := Nat.mul_le_mul_left g h
    omega
  · omega

theorem pay_add {g s c k : Nat} (hg : 2 ≤ g) :
    credit g (s + k) c ≤ credit g s c + g * g * k := by
  have e2 : g * (s + k) = g * s + g * k := Nat.mul_add _ _ _
  have e3 : g * g * k = g * (g * k) := Nat.mul_assoc _ _ _
  have h3 := twice hg (g * k)
  unfold credit
  rw [e2, e3]
  have h4 : g * (c - (g * s + g * k)) ≤ g * (c - g * s) := Nat.mul_le_mul_left g (by omega)
  omega

theorem pay_remove {g s c k : Nat} :
    credit g s c ≤ credit g (s + k) c + g * g * k := by
  have e2 : g * (s + k) = g * s + g * k := Nat.mul_add _ _ _
  have e3 : g * g * k = g * (g * k) := Nat.mul_assoc _ _ _
  unfold credit
  rw [e2, e3]
  have h4 : g * (c - g * s) ≤ g * (c - (g * s + g * k)) + g * (g * k) := by
    rw [← Nat.mul_add]
    exact Nat.mul_le_mul_left g (by omega)
  omega

theorem pay_shrink {g t s s' c k : Nat} (hg : 2 ≤ g) (ht : g < t) (hk : s ≤ s' + k) (h0 : 1 ≤ k)
    (hc : s' * t < c) :
    max 1 (s' * g) + credit g s' (max 1 (s' * g)) ≤ credit g s c + g * g * k := by
  have e3 : g * g * k = g * (g * k) := Nat.mul_assoc _ _ _
  have h3 := twice hg (g * k)
  have hgk : g ≤ g * k := Nat.le_mul_of_pos_right _ h0
  rcases Nat.eq_zero_or_pos s' with rfl | hs
  · simp only [Nat.zero_mul, credit, Nat.mul_zero]
    rw [e3]
    have : max 1 0 = 1 := rfl
    rw [this]
    omega
  · have hm : max 1 (s' * g) = g * s' := by
      have := twice hg s'
      rw [Nat.mul_comm]; omega
    have h4 : credit g s' (g * s') = 0 := by unfold credit; simp
    rw [hm, h4, e3]
    have h5 : s' * (g + 1) ≤ s' * t := Nat.mul_le_mul_left _ ht
    have h6 : s' * (g + 1) = g * s' + s' := by rw [Nat.mul_add, Nat.mul_comm, Nat.mul_one]
    have h7 : g * s ≤ g * s' + g * k := by rw [← Nat.mul_add]; exact Nat.mul_le_mul_left _ hk
    have h8 : g * s' ≤ g * (c - g * s) + g * (g * k) := by
      rw [← Nat.mul_add]; exact Nat.mul_le_mul_left _ (by omega)
    unfold credit
    omega

theorem pay_reserve {g s c n : Nat} (hg : 2 ≤ g) (hs : s ≤ c) (hn : c < n) :
    n + credit g s n ≤ credit g s c + g * g * n := by
  have e3 : g * g * n = g * (g * n) := Nat.mul_assoc _ _ _
  have h2 := twice hg n
  have h3 := twice hg (g * n)
  have h4 : g * s ≤ g * n := Nat.mul_le_mul_left _ (by omega)
  have h5 : g * (n - g * s) ≤ g * n := Nat.mul_le_mul_left _ (by omega)
  rw [e3]
  unfold credit
  by_cases h : g * s ≤ n
  · omega
  · have : n - g * s = 0 := by omega
    rw [this]; omega

theorem pay_fit {g s : Nat} (hg : 2 ≤ g) :
    max 1 s + credit g s (max 1 s) ≤ g * g * (s + 1) := by
  have e3 : g * g * (s + 1) = g * (g * s) + g * g := by
    rw [Nat.mul_add, Nat.mul_assoc, Nat.mul_one]
  have h1 := twice hg s
  have h3 := twice hg (g * s)
  have h4 := twice hg g
  rw [e3]
  unfold credit
  rcases Nat.eq_zero_or_pos s with rfl | hs
  · have : max 1 0 = 1 := rfl
    simp only [this, Nat.mul_zero]; omega
  · have : max 1 s = s := by omega
    rw [this]
    have : s - g * s = 0 := by omega
    rw [this]; omega

theorem pay_failed {g s c : Nat} (hg : 2 ≤ g) (hs : s ≤ c) (hc : c < s + 1) :
    (s + 1) * g + credit g s ((s + 1) * g) ≤ credit g s c + g * g * 2 := by
  have e : (s + 1) * g = g * s + g := by rw [Nat.mul_comm, Nat.mul_add, Nat.mul_one]
  have h1 := twice hg s
  have h4 := twice hg g
  have h5 : g * s + g - g * s = g := by omega
  have h6 : g * s - (g * s + g) = 0 := by omega
  rw [e]
  unfold credit
  rw [h5, h6]
  omega

theorem credit_le {g s c : Nat} (hs : s ≤ c) : credit g s c ≤ 2 * g * c := by
  have h1 : g * s ≤ g * c := Nat.mul_le_mul_left _ hs
  have h2 : g * (c - g * s) ≤ g * c := Nat.mul_le_mul_left _ (by omega)
  have e : 2 * g * c = 2 * (g * c) := Nat.mul_assoc _ _ _
  rw [e]
  unfold credit
  by_cases h : g * s ≤ c
  · omega
  · have : c - g * s = 0 := by omega
    rw [this]; omega

/-! ## One operation -/

theorem Rep.dynamic {P : Params} {s : VS α} {a : LState α} {b : Block α} {slack : List (Cell α)}
    (R : Rep P s a b slack) (hg : 2 ≤ P.growth) : P.allocator.isSome = true := by
  cases h : P.allocator with
  | none => have := (R.fixed h).1; omega
  | some _ => rfl

theorem Rep.shrinks {P : Params} {s : VS α} {a : LState α} {b : Block α} {slack : List (Cell α)}
    (R : Rep P s a b slack) {n : Nat} (hf : Fits P n) :
    shouldShrink n s.v.cap s.v.shrink = true ↔ P.thr ≠ 0 ∧ n * P.thr < a.cap := by
  unfold shouldShrink
  rw [R.cap, R.shrink, mul64_eq (hf.mul_growth R.thr255 R.esz1).2.1]
  simp

/-- The credit after trimming to length `n` is paid. -/
theorem pay_trim {P : Params} (hdyn : P.allocator.isSome = true) (hg : 2 ≤ P.growth)
    (ht : P.thr = 0 ∨ P.growth < P.thr) {x y s n c k : Nat} (hk : s ≤ n + k) (hk' : n ≤ s + k) (h0 : 1 ≤ k)
    (hx : x ≤ y + trim P c n) (hx' : ¬ (P.thr ≠ 0 ∧ n * P.thr < c) → x = y) :
    x + credit P.growth n (trim P c n) ≤ y + credit P.growth s c + P.growth * P.growth * k := by
  by_cases h : P.thr ≠ 0 ∧ n * P.thr < c
  · have e : trim P c n = max 1 (n * P.growth) := by
      unfold trim; rw [if_pos ⟨hdyn, h⟩]
    rw [e] at hx ⊢
    have := pay_shrink hg (ht.resolve_left h.1) hk h0 h.2
    omega
  · have e : trim P c n = c := by
      unfold trim; rw [if_neg (fun h' => h h'.2)]
    rw [e, hx' h]
    rcases Nat.le_total n s with hns | hns
    · obtain ⟨j, rfl⟩ := Nat.exists_eq_add_of_le hns
      have h1 := pay_remove (g := P.growth) (s := n) (c := c) (k := j)
      have h2 : P.growth * P.growth * j ≤ P.growth * P.growth * k := Nat.mul_le_mul_left _ (by omega)
      omega
    · obtain ⟨j, rfl⟩ := Nat.exists_eq_add_of_le hns
      have h1 := pay_add (g := P.growth) (s := s) (c := c) (k := j) hg
      have h2 : P.growth * P.growth * j ≤ P.growth * P.growth * k := Nat.mul_le_mul_left _ (by omega)
      omega

/-- The credit after making room for `k` more elements is paid. -/
theorem pay_room {P : Params} (hg : 2 ≤ P.growth) {x y s c c' k : Nat}
    (hr : Spec.room P c (s + k) = some c') (hx : x ≤ y + c') (hx' : ¬ c < s + k → x = y) :
    x + credit P.growth (s + k) c' ≤ y + credit P.growth s c + P.growth * P.growth * k := by
  unfold Spec.room at hr
  split at hr
  · injection hr with hr
    subst hr
    have := pay_add (g := P.growth) (s := s) (c := c) (k := k) hg
    have := hx' (by omega)
    omega
  · split at hr
    · injection hr with hr
      subst hr
      have := pay_grow (g := P.growth) (s := s) (c := c) (k := k) hg (by omega)
      omega
    · cases hr

theorem pay_room_failed {P : Params} (hg : 2 ≤ P.growth) {x y s c c' : Nat} (hs : s ≤ c)
    (hr : Spec.room P c (s + 1) = some c') (hx : x ≤ y + c') (hx' : ¬ c < s + 1 → x = y) :
    x + credit P.growth s c' ≤ y + credit P.growth s c + P.growth * P.growth * 2 := by
  unfold Spec.room at hr
  split at hr
  · injection hr with hr
    subst hr
    have := hx' (by omega)
    omega
  · split at hr
    · injection hr with hr
      subst hr
      have := pay_failed (g := P.growth) (s := s) (c := c) hg hs (by omega)
      omega
    · cases hr

theorem room_dyn {P : Params} (hdyn : P.allocator.isSome = true) (c n : Nat) :
    ∃ c', Spec.room P c n = some c' := by
  unfold Spec.room
  split
  · exact ⟨_, rfl⟩
  · exact ⟨_, rfl⟩

theorem Rep.len64 {P : Params} {s : VS α} {a : LState α} {b : Block α} {slack : List (Cell α)}
    (R : Rep P s a b slack) {n : Nat} (hf : Fits P n) : n < 18446744073709551616 :=
  (hf.mul_growth R.growth255 R.esz1).2.2

theorem pay_step {P : Params} {s : VS α} {a : LState α} {b : Block α} {slack : List (Cell α)}
    (R : Rep P s a b slack) (hg : 2 ≤ P.growth) (ht : P.thr = 0 ∨ P.growth < P.thr) (op : VOp α)
    {junk : List (Cell α)} {st : Status} {s' : VS α} {a' : LState α} {b' : Block α}
    {slack' : List (Cell α)} (hd : InDomain P a op) (hj : junk.length = junkLen a op)
    (hstep : step P junk a op = (st, a')) (hop : vecOp s op = .ret (st, s')) (R' : Rep P s' a' b' slack') :
    spent s'.w.trace + credit P.growth a'.elems.length a'.cap ≤
      spent s.w.trace + credit P.growth a.elems.length a.cap + P.growth * P.growth * touched a op := by
  have hdyn := R.dynamic hg
  have hcap := R'.cap
  cases op with
  | push x =>
    obtain ⟨⟨-, h1⟩, h2⟩ := (vecPushBack_cost s _ _ hop).1
    rw [R.size, R.cap, add64_eq (R.len64 hd)] at h2
    obtain ⟨c', hr⟩ := room_dyn hdyn a.cap (a.elems.length + 1)
    simp only [step, hr, Prod.mk.injEq] at hstep
    obtain ⟨-, rfl⟩ := hstep
    simp only [hcap] at h1
    simpa [touched] using pay_room hg hr h1 h2
  | insertRange i xs =>
    obtain ⟨⟨-, h1⟩, h2⟩ := vecInsertRange_cost s _ _ _ _ hop
    rw [R.size, R.cap, add64_eq (R.len64 hd)] at h2
    simp only [step] at hstep
    by_cases hx : xs = []
    · rw [if_pos hx] at hstep
      cases hstep
      subst hx
      have := h2 (by have := R.len; simp; omega)
      dsimp only at this ⊢
      omega
    rw [if_neg hx] at hstep
    by_cases hi : i > a.elems.length
    · rw [if_pos hi] at hstep
      cases hstep
      have := h2 fun h => h.1 hi
      dsimp only at this ⊢
      omega
    rw [if_neg hi] at hstep
    obtain ⟨c', hr⟩ := room_dyn hdyn a.cap (a.elems.length + xs.length)
    simp only [hr, Prod.mk.injEq] at hstep
    obtain ⟨-, rfl⟩ := hstep
    simp only [hcap] at h1
    have := pay_room hg hr h1 fun h => h2 fun h' => h h'.2
    have e : (a.elems.take i ++ xs ++ a.elems.drop i).length = a.elems.length + xs.length := by
      simp; omega
    simp only [e]
    exact this
  | emplace i ctor =>
    obtain ⟨⟨-, h1⟩, h2⟩ := vecEmplaceEx_cost s _ _ _ hop
    rw [R.size, R.cap, add64_eq (R.len64 hd.1)] at h2
    simp only [step] at hstep
    by_cases hi : i > a.elems.length
    · rw [if_pos hi] at hstep
      cases hstep
      have := h2 fun h => h.1 hi
      dsimp only at this ⊢
      omega
    rw [if_neg hi] at hstep
    obtain ⟨c', hr⟩ := room_dyn hdyn a.cap (a.elems.length + 1)
    have h2' : ¬ a.cap < a.elems.length + 1 → spent s'.w.trace = spent s.w.trace :=
      fun h => h2 fun h' => h h'.2
    have good : ∀ ys : List (Cell α), ys.length = a.elems.length + 1 → a'.elems = ys → a'.cap = c' →
        spent s'.w.trace + credit P.growth a'.elems.length a'.cap ≤
          spent s.w.trace + credit P.growth a.elems.length a.cap + P.growth * P.growth * 2 := by
      intro ys hy e1 e2
      rw [e1, hy, e2]
      rw [hcap, e2] at h1
      have h3 := pay_room hg hr h1 h2'
      dsimp only at h3
      have h4 : P.growth * P.growth * 1 ≤ P.growth * P.growth * 2 := Nat.mul_le_mul_left _ (by omega)
      omega
    cases ctor with
    | none =>
      simp only [hr, Prod.mk.injEq] at hstep
      have hj' : junk.length = 1 := hj
      exact good (a.elems.take i ++ junk ++ a.elems.drop i) (by simp [hj']; omega) (by rw [← hstep.2])
        (by rw [← hstep.2])
    | some f =>
      simp only [hr] at hstep
      split at hstep
      · cases hstep
        simp only [hcap] at h1
        exact pay_room_failed hg R.len hr h1 h2'
      · simp only [Prod.mk.injEq] at hstep
        exact good _ (by rw [← hstep.2]; simp; omega) rfl (by rw [← hstep.2])
  | set i x =>
    have h := vecSet_still s _ _ _ hop
    have hc : a'.cap = a.cap := by rw [← hcap, ← R.cap]; exact h.2.1
    have hl : a'.elems.length = a.elems.length := by
      simp only [step] at hstep
      split at hstep <;> cases hstep <;> simp
    have := h.1
    dsimp only at this
    rw [hc, hl]; omega
  | swap i j =>
    have h := vecSwap_still s _ _ _ hop
    have hc : a'.cap = a.cap := by rw [← hcap, ← R.cap]; exact h.2.1
    have hl : a'.elems.length = a.elems.length := by
      simp only [step] at hstep
      split at hstep
      · split at hstep <;> cases hstep <;> simp
      · cases hstep; rfl
    have := h.1
    dsimp only at this
    rw [hc, hl]; omega
  | deleteRange i n =>
    obtain ⟨⟨-, h1⟩, h2⟩ := vecDeleteRange_cost s _ _ _ hop
    have hd' : i + n < 18446744073709551616 := hd
    rw [R.size, add64_eq hd'] at h2
    simp only [step] at hstep
    by_cases hn : n = 0
    · rw [if_pos hn] at hstep
      cases hstep
      have := h2 fun h => h.1.1 hn
      dsimp only at this ⊢
      omega
    rw [if_neg hn] at hstep
    by_cases hi : i + n > a.elems.length
    · rw [if_pos hi] at hstep
      cases hstep
      have := h2 fun h => h.1.2 hi
      dsimp only at this ⊢
      omega
    rw [if_neg hi] at hstep
    simp only [Prod.mk.injEq] at hstep
    obtain ⟨-, rfl⟩ := hstep
    simp only [hcap] at h1
    have e : (a.elems.take i ++ a.elems.drop (i + n)).length = a.elems.length - n := by
      simp; omega
    simp only [e, touched]
    rw [sub64_eq (by omega) (R.len64 R.fits), R.shrinks (R.fits.mono (by omega))] at h2
    exact pay_trim hdyn hg ht (by omega) (by omega) (by omega) h1 fun h => h2 fun h' => h h'.2
  | pop =>
    obtain ⟨⟨-, h1⟩, h2⟩ := (vecPopBack_cost s _ hop).1
    simp only [step] at hstep
    rw [R.size, R.shrinks (R.fits.mono (by omega))] at h2
    by_cases hn : a.elems = []
    · rw [if_pos hn] at hstep
      cases hstep
      have := h2 fun h => h.1 (by rw [hn]; rfl)
      dsimp only at this ⊢
      omega
    rw [if_neg hn] at hstep
    simp only [Prod.mk.injEq] at hstep
    obtain ⟨-, rfl⟩ := hstep
    simp only [hcap] at h1
    have hpos : a.elems.length ≠ 0 := fun h => hn (List.length_eq_zero_iff.1 h)
    simp only [List.length_dropLast]
    simp only [touched]
    exact pay_trim hdyn hg ht (by omega) (by omega) (by omega) h1 fun h => h2 fun h' => h h'.2
  | clear =>
    obtain ⟨⟨-, h1⟩, h2⟩ := vecResizeEx_cost s _ _ _ hop
    simp only [step] at hstep
    rw [R.size, R.shrinks (R.fits.mono (by omega)), R.cap] at h2
    by_cases hn : a.elems = []
    · rw [if_pos hn] at hstep
      cases hstep
      have := h2 fun h => h.1 (by rw [hn]; rfl)
      dsimp only at this ⊢
      omega
    rw [if_neg hn] at hstep
    simp only [Prod.mk.injEq] at hstep
    obtain ⟨-, rfl⟩ := hstep
    simp only [hcap] at h1
    have hpos : a.elems.length ≠ 0 := fun h => hn (List.length_eq_zero_iff.1 h)
    simp only [touched]
    exact pay_trim hdyn hg ht (n := 0) (by omega) (by omega) (by omega) h1 fun h => h2 fun h' => by
      rcases h'.2 with h'' | h''
      · omega
      · exact h h''
  | resize n init =>
    obtain ⟨⟨-, h1⟩, h2⟩ := vecResizeEx_cost s _ _ _ hop
    simp only [step] at hstep
    rw [R.size, R.shrinks hd, R.cap] at h2
    by_cases hn : n = a.elems.length
    · rw [if_pos hn] at hstep
      cases hstep
      have := h2 fun h => h.1 hn
      dsimp only at this ⊢
      omega
    rw [if_neg hn] at hstep
    obtain ⟨c', hr⟩ := room_dyn hdyn a.cap n
    simp only [hr] at hstep
    have hlen := R.len
    by_cases hle : n ≤ a.elems.length
    · rw [if_pos hle] at hstep
      simp only [Prod.mk.injEq] at hstep
      obtain ⟨-, rfl⟩ := hstep
      simp only [hcap] at h1
      have e : (a.elems.take n).length = n := by simp; omega
      simp only [e, touched]
      exact pay_trim hdyn hg ht (by omega) (by omega) (by omega) h1 fun h => h2 fun h' => by
        rcases h'.2 with h'' | h''
        · omega
        · exact h h''
    rw [if_neg hle] at hstep
    simp only [Prod.mk.injEq] at hstep
    obtain ⟨-, rfl⟩ := hstep
    have e : (a.elems ++ newElems init (n - a.elems.length) junk).length = n := by
      have hj' : junk.length = n - a.elems.length := hj
      cases init <;> simp [newElems, hj'] <;> omega
    simp only [hcap] at h1
    simp only [e, touched]
    by_cases hc : n ≤ a.cap
    · simp only [hc, if_true] at h1 ⊢
      exact pay_trim hdyn hg ht (by omega) (by omega) (by omega) h1 fun h => h2 fun h' => by
        rcases h'.2 with h'' | h''
        · omega
        · exact h h''
    · simp only [hc, if_false] at h1 ⊢
      obtain ⟨k, rfl⟩ := Nat.exists_eq_add_of_le (Nat.le_of_not_le hle)
      have h3 := pay_room hg hr h1 fun h => absurd (Nat.lt_of_not_le hc) h
      have e2 : a.elems.length + k - a.elems.length + (a.elems.length - (a.elems.length + k)) = k := by omega
      rw [e2]; exact h3
  | reserve c =>
    obtain ⟨⟨-, h1⟩, h2⟩ := vecReserve_cost s _ _ hop
    rw [R.cap] at h2
    simp only [step] at hstep
    by_cases hc : c ≤ a.cap
    · rw [if_pos hc] at hstep
      cases hstep
      have := h2 (by omega)
      dsimp only at this ⊢
      omega
    · rw [if_neg hc, if_pos hdyn] at hstep
      cases hstep
      simp only [hcap] at h1
      have := pay_reserve hg R.len (Nat.lt_of_not_le hc)
      simp only [touched]
      omega
  | shrinkToFit =>
    obtain ⟨⟨-, h1⟩, -⟩ := (reallocate_cost s _ _ hop).1
    simp only [step, hdyn, if_true] at hstep
    cases hstep
    simp only [hcap] at h1
    have := pay_fit (g := P.growth) (s := a.elems.length) hg
    simp only [touched]
    omega

/-! ## Histories -/

theorem pay_run {P : Params} (hg : 2 ≤ P.growth) (ht : P.thr = 0 ∨ P.growth < P.thr) (ops : List (VOp α)) :
    ∀ {s : VS α} {a : LState α} {b : Block α} {slack : List (Cell α)}, Rep P s a b slack →
    AllInDomain P a ops →
    ∃ sts s' a' b' slack', runVec s ops = .ret (sts, s') ∧ Rep P s' a' b' slack' ∧
      spent s'.w.trace + credit P.growth a'.elems.length a'.cap ≤
        spent s.w.trace + credit P.growth a.elems.length a.cap +
          P.growth * P.growth * touchedRun s ops := by
  induction ops with
  | nil =>
    intro s a b slack R _
    exact ⟨[], s, a, b, slack, rfl, R, by simp [touchedRun]⟩
  | cons op ops ih =>
    intro s a b slack R hd
    cases hd with
    | cons hd htl =>
      obtain ⟨junk, st, s1, a1, b1, sl1, hj, hstep, hop, R1⟩ := op_ok R op hd
      have ht' := htl junk hj
      rw [hstep] at ht'
      obtain ⟨sts, s', a', b', sl', hrun, R', hle⟩ := ih R1 ht'
      have h1 := pay_step R hg ht op hd hj hstep hop R1
      refine ⟨st :: sts, s', a', b', sl', by simp [runVec, hop, hrun], R', ?_⟩
      rw [touchedRun, hop, R.abs_eq, Nat.mul_add]
      dsimp only
      omega

/-! ## Parameters for which it is expensive -/

theorem touchedRun_pops (n : Nat) : ∀ s : VS α, touchedRun s (List.replicate n .pop) ≤ n := by
  induction n with
  | zero => intro s; simp [touchedRun]
  | succ n ih =>
    intro s
    rw [List.replicate_succ, touchedRun]
    have : touched (absOf s) (.pop : VOp α) = 1 := rfl
    rw [this]
    split
    · have := ih (by assumption : Status × VS α).2; omega
    · omega

theorem touchedRun_pushes (xs : List (Cell α)) : ∀ s : VS α, touchedRun s (xs.map .push) ≤ xs.length := by
  induction xs with
  | nil => intro s; simp [touchedRun]
  | cons x xs ih =>
    intro s
    rw [List.map_cons, touchedRun]
    have : touched (absOf s) (.push x) = 1 := rfl
    rw [this, List.length_cons]
    split
    · have := ih (by assumption : Status × VS α).2; omega
    · omega

theorem pops_cost {P : Params} (hdyn : P.allocator.isSome = true) (ht : P.thr ≠ 0) (htg : P.thr ≤ P.growth)
    (n : Nat) : ∀ {s : VS α} {a : LState α} {b : Block α} {slack : List (Cell α)}, Rep P s a b slack →
    a.elems.length = n → n * P.growth ≤ a.cap →
    ∃ sts s' a' b' slack', runVec s (List.replicate n .pop) = .ret (sts, s') ∧ Rep P s' a' b' slack' ∧
      a'.elems = [] ∧ 2 * spent s.w.trace + P.growth * (n * (n - 1)) ≤ 2 * spent s'.w.trace := by
  induction n with
  | zero =>
    intro s a b slack R hn _
    exact ⟨[], s, a, b, slack, rfl, R, List.length_eq_zero_iff.1 hn, by simp⟩
  | succ n ih =>
    intro s a b slack R hn hc
    obtain ⟨junk, st, s1, a1, b1, sl1, hj, hstep, hop, R1⟩ := op_ok R .pop trivial
    have hne : a.elems ≠ [] := fun h => by rw [h] at hn; cases hn
    simp only [step, hne, if_false, Prod.mk.injEq] at hstep
    obtain ⟨rfl, rfl⟩ := hstep
    have hlt : n * P.thr < a.cap := by
      have h1 : n * P.thr ≤ n * P.growth := Nat.mul_le_mul_left _ htg
      have h2 : (n + 1) * P.growth = n * P.growth + P.growth := Nat.succ_mul _ _
      have := R.growth1
      omega
    have hl : a.elems.length - 1 = n := by omega
    have hcost := (vecPopBack_cost s _ hop).2 (by
      rw [R.size, hl, R.shrinks (R.fits.mono (by omega))]; exact ⟨ht, hlt⟩)
      (by rw [R.allocator]; exact hdyn) failed_success (by rw [R.size]; omega)
    have htrim : trim P a.cap (a.elems.length - 1) = max 1 (n * P.growth) := by
      unfold trim; rw [hl, if_pos ⟨hdyn, ht, hlt⟩]
    simp only [htrim] at R1
    have hcap : s1.v.cap = max 1 (n * P.growth) := R1.cap
    obtain ⟨sts, s', a', b', sl', hrun, R', he, hle⟩ := ih R1 (by simp [hl]) (by dsimp only; omega)
    refine ⟨stSuccess :: sts, s', a', b', sl', ?_, R', he, ?_⟩
    · have h1 : List.replicate (n + 1) (VOp.pop : VOp α) = .pop :: List.replicate n .pop := rfl
      rw [h1]
      simp [runVec, hop, hrun]
    · unfold Once at hcost
      dsimp only at hcost
      rw [hcap] at hcost
      have h1 : (n + 1) * (n + 1 - 1) = n * (n - 1) + 2 * n := by
        cases n with
        | zero => rfl
        | succ m => simp only [Nat.add_sub_cancel, Nat.mul_add, Nat.add_mul]; omega
      have h2 : P.growth * (n * (n - 1) + 2 * n) = P.growth * (n * (n - 1)) + 2 * (n * P.growth) := by
        rw [Nat.mul_add, Nat.mul_left_comm P.growth 2 n, Nat.mul_comm P.growth n]
      rw [h1, h2]
      omega

theorem pushes_cost {P : Params} (hdyn : P.allocator.isSome = true) (hg : P.growth = 1) (xs : List (Cell α)) :
    ∀ {s : VS α} {a : LState α} {b : Block α} {slack : List (Cell α)}, Rep P s a b slack →
    a.cap ≤ a.elems.length → Fits P (a.elems.length + xs.length) →
    ∃ sts s' a' b' slack', runVec s (xs.map .push) = .ret (sts, s') ∧ Rep P s' a' b' slack' ∧
      a'.elems = a.elems ++ xs ∧
      2 * spent s.w.trace + xs.length * (xs.length + 1) + 2 * (a.elems.length * xs.length) ≤
        2 * spent s'.w.trace := by
  induction xs with
  | nil =>
    intro s a b slack R _ _
    exact ⟨[], s, a, b, slack, rfl, R, by simp, by simp⟩
  | cons x xs ih =>
    intro s a b slack R hc hf
    have hf1 : Fits P (a.elems.length + 1) := hf.mono (by simp)
    obtain ⟨junk, st, s1, a1, b1, sl1, hj, hstep, hop, R1⟩ := op_ok R (.push x) hf1
    have hroom : Spec.room P a.cap (a.elems.length + 1) = some (a.elems.length + 1) := by
      unfold Spec.room
      rw [if_neg (by omega), if_pos hdyn, hg, Nat.mul_one]
    simp only [step, hroom, Prod.mk.injEq] at hstep
    obtain ⟨rfl, rfl⟩ := hstep
    have hcost := (vecPushBack_cost s _ _ hop).2 (by
      rw [R.size, R.cap, add64_eq (R.len64 hf1)]; omega) (by rw [R.allocator]; exact hdyn) failed_success rfl
    have hcap : s1.v.cap = a.elems.length + 1 := R1.cap
    obtain ⟨sts, s', a', b', sl', hrun, R', he, hle⟩ := ih R1 (by simp)
      (hf.mono (by simp; omega))
    refine ⟨stSuccess :: sts, s', a', b', sl', ?_, R', by rw [he]; simp, ?_⟩
    · simp [runVec, hop, hrun]
    · unfold Once at hcost
      dsimp only at hcost
      rw [hcap] at hcost
      simp only [List.length_append, List.length_cons, List.length_nil, Nat.mul_add, Nat.add_mul] at hle ⊢
      omega

end Zy
