import Verif.Lemmas.VectorCost
import Verif.Lemmas.VectorReach
import Verif.Lemmas.Tends
import Verif.Model.Pointers
import Verif.Spec.Pointers

/-! # Lemmas: where the elements of a vector are -/

namespace Zy

open Spec

variable {α β : Type}

/-- The block of a vector. -/
def blkOf (s : VS α) : Option Nat := s.v.data.map Block.id

/-- From `s` to `r` the storage stayed where it was. -/
def Same (s r : VS α) : Prop :=
  blkOf r = blkOf s ∧ r.w.nextBlk = s.w.nextBlk ∧ r.w.oracle = s.w.oracle ∧ r.w.calls = s.w.calls ∧
    r.v.cap = s.v.cap ∧ r.v.allocator = s.v.allocator ∧ r.v.shrink = s.v.shrink ∧ r.v.growth = s.v.growth

theorem Same.refl (s : VS α) : Same s s := ⟨rfl, rfl, rfl, rfl, rfl, rfl, rfl, rfl⟩

theorem Same.trans {s r q : VS α} (h : Same s r) (h' : Same r q) : Same s q := by
  obtain ⟨a1, a2, a3, a4, a5, a6, a7, a8⟩ := h
  obtain ⟨b1, b2, b3, b4, b5, b6, b7, b8⟩ := h'
  exact ⟨b1.trans a1, b2.trans a2, b3.trans a3, b4.trans a4, b5.trans a5, b6.trans a6, b7.trans a7, b8.trans a8⟩

/-- From `s` to `r` the storage was replaced by a new block. -/
def Moved (s r : VS α) : Prop := blkOf r = some s.w.nextBlk ∧ s.w.nextBlk < r.w.nextBlk

/-- The storage was replaced exactly if `t`. -/
def Loc (t : Prop) (s r : VS α) : Prop := (t → Moved s r) ∧ (¬ t → blkOf r = blkOf s ∧ r.w.nextBlk = s.w.nextBlk)

/-- The next request is granted. -/
def Grants (s : VS α) : Prop := failed (s.w.oracle s.w.calls) = false

theorem Same.loc {s r : VS α} (h : Same s r) {t : Prop} (ht : ¬ t) : Loc t s r :=
  ⟨fun x => absurd x ht, fun _ => ⟨h.1, h.2.1⟩⟩

theorem Loc.same {t : Prop} {s r q : VS α} (h : Loc t s r) (h1 : blkOf q = blkOf r) (h2 : q.w = r.w) : Loc t s q :=
  ⟨fun x => ⟨h1.trans (h.1 x).1, by rw [h2]; exact (h.1 x).2⟩, fun x => ⟨h1.trans (h.2 x).1, by rw [h2]; exact (h.2 x).2⟩⟩

theorem Same.then_loc {t : Prop} {s r q : VS α} (h : Same s r) (h' : Loc t r q) : Loc t s q :=
  ⟨fun x => by have := h'.1 x; unfold Moved at *; rw [h.2.1] at this; exact this,
    fun x => ⟨(h'.2 x).1.trans h.1, (h'.2 x).2.trans h.2.1⟩⟩

theorem Loc.iff {t t' : Prop} {s r : VS α} (h : Loc t s r) (i : t' ↔ t) : Loc t' s r :=
  ⟨fun x => h.1 (i.1 x), fun x => h.2 fun y => x (i.2 y)⟩

theorem Same.grants {s r : VS α} (h : Same s r) (g : Grants s) : Grants r := by
  unfold Grants at *
  rw [h.2.2.1, h.2.2.2.1]
  exact g

theorem destroyLoop_same : ∀ (n : Nat) (s : VS α) (i : Nat), Ensures (destroyLoop s i n) (Same s)
  | 0, s, _ => ensures_ret (.refl s)
  | n + 1, s, i => by
    unfold destroyLoop
    refine ensures_withData fun b _ => ?_
    split
    · exact ensures_ub
    · refine (destroyLoop_same n _ (i + 1)).imp fun r h => ?_
      refine Same.trans ?_ h
      exact ⟨rfl, rfl, rfl, rfl, rfl, rfl, rfl, rfl⟩

theorem runDtors_same (s : VS α) (lo hi : Nat) : Ensures (runDtors s lo hi) (Same s) :=
  ensures_ite (fun _ => destroyLoop_same _ _ _) fun _ => ensures_ret (.refl s)

theorem shiftLeft_same (s : VS α) (i n : Nat) :
    Ensures (shiftLeft s i n) fun r => Same s r ∧ r.v.size = s.v.size ∧ r.w = s.w :=
  ensures_withData fun b hb => (ensures_any _).bind fun _ _ =>
    ensures_ret ⟨⟨by simp [blkOf, hb], rfl, rfl, rfl, rfl, rfl, rfl, rfl⟩, rfl, rfl⟩

theorem shiftRight_same (s : VS α) (i n : Nat) :
    Ensures (shiftRight s i n) fun r => Same s r ∧ r.v.size = s.v.size ∧ r.w = s.w :=
  ensures_withData fun b hb => (ensures_any _).bind fun _ _ =>
    ensures_ret ⟨⟨by simp [blkOf, hb], rfl, rfl, rfl, rfl, rfl, rfl, rfl⟩, rfl, rfl⟩

theorem reallocTo_loc (s : VS α) (a c : Nat) (g : Grants s) :
    Ensures (reallocTo s a c) fun r => Moved s r.2 ∧ r.1 = stSuccess := by
  unfold Grants at g
  refine ensures_withData fun b _ => ?_
  refine ensures_ite (fun h => ?_) fun _ => ensures_ret ⟨⟨?_, ?_⟩, rfl⟩
  · simp [reallocBlock, g] at h
  · simp [reallocBlock, g, blkOf, World.log]
  · simp [reallocBlock, g, World.log]

theorem reallocate_loc (s : VS α) (c : Nat) (g : Grants s) :
    Ensures (reallocate s c) fun r => Loc (s.v.allocator.isSome ∧ (1 ≤ c ∨ 1 < s.v.cap)) s r.2 := by
  unfold reallocate
  cases hal : s.v.allocator with
  | none =>
    exact ensures_ite (fun _ => ensures_ret ((Same.refl s).loc (by simp))) fun _ =>
      ensures_ret ((Same.refl s).loc (by simp))
  | some a =>
    refine ensures_ite (fun h1 => ensures_ite (fun h2 => ?_) fun h2 => ?_) fun h1 => ?_
    · exact (reallocTo_loc s a 1 g).imp fun r h => ⟨fun _ => h.1, fun n => absurd ⟨rfl, .inr h2⟩ n⟩
    · exact ensures_ret ((Same.refl s).loc (by omega))
    · exact (reallocTo_loc s a c g).imp fun r h => ⟨fun _ => h.1, fun n => absurd ⟨rfl, .inl (by omega)⟩ n⟩

theorem growFor_loc (s : VS α) (n : Nat) (g : Grants s) :
    Ensures (growFor s n) fun r => Loc (s.v.allocator.isSome ∧ s.v.cap < n) s r.2 := by
  refine ensures_ite (fun h => ?_) fun h => ensures_ret ((Same.refl s).loc fun h' => ?_)
  · have hn : s.v.cap < n := by simpa [shouldGrow] using h
    refine (reallocate_loc s _ g).imp fun r hr => hr.iff ?_
    have : 1 ≤ max 1 (mul64 n s.v.growth) := by omega
    exact ⟨fun x => ⟨x.1, .inl this⟩, fun x => ⟨x.1, hn⟩⟩
  · exact h (by simpa [shouldGrow] using h'.2)

theorem shrinkAfter_loc (s : VS α) (g : Grants s) :
    Ensures (shrinkAfter s) fun r =>
      Loc (s.v.allocator.isSome ∧ shouldShrink s.v.size s.v.cap s.v.shrink = true) s r.2 := by
  refine ensures_ite (fun h => ?_) fun h => ensures_ret ((Same.refl s).loc fun h' => h h'.2)
  refine (reallocate_loc s _ g).imp fun r hr => hr.iff ?_
  have : 1 ≤ max 1 (mul64 s.v.size s.v.growth) := by omega
  exact ⟨fun x => ⟨x.1, .inl this⟩, fun x => ⟨x.1, h⟩⟩

theorem copyIn_same (s : VS α) (i : Nat) (x : Src α) (n m : Nat) (st : Status) :
    Ensures (withData s.v.data fun b => (memcpyIn b i x n).bind fun b' =>
      .ret (st, ({ s with v := { s.v with data := some b', size := m } } : VS α)))
      fun r => blkOf r.2 = blkOf s ∧ r.2.w = s.w :=
  ensures_withData fun b hb => (memcpyIn_keeps b i x n).bind fun c hc => ensures_ret ⟨by simp [blkOf, hb, hc], rfl⟩

theorem vecPushBack_loc (s : VS α) (x : Src α) (g : Grants s) (hx : x.isNull = false) :
    Ensures (vecPushBack s x) fun r => Loc (s.v.allocator.isSome ∧ s.v.cap < add64 s.v.size 1) s r.2 := by
  refine ensures_ite (fun h => by simp [hx] at h) fun _ => (growFor_loc s _ g).bind fun r hr => ?_
  refine ensures_ite (fun _ => ensures_ret hr) fun _ => ?_
  exact (copyIn_same r.2 _ _ _ _ _).imp fun q hq => hr.same hq.1 hq.2

theorem vecInsertRange_loc (s : VS α) (i : Nat) (x : Src α) (n : Nat) (g : Grants s) (hx : x.isNull = false) :
    Ensures (vecInsertRange s i x n) fun r =>
      Loc (s.v.allocator.isSome ∧ (n ≠ 0 ∧ i ≤ s.v.size) ∧ s.v.cap < add64 s.v.size n) s r.2 := by
  refine ensures_ite (fun h => ensures_ret ((Same.refl s).loc fun h' => ?_)) fun hn => ?_
  · rcases h with h | h
    · simp [hx] at h
    · exact h'.2.1.1 h
  refine ensures_ite (fun h => ensures_ret ((Same.refl s).loc fun h' => by omega)) fun hi => ?_
  refine Ensures.imp (Q := fun r => Loc (s.v.allocator.isSome ∧ s.v.cap < add64 s.v.size n) s r.2) ?_ fun r h =>
    h.iff ⟨fun h => ⟨h.1, h.2.2⟩, fun h => ⟨h.1, ⟨fun h0 => hn (.inr h0), by omega⟩, h.2⟩⟩
  refine (growFor_loc s _ g).bind fun r hr => ensures_ite (fun _ => ensures_ret hr) fun _ => ?_
  refine Ensures.bind (Q := fun q => blkOf q = blkOf r.2 ∧ q.w = r.2.w) ?_ fun q hq =>
    (copyIn_same q _ _ _ _ _).imp fun p hp => hr.same (hp.1.trans hq.1) (hp.2.trans hq.2)
  exact ensures_ite (fun _ => (shiftRight_same _ _ _).imp fun _ h => ⟨h.1.1, h.2.2⟩) fun _ => ensures_ret ⟨rfl, rfl⟩

theorem vecEmplaceEx_loc (s : VS α) (i : Nat) (c : Ctor α) (g : Grants s) :
    Ensures (vecEmplaceEx s i c) fun r =>
      Loc (s.v.allocator.isSome ∧ i ≤ s.v.size ∧ s.v.cap < add64 s.v.size 1) s r.2 := by
  refine ensures_ite (fun h => ensures_ret ((Same.refl s).loc fun h' => by omega)) fun hi => ?_
  refine Ensures.imp (Q := fun r => Loc (s.v.allocator.isSome ∧ s.v.cap < add64 s.v.size 1) s r.2) ?_ fun r h =>
    h.iff ⟨fun h => ⟨h.1, h.2.2⟩, fun h => ⟨h.1, by omega, h.2⟩⟩
  refine (growFor_loc s _ g).bind fun r hr => ensures_ite (fun _ => ensures_ret hr) fun _ => ?_
  refine Ensures.bind (Q := fun q => blkOf q = blkOf r.2 ∧ q.w = r.2.w) ?_ fun q hq => ?_
  · exact ensures_ite (fun _ => (shiftRight_same _ _ _).imp fun _ h => ⟨h.1.1, h.2.2⟩) fun _ => ensures_ret ⟨rfl, rfl⟩
  · cases c with
    | none => exact ensures_ret (hr.same hq.1 hq.2)
    | some f =>
      refine ensures_withData fun b hb => ?_
      split
      · exact ensures_ub
      · have hb' : some b.id = blkOf q := by simp [blkOf, hb]
        exact ensures_ite (fun _ => ensures_ret (hr.same (hb'.trans hq.1) hq.2)) fun _ =>
          ensures_ret (hr.same (hb'.trans hq.1) hq.2)

theorem vecSet_loc (s : VS α) (i : Nat) (x : Src α) : Ensures (vecSet s i x) fun r => Loc False s r.2 :=
  ensures_ite (fun _ => ensures_ret ((Same.refl s).loc id)) fun _ =>
    ensures_ite (fun _ => ensures_ret ((Same.refl s).loc id)) fun _ =>
    (runDtors_same s _ _).bind fun r hr =>
      (copyIn_same r i x 1 r.v.size stSuccess).imp fun _ h => (hr.loc id).same h.1 h.2

theorem vecSwap_loc (s : VS α) (i j : Nat) : Ensures (vecSwap s i j) fun r => Loc False s r.2 :=
  ensures_ite (fun _ => ensures_ret ((Same.refl s).loc id)) fun _ =>
    ensures_ite (fun _ => ensures_ret ((Same.refl s).loc id)) fun _ =>
    ensures_withData fun b hb => (ensures_any _).bind fun _ _ => (ensures_any _).bind fun _ _ =>
      (ensures_any _).bind fun _ _ => ensures_ret (((Same.refl s).loc id).same (by simp [blkOf, hb]) rfl)

theorem vecDeleteRange_loc (s : VS α) (i n : Nat) (g : Grants s) :
    Ensures (vecDeleteRange s i n) fun r =>
      Loc (s.v.allocator.isSome ∧ (n ≠ 0 ∧ add64 i n ≤ s.v.size) ∧
        shouldShrink (sub64 s.v.size n) s.v.cap s.v.shrink = true) s r.2 := by
  refine ensures_ite (fun h => ensures_ret ((Same.refl s).loc fun h' => h'.2.1.1 h)) fun hn =>
    ensures_ite (fun h => ensures_ret ((Same.refl s).loc fun h' => Nat.not_le_of_lt h h'.2.1.2)) fun hi =>
    Ensures.imp (Q := fun r => Loc (s.v.allocator.isSome ∧
      shouldShrink (sub64 s.v.size n) s.v.cap s.v.shrink = true) s r.2) ?_
      fun r h => h.iff ⟨fun h => ⟨h.1, h.2.2⟩, fun h => ⟨h.1, ⟨hn, Nat.le_of_not_lt hi⟩, h.2⟩⟩
  refine (ensures_and (runDtors_same s _ _) (runDtors_size s _ _)).bind fun r hr => ?_
  refine Ensures.bind (Q := fun q => Same r q ∧ q.v.size = r.v.size) ?_ fun q hq => ?_
  · exact ensures_ite (fun _ => (shiftLeft_same _ _ _).imp fun _ h => ⟨h.1, h.2.1⟩) fun _ => ensures_ret ⟨.refl _, rfl⟩
  · have h := hr.1.trans hq.1
    have h2 : Same s { q with v := { q.v with size := sub64 q.v.size n } } := h
    refine (shrinkAfter_loc _ (h2.grants g)).imp fun p hp => ?_
    have hc := h2.then_loc hp
    simp only [hq.2, hr.2, h.2.2.2.2.1, h.2.2.2.2.2.1, h.2.2.2.2.2.2.1] at hc
    exact hc

theorem vecPopBack_loc (s : VS α) (g : Grants s) :
    Ensures (vecPopBack s) fun r =>
      Loc (s.v.allocator.isSome ∧ s.v.size ≠ 0 ∧ shouldShrink (s.v.size - 1) s.v.cap s.v.shrink = true) s r.2 := by
  refine ensures_ite (fun h0 => ensures_ret ((Same.refl s).loc fun h' => h'.2.1 h0)) fun h0 =>
    (ensures_and (runDtors_same s _ _) (runDtors_size s _ _)).bind fun r hr => ?_
  have h2 : Same s { r with v := { r.v with size := r.v.size - 1 } } := hr.1
  refine (shrinkAfter_loc _ (h2.grants g)).imp fun p hp => ?_
  have hc := h2.then_loc hp
  simp only [hr.2, hr.1.2.2.2.2.1, hr.1.2.2.2.2.2.1, hr.1.2.2.2.2.2.2.1] at hc
  exact hc.iff ⟨fun h => ⟨h.1, h.2.2⟩, fun h => ⟨h.1, h0, h.2⟩⟩

theorem vecResizeEx_loc (s : VS α) (n : Nat) (x : Src α) (g : Grants s) :
    Ensures (vecResizeEx s n x) fun r =>
      Loc (s.v.allocator.isSome ∧ n ≠ s.v.size ∧ (s.v.cap < n ∨ shouldShrink n s.v.cap s.v.shrink = true) ∧
        (1 ≤ mul64 n s.v.growth ∨ 1 < s.v.cap)) s r.2 := by
  refine ensures_ite (fun h => ensures_ret ((Same.refl s).loc fun h' => h'.2.1 h)) fun hn => ?_
  refine Ensures.bind (Q := fun r => Same s r) ?_ fun r hr => ?_
  · exact ensures_ite (fun _ => runDtors_same s _ _) fun _ => ensures_ret (.refl s)
  refine Ensures.bind (Q := fun q => Loc (s.v.allocator.isSome ∧ n ≠ s.v.size ∧
    (s.v.cap < n ∨ shouldShrink n s.v.cap s.v.shrink = true) ∧ (1 ≤ mul64 n s.v.growth ∨ 1 < s.v.cap)) s q.2) ?_
      fun q hq => ?_
  · refine ensures_ite (fun h => ?_) fun h => ensures_ret (hr.loc ?_)
    · simp only [shouldGrow, hr.2.2.2.2.1, hr.2.2.2.2.2.2.1, Bool.or_eq_true, decide_eq_true_eq] at h
      refine (reallocate_loc r _ (hr.grants g)).imp fun q hq => ?_
      have hc := hr.then_loc hq
      simp only [hr.2.2.2.2.1, hr.2.2.2.2.2.1, hr.2.2.2.2.2.2.2] at hc
      exact hc.iff ⟨fun h' => ⟨h'.1, h'.2.2.2⟩, fun h' => ⟨h'.1, hn, h, h'.2⟩⟩
    · simp only [shouldGrow, hr.2.2.2.2.1, hr.2.2.2.2.2.2.1, Bool.or_eq_true, decide_eq_true_eq] at h
      exact fun h' => h h'.2.2.1
  refine ensures_ite (fun _ => ensures_ret hq) fun _ => ensures_ite (fun _ => ?_) fun _ =>
    ensures_ret (hq.same rfl rfl)
  exact ensures_withData fun b hb => (fillLoop_id _ b x _).bind fun c hc =>
    ensures_ret (hq.same (by simp [blkOf, hb, hc]) rfl)

theorem vecReserve_loc (s : VS α) (c : Nat) (g : Grants s) (h1 : 1 ≤ s.v.cap) :
    Ensures (vecReserve s c) fun r => Loc (s.v.allocator.isSome ∧ s.v.cap < c) s r.2 := by
  refine ensures_ite (fun h => ?_) fun h => ensures_ret ((Same.refl s).loc fun h' => h h'.2)
  refine (reallocate_loc s _ g).bind fun r hr => ?_
  have hr' : Loc (s.v.allocator.isSome ∧ s.v.cap < c) s r.2 :=
    hr.iff ⟨fun h' => ⟨h'.1, .inl (by omega)⟩, fun h' => ⟨h'.1, h⟩⟩
  exact ensures_ite (fun _ => ensures_ret hr') fun _ => ensures_ret (hr'.same rfl rfl)

/-! ## In terms of the list -/

theorem shouldShrink_iff {P : Params} {s : VS α} {a : LState α} {b : Block α} {slack : List (Cell α)}
    (R : Rep P s a b slack) {n : Nat} (hn : Fits P n) : shouldShrink n s.v.cap s.v.shrink = true ↔ Loose P a.cap n := by
  have h := hn.mul_growth R.thr255 R.esz1
  unfold shouldShrink Loose
  rw [R.cap, R.shrink, mul64_eq h.2.1]
  simp

theorem elems_ne_nil {l : List β} : l ≠ [] ↔ l.length ≠ 0 := by
  cases l <;> simp

theorem op_loc {P : Params} {s : VS α} {a : LState α} {b : Block α} {slack : List (Cell α)}
    (R : Rep P s a b slack) (op : VOp α) (hd : InDomain P a op) :
    Ensures (vecOp s op) fun r => Loc (Moves P a op) s r.2 := by
  have g : Grants s := R.reliable_now
  have h64 : ∀ {n : Nat}, Fits P n → n < 18446744073709551616 := fun h => (h.mul_growth R.thr255 R.esz1).2.2
  have hlen := h64 R.fits
  have resize : ∀ (n : Nat) (x : Src α), Fits P n → Ensures (vecResizeEx s n x) fun r =>
      Loc (P.allocator.isSome ∧ n ≠ a.elems.length ∧ (a.cap < n ∨ Loose P a.cap n) ∧ (n ≠ 0 ∨ 1 < a.cap)) s r.2 := by
    intro n x hn
    refine (vecResizeEx_loc s n x g).imp fun r hr => hr.iff ?_
    rw [shouldShrink_iff R hn, R.allocator, R.size, R.cap, R.growth, mul64_eq (hn.mul_growth R.growth255 R.esz1).2.1]
    have : 1 ≤ n * P.growth ↔ n ≠ 0 := by
      have := R.growth1
      constructor
      · rintro h rfl
        simp at h
      · intro h
        exact Nat.mul_pos (by omega) this
    rw [this]
  cases op with
  | push x =>
    refine (vecPushBack_loc s _ g rfl).imp fun r hr => hr.iff ?_
    rw [R.allocator, R.size, R.cap, add64_eq (h64 hd)]
    exact Iff.rfl
  | insertRange i xs =>
    refine (vecInsertRange_loc s i _ _ g rfl).imp fun r hr => hr.iff ?_
    rw [R.allocator, R.size, R.cap, add64_eq (h64 hd), ← elems_ne_nil]
    exact Iff.rfl
  | emplace i c =>
    refine (vecEmplaceEx_loc s i c g).imp fun r hr => hr.iff ?_
    rw [R.allocator, R.size, R.cap, add64_eq (h64 hd.1)]
    exact Iff.rfl
  | set i x => exact vecSet_loc s i _
  | swap i j => exact vecSwap_loc s i j
  | deleteRange i n =>
    refine (vecDeleteRange_loc s i n g).imp fun r hr => hr.iff ?_
    rw [R.allocator, R.size, add64_eq hd]
    show (_ ∧ (_ ∧ _) ∧ _) ↔ _
    refine and_congr_right fun _ => and_congr_right fun h => ?_
    rw [sub64_eq (by omega) hlen, shouldShrink_iff R (R.fits.mono (Nat.sub_le _ _))]
  | pop =>
    refine (vecPopBack_loc s g).imp fun r hr => hr.iff ?_
    rw [R.allocator, R.size, shouldShrink_iff R (R.fits.mono (Nat.sub_le _ _)), ← elems_ne_nil]
    exact Iff.rfl
  | clear =>
    refine (resize 0 .null (R.fits.mono (Nat.zero_le _))).imp fun r hr => hr.iff ?_
    show (_ ∧ _ ∧ _ ∧ _) ↔ _
    rw [elems_ne_nil]
    refine and_congr_right fun _ => and_congr ne_comm (and_congr ?_ ?_)
    · exact ⟨Or.inr, fun h => h.resolve_left (Nat.not_lt_zero _)⟩
    · exact ⟨Or.inr, fun h => h.resolve_left fun h => h rfl⟩
  | resize n init => exact resize n _ hd
  | reserve c =>
    refine (vecReserve_loc s c g (by rw [R.cap]; exact R.cap1)).imp fun r hr => hr.iff ?_
    rw [R.allocator, R.cap]
    exact Iff.rfl
  | shrinkToFit =>
    refine (reallocate_loc s s.v.size g).imp fun r hr => hr.iff ?_
    rw [R.allocator, R.size, R.cap]
    show (_ ∧ (_ ∨ _)) ↔ _
    rw [elems_ne_nil, Nat.one_le_iff_ne_zero]

/-- The list of elements: what the request leaves alone is still there. -/
theorem spares_elem {P : Params} {junk : List (Cell α)} {l : LState α} {op : VOp α} {k : Nat}
    (hk : k < l.elems.length) (h : Spares l k op) : (step P junk l op).2.elems[k]? = l.elems[k]? := by
  have app : ∀ (i : Nat) (ys : List (Cell α)), k < i → (l.elems.take i ++ ys)[k]? = l.elems[k]? := by
    intro i ys hi
    rw [List.getElem?_append_left (by simp; omega), List.getElem?_take_of_lt hi]
  cases op with
  | push x =>
    simp only [step]
    split
    · rfl
    · exact List.getElem?_append_left hk
  | insertRange i xs =>
    simp only [step]
    split
    · rfl
    split
    · rfl
    split
    · rfl
    · simp only [List.append_assoc]
      exact app i _ h
  | emplace i c =>
    simp only [step]
    split
    · rfl
    split
    · rfl
    split
    · simp only [List.append_assoc]
      exact app i _ h
    · split
      · rfl
      · simp only [List.append_assoc]
        exact app i _ h
  | set i x =>
    simp only [step]
    split
    · rfl
    · exact List.getElem?_set_ne (Ne.symm h)
  | swap i j =>
    simp only [step]
    split
    · split
      · rfl
      · show ((l.elems.set i _).set j _)[k]? = _
        rw [List.getElem?_set_ne (Ne.symm h.2), List.getElem?_set_ne (Ne.symm h.1)]
    · rfl
  | deleteRange i n =>
    simp only [step]
    split
    · rfl
    split
    · rfl
    · exact app i _ h
  | pop =>
    simp only [step]
    split
    · rfl
    · have h' : k + 1 < l.elems.length := h
      show l.elems.dropLast[k]? = _
      rw [List.dropLast_eq_take, List.getElem?_take_of_lt (by omega)]
  | clear => exact h.elim
  | resize n init =>
    simp only [step]
    split
    · rfl
    split
    · rfl
    split
    · exact List.getElem?_take_of_lt h
    · exact List.getElem?_append_left hk
  | reserve c =>
    simp only [step]
    split
    · rfl
    split <;> rfl
  | shrinkToFit =>
    simp only [step]
    split <;> rfl

theorem getMutable_rep {P : Params} {s : VS α} {a : LState α} {b : Block α} {slack : List (Cell α)}
    (R : Rep P s a b slack) (k : Nat) (p : EPtr) :
    vecGetMutable s k = some p ↔ k < a.elems.length ∧ p = ⟨b.id, k⟩ := by
  unfold vecGetMutable vecGet
  rw [R.data, R.size]
  by_cases h : k < a.elems.length
  · rw [if_neg (by omega)]
    simp [h, eq_comm]
  · rw [if_pos (by omega)]
    simp [h]

theorem readThrough_rep {P : Params} {s : VS α} {a : LState α} {b : Block α} {slack : List (Cell α)}
    (R : Rep P s a b slack) {k : Nat} {x : Cell α} (hx : a.elems[k]? = some x) :
    readThrough s ⟨b.id, k⟩ = .ret x := by
  have hk : k < a.elems.length := (List.getElem?_eq_some_iff.1 hx).1
  unfold readThrough
  rw [R.data]
  simp only [withData]
  rw [R.cells, List.getElem?_append_left hk, hx]
  simp

theorem readThrough_gone {P : Params} {s : VS α} {a : LState α} {b : Block α} {slack : List (Cell α)}
    (R : Rep P s a b slack) {p : EPtr} (h : p.blk ≠ b.id) : readThrough s p = .ub .uaf := by
  unfold readThrough
  rw [R.data]
  simp only [withData]
  rw [if_neg h]

theorem moves_dyn {P : Params} {l : LState α} {op : VOp α} (h : Moves P l op) : P.allocator.isSome := by
  cases op <;> first | exact h.1 | exact h.elim

theorem Rep.old {P : Params} {s : VS α} {a : LState α} {b : Block α} {slack : List (Cell α)}
    (R : Rep P s a b slack) (h : P.allocator.isSome) : b.id < s.w.nextBlk := by
  have hA := R.alloc
  unfold AllocOK at hA
  cases hal : P.allocator with
  | none => simp [hal] at h
  | some al =>
    rw [hal] at hA
    exact hA.2

theorem loc_rep {t : Prop} {P : Params} {s s' : VS α} {a a' : LState α} {b b' : Block α} {sl sl' : List (Cell α)}
    (R : Rep P s a b sl) (R' : Rep P s' a' b' sl') (h : Loc t s s') :
    (t → b'.id = s.w.nextBlk) ∧ (¬ t → b'.id = b.id) := by
  unfold Loc Moved blkOf at h
  rw [R.data, R'.data] at h
  simp only [Option.map_some, Option.some.injEq] at h
  exact ⟨fun x => (h.1 x).1, fun x => (h.2 x).1⟩

/-- One request: where the elements are afterwards. -/
theorem step_loc {P : Params} {s s' : VS α} {a : LState α} {b : Block α} {slack : List (Cell α)}
    (R : Rep P s a b slack) {op : VOp α} (hd : InDomain P a op) {st : Status} (h : vecOp s op = .ret (st, s')) :
    ∃ junk b' slack', junk.length = junkLen a op ∧ Rep P s' (step P junk a op).2 b' slack' ∧
      (Moves P a op → b'.id = s.w.nextBlk) ∧ (¬ Moves P a op → b'.id = b.id) := by
  obtain ⟨junk, st', s'', a', b', slack', hj, hstep, hop, R'⟩ := op_ok R op hd
  have hl := op_loc R op hd
  rw [hop] at h hl
  obtain ⟨rfl, rfl⟩ : st' = st ∧ s'' = s' := by simpa using h
  have hl' : Loc (Moves P a op) s s'' := hl _ rfl
  refine ⟨junk, b', slack', hj, ?_, loc_rep R R' hl'⟩
  rw [hstep]
  exact R'

/-- A pointer into an older block is never good again. -/
theorem gone_run {P : Params} {p : EPtr} : ∀ (ops : List (VOp α)) {s s' : VS α} {a : LState α} {b : Block α}
    {slack : List (Cell α)} {sts : List Status}, Rep P s a b slack → P.allocator.isSome → p.blk < b.id →
    AllInDomain P a ops → runVec s ops = .ret (sts, s') → readThrough s' p = .ub .uaf
  | [], s, s', a, b, slack, sts, R, _, hp, _, hr => by
    obtain ⟨_, rfl⟩ : _ ∧ s = s' := by simpa [runVec] using hr
    exact readThrough_gone R (by omega)
  | op :: ops, s, s', a, b, slack, sts, R, hdyn, hp, .cons hd ht, hr => by
    cases h1 : vecOp s op with
    | ub w => simp [runVec, h1] at hr
    | ret r =>
      simp only [runVec, h1, Out.ret_bind'] at hr
      cases h2 : runVec r.2 ops with
      | ub w => simp [h2] at hr
      | ret q =>
        simp only [h2, Out.ret_bind', Out.ret.injEq, Prod.mk.injEq] at hr
        obtain ⟨junk, b', slack', hj, R', hm, hn⟩ := step_loc R hd (s' := r.2) (st := r.1) h1
        have hq : runVec r.2 ops = .ret (q.1, s') := by rw [h2, ← hr.2]
        refine gone_run ops R' hdyn ?_ (ht junk hj) hq
        by_cases hmv : Moves P a op
        · rw [hm hmv]
          have := R.old hdyn
          omega
        · rw [hn hmv]
          exact hp

theorem quiet_run {P : Params} {k : Nat} {x : Cell α} : ∀ (ops : List (VOp α)) {s s' : VS α} {a : LState α}
    {b : Block α} {slack : List (Cell α)} {sts : List Status}, Rep P s a b slack → a.elems[k]? = some x →
    AllInDomain P a ops → AtRest P k a ops → runVec s ops = .ret (sts, s') →
    readThrough s' ⟨b.id, k⟩ = .ret x ∧ vecGetMutable s' k = some ⟨b.id, k⟩
  | [], s, s', a, b, slack, sts, R, hx, _, _, hr => by
    obtain ⟨_, rfl⟩ : _ ∧ s = s' := by simpa [runVec] using hr
    exact ⟨readThrough_rep R hx, (getMutable_rep R _ _).2 ⟨(List.getElem?_eq_some_iff.1 hx).1, rfl⟩⟩
  | op :: ops, s, s', a, b, slack, sts, R, hx, .cons hd ht, .cons hmv hs hq, hr => by
    cases h1 : vecOp s op with
    | ub w => simp [runVec, h1] at hr
    | ret r =>
      simp only [runVec, h1, Out.ret_bind'] at hr
      cases h2 : runVec r.2 ops with
      | ub w => simp [h2] at hr
      | ret q =>
        simp only [h2, Out.ret_bind', Out.ret.injEq, Prod.mk.injEq] at hr
        obtain ⟨junk, b', slack', hj, R', _, hn⟩ := step_loc R hd (s' := r.2) (st := r.1) h1
        have hq' : runVec r.2 ops = .ret (q.1, s') := by rw [h2, ← hr.2]
        have hk := (List.getElem?_eq_some_iff.1 hx).1
        have := quiet_run ops R' ((spares_elem hk hs).trans hx) (ht junk hj) (hq junk hj) hq'
        rw [hn hmv] at this
        exact this

/-- Appending within the capacity is quiet. -/
theorem quiet_pushes {P : Params} {k : Nat} : ∀ (xs : List (Cell α)) {l : LState α},
    l.elems.length + xs.length ≤ l.cap → AtRest P k l (xs.map .push)
  | [], l, _ => .nil l
  | x :: xs, l, h => by
    simp only [List.length_cons] at h
    refine .cons (fun hm => ?_) trivial fun junk _ => ?_
    · have : l.cap < l.elems.length + 1 := hm.2
      omega
    · refine quiet_pushes xs ?_
      simp only [step, room]
      rw [if_pos (by omega)]
      simp only [List.length_append, List.length_cons, List.length_nil]
      omega

theorem domain_pushes {P : Params} (xs : List (Cell α)) : ∀ {l : LState α},
    l.elems.length + xs.length ≤ l.cap → Fits P (l.elems.length + xs.length) → AllInDomain P l (xs.map .push) := by
  induction xs with
  | nil => exact fun {l} _ _ => .nil l
  | cons x xs ih =>
    intro l h hf
    simp only [List.length_cons] at h hf
    have h1 : Fits P (l.elems.length + 1) := hf.mono (by omega)
    have h2 : Fits P (l.elems.length + 1 + xs.length) := hf.mono (by omega)
    refine AllInDomain.cons (op := .push x) h1 fun junk _ => ?_
    have e : (step P junk l (.push x)).2.elems.length = l.elems.length + 1 ∧ (step P junk l (.push x)).2.cap = l.cap := by
      simp only [step, room]
      rw [if_pos (by omega)]
      exact ⟨List.length_append, rfl⟩
    refine ih ?_ ?_
    · rw [e.1, e.2]
      omega
    · rw [e.1]
      exact h2

end Zy
