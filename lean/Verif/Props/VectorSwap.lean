import Verif.Lemmas.VectorSwap
import Verif.Props.VectorBytes

/-!
# Property theorems about the swap of two elements (C131)
-/

namespace Zy

open Spec

/-- Three two-byte elements and room for a fourth, on elements. -/
def exSwapS : VS Elem :=
  ⟨{ allocator := some 0, growth := 2, shrink := 4, size := 3, cap := 4, esz := 2, hasDtor := true,
     data := some ⟨1, [some (exElem 1 2), some (exElem 3 4), some (exElem 5 6), none]⟩ },
   ⟨fun _ => stSuccess, 2, 2, [.alloc 0 0 2 1, .realloc 0 0 1 2 4]⟩⟩

/-- The same vector on bytes. -/
def exSwapT : VB :=
  ⟨{ allocator := some 0, growth := 2, shrink := 4, size := 3, cap := 4, esz := 2, hasDtor := true,
     data := some ⟨1, [some 1, some 2, some 3, some 4, some 5, some 6, none, none]⟩ },
   ⟨fun _ => stSuccess, 2, 2, [.alloc 0 0 2 1, .realloc 0 0 1 2 4]⟩⟩

theorem exSwapS_reach : Reach exBytesP exSwapS := by
  have h1 := Reach.step (op := .push (some (exElem 1 2))) exBytesS_reach (by show _ < _; decide) rfl
  have h2 := Reach.step (op := .push (some (exElem 3 4))) h1 (by show _ < _; decide) rfl
  exact Reach.step (op := .push (some (exElem 5 6))) h2 (by show _ < _; decide) rfl

theorem exSwap_same : SameState exSwapS exSwapT := by
  obtain ⟨t1, h1, h2⟩ := C130_call exBytes_same (op := .push (some (exElem 1 2)))
    (op' := .push [some 1, some 2]) (show BytesOf 2 _ _ from ⟨rfl, fun _ h => by injection h⟩) rfl
  obtain ⟨t2, h3, h4⟩ := C130_call h2 (op := .push (some (exElem 3 4)))
    (op' := .push [some 3, some 4]) (show BytesOf 2 _ _ from ⟨rfl, fun _ h => by injection h⟩) rfl
  obtain ⟨t3, h5, h6⟩ := C130_call h4 (op := .push (some (exElem 5 6)))
    (op' := .push [some 5, some 6]) (show BytesOf 2 _ _ from ⟨rfl, fun _ h => by injection h⟩) rfl
  cases h1; cases h3; cases h5
  exact h6

/-! ## C131 -/

/-- C131 (partial: not for equal positions, and only if the addresses of both elements and of the slot behind
the last element are aligned for `ZyanU64`; otherwise see the negations): swapping exchanges the bytes of the
two elements, and changes the bytes of no other element. -/
theorem C131_swap_partial {P : Params} {s : VS Elem} {t : VB} (h : Reach P s) (hs : SameState s t)
    (hc : s.v.size < s.v.cap) {i j : Nat} (hi : i < s.v.size) (hj : j < s.v.size) (al base : Nat)
    (hij : i ≠ j) (ha : (base + i * s.v.esz) % al = 0) (hb : (base + j * s.v.esz) % al = 0)
    (ht : (base + s.v.size * s.v.esz) % al = 0) :
    ∃ t' b b', vecSwapC al base t i j = .ret (stSuccess, t') ∧ t.v.data = some b ∧
      t' = { t with v := { t.v with data := some b' } } ∧ b'.id = b.id ∧
      b'.cells.length = b.cells.length ∧
      ∀ k, k < s.v.size → (b'.cells.drop (k * s.v.esz)).take s.v.esz =
        (b.cells.drop ((if k = i then j else if k = j then i else k) * s.v.esz)).take s.v.esz := by
  obtain ⟨b, hd, hL, hsz, hcap, hesz, hpos, hk⟩ := swap_room h hs hc
  rw [swap_eval h hs hc hi hj al base hd]
  have hn := (hk _ (Nat.le_refl _)).1
  have hi' := (hk i (by omega)).1
  have hj' := (hk j (by omega)).1
  obtain ⟨m1, e1, l1, s1⟩ := memcpyWithin_slot (show s.v.size ≠ i by omega) hn hi'
  obtain ⟨m2, e2, l2, s2⟩ := memcpyWithin_slot (e := s.v.esz) (mem := m1) hij (by omega) (by omega)
  obtain ⟨m3, e3, l3, s3⟩ := memcpyWithin_slot (e := s.v.esz) (mem := m2) (show j ≠ s.v.size by omega) (by omega) (by omega)
  simp only [asU64Pointer, ha, hb, ht, if_true, Out.ret_bind']
  rw [e1, Out.ret_bind', e2, Out.ret_bind', e3, Out.ret_bind']
  refine ⟨_, b, ⟨b.id, m3⟩, rfl, hd, rfl, rfl, by show m3.length = _; omega, fun k hks => ?_⟩
  have g : slot s.v.esz m3 k = slot s.v.esz b.cells (if k = i then j else if k = j then i else k) := by
    rw [s3]
    by_cases h1 : k = j
    · subst h1
      rw [if_pos rfl, s2, if_neg (by omega), s1, if_pos rfl, if_neg (by omega), if_pos rfl]
    · rw [if_neg h1, s2]
      by_cases h2 : k = i
      · subst h2
        rw [if_pos rfl, if_pos rfl, s1, if_neg (by omega)]
      · rw [if_neg h2, if_neg h2, if_neg h1, s1, if_neg (by omega)]
  exact g

example : (vecSwapC 2 0x1000 exSwapT 0 2).bind (fun r => .ret r.2.v.data) =
    .ret (some ⟨1, [some 5, some 6, some 3, some 4, some 1, some 2, some 1, some 2]⟩) := by cbv

/-- C131, the exact domain: an accepted swap is defined if and only if the positions differ and the addresses
of both elements and of the slot behind the last element are multiples of the alignment of `ZyanU64`. -/
theorem C131_swap_defined {P : Params} {s : VS Elem} {t : VB} (h : Reach P s) (hs : SameState s t)
    (hc : s.v.size < s.v.cap) {i j : Nat} (hi : i < s.v.size) (hj : j < s.v.size) (al base : Nat) :
    (∃ r, vecSwapC al base t i j = .ret r) ↔
      i ≠ j ∧ (base + i * s.v.esz) % al = 0 ∧ (base + j * s.v.esz) % al = 0 ∧
        (base + s.v.size * s.v.esz) % al = 0 := by
  constructor
  · rintro ⟨r, hr⟩
    obtain ⟨b, hd, hL, hsz, hcap, hesz, hpos, hk⟩ := swap_room h hs hc
    rw [swap_eval h hs hc hi hj al base hd] at hr
    unfold asU64Pointer at hr
    by_cases h1 : (base + s.v.size * s.v.esz) % al = 0
    · rw [if_pos h1, Out.ret_bind'] at hr
      by_cases h2 : (base + i * s.v.esz) % al = 0
      · rw [if_pos h2, Out.ret_bind'] at hr
        by_cases h3 : (base + j * s.v.esz) % al = 0
        · rw [if_pos h3, Out.ret_bind'] at hr
          refine ⟨?_, h2, h3, h1⟩
          rintro rfl
          obtain ⟨m1, e1, l1, s1⟩ := memcpyWithin_slot (show s.v.size ≠ i by omega)
            (hk _ (Nat.le_refl _)).1 (hk i (by omega)).1
          rw [e1, Out.ret_bind'] at hr
          unfold memcpyWithin at hr
          rw [if_pos (by omega)] at hr
          cases hr
        · rw [if_neg h3] at hr; cases hr
      · rw [if_neg h2] at hr; cases hr
    · rw [if_neg h1] at hr; cases hr
  · rintro ⟨h1, h2, h3, h4⟩
    obtain ⟨t', b, b', hr, _⟩ := C131_swap_partial h hs hc hi hj al base h1 h2 h3 h4
    exact ⟨_, hr⟩

example : ∃ r, vecSwapC 2 0x1000 exSwapT 0 2 = .ret r :=
  (C131_swap_defined exSwapS_reach exSwap_same (by decide) (by decide) (by decide) 2 0x1000).2 (by decide)

/-- C131 is false for equal positions: whatever the vector, swapping an element with itself is undefined,
because `memcpy` gets the same address twice. -/
theorem C131_self_negation {P : Params} {s : VS Elem} {t : VB} (h : Reach P s) (hs : SameState s t)
    (hc : s.v.size < s.v.cap) {i : Nat} (hi : i < s.v.size) (al base : Nat) :
    ¬ ∃ r, vecSwapC al base t i i = .ret r := by
  rw [C131_swap_defined h hs hc hi hi]
  simp

/-- C131 is false for different positions, too: in a vector of bytes that has no more elements than the
alignment of `ZyanU64`, every accepted swap is undefined, wherever the storage is. -/
theorem C131_bytes_negation {P : Params} {s : VS Elem} {t : VB} (h : Reach P s) (hs : SameState s t)
    (hc : s.v.size < s.v.cap) {i j : Nat} (hi : i < s.v.size) (hj : j < s.v.size) (al base : Nat)
    (he : s.v.esz = 1) (hal : s.v.size ≤ al) : ¬ ∃ r, vecSwapC al base t i j = .ret r := by
  rw [C131_swap_defined h hs hc hi hj, he]
  simp only [Nat.mul_one]
  rintro ⟨h1, h2, h3, h4⟩
  have key : ∀ {p q : Nat}, p < q → q ≤ al → (base + p) % al = 0 → (base + q) % al = 0 → p = 0 ∧ q = al := by
    intro p q hpq hq hp0 hq0
    have h5 := (Nat.dvd_sub (Nat.dvd_of_mod_eq_zero hq0) (Nat.dvd_of_mod_eq_zero hp0))
    rw [Nat.add_sub_add_left] at h5
    have := Nat.le_of_dvd (by omega) h5
    omega
  have h5 := (key hi hal h2 h4).1
  have h6 := (key hj hal h3 h4).1
  omega

/-- C131 is false for the vectors of the example, with the alignment of `ZyanU64` on common systems. -/
example : ∃ i j, i < exSwapS.v.size ∧ j < exSwapS.v.size ∧ i ≠ j ∧
    vecSwapC 8 0x1000 exSwapT i j = .ub .other := ⟨0, 2, by decide, by decide, by decide, by cbv⟩

/-- C131: if the storage and the element size are multiples of the alignment (as with elements that contain a
pointer or a 64-bit integer), a swap is defined if and only if the positions differ. -/
theorem C131_aligned_elements {P : Params} {s : VS Elem} {t : VB} (h : Reach P s) (hs : SameState s t)
    (hc : s.v.size < s.v.cap) {i j : Nat} (hi : i < s.v.size) (hj : j < s.v.size) {al base : Nat}
    (hb : al ∣ base) (he : al ∣ s.v.esz) : (∃ r, vecSwapC al base t i j = .ret r) ↔ i ≠ j := by
  rw [C131_swap_defined h hs hc hi hj]
  have key : ∀ k, (base + k * s.v.esz) % al = 0 := fun k =>
    Nat.mod_eq_zero_of_dvd (Nat.dvd_add hb (Nat.dvd_trans he ⟨k, Nat.mul_comm _ _⟩))
  exact ⟨fun h => h.1, fun h => ⟨h, key i, key j, key _⟩⟩

example : (∃ r, vecSwapC 2 0x1000 exSwapT 1 0 = .ret r) ↔ 1 ≠ 0 :=
  C131_aligned_elements exSwapS_reach exSwap_same (by decide) (by decide) (by decide) (by decide) (by decide)

end Zy
