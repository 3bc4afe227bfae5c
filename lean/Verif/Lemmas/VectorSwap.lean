import Verif.Model.VectorSwap
import Verif.Lemmas.VectorBytesSim
import Verif.Lemmas.VectorProps

/-! # Lemmas about the swap on bytes -/

namespace Zy

open Spec

/-- Element `k` of the memory. -/
def slot (e : Nat) (mem : List (Cell Byte)) (k : Nat) : List (Cell Byte) := (mem.drop (k * e)).take e

theorem slot_apart {e i k : Nat} (h : i ≠ k) : i * e + e ≤ k * e ∨ k * e + e ≤ i * e := by
  rcases Nat.lt_or_gt_of_ne h with h | h
  · left
    have := Nat.mul_le_mul_right e (show i + 1 ≤ k by omega)
    rwa [Nat.add_mul, Nat.one_mul] at this
  · right
    have := Nat.mul_le_mul_right e (show k + 1 ≤ i by omega)
    rwa [Nat.add_mul, Nat.one_mul] at this

/-- One `memcpy` between two different elements. -/
theorem memcpyWithin_slot {e : Nat} {mem : List (Cell Byte)} {d r : Nat} (hdr : d ≠ r)
    (hd : d * e + e ≤ mem.length) (hr : r * e + e ≤ mem.length) :
    ∃ ms, memcpyWithin mem (d * e) (r * e) e = .ret ms ∧ ms.length = mem.length ∧
      ∀ k, slot e ms k = if k = d then slot e mem r else slot e mem k := by
  have hap := slot_apart (e := e) hdr
  unfold memcpyWithin
  rw [if_neg (by omega)]
  unfold memmoveCells readRange
  rw [if_pos hr, Out.ret_bind']
  unfold writeRange
  have hl : ((mem.drop (r * e)).take e).length = e := by
    rw [List.length_take, List.length_drop]; omega
  rw [hl, if_pos hd]
  refine ⟨_, rfl, ?_, fun k => ?_⟩
  · simp only [List.length_append, hl, List.length_take, List.length_drop]; omega
  · have hget : ∀ q, (mem.take (d * e) ++ (mem.drop (r * e)).take e ++ mem.drop (d * e + e))[q]? =
        if d * e ≤ q ∧ q < d * e + e then mem[r * e + (q - d * e)]? else mem[q]? := by
      intro q
      have h1 : (mem.take (d * e)).length = d * e := by rw [List.length_take]; omega
      rcases Nat.lt_or_ge q (d * e) with hq | hq
      · rw [if_neg (by omega), List.append_assoc, List.getElem?_append_left (by omega),
          List.getElem?_take_of_lt hq]
      · rcases Nat.lt_or_ge q (d * e + e) with hq2 | hq2
        · rw [if_pos ⟨hq, hq2⟩, List.append_assoc, List.getElem?_append_right (by omega), h1,
            List.getElem?_append_left (by omega), List.getElem?_take_of_lt (by omega),
            List.getElem?_drop]
        · rw [if_neg (by omega), List.getElem?_append_right (by rw [List.length_append, h1, hl]; omega),
            List.length_append, h1, hl, List.getElem?_drop]
          congr 1; omega
    unfold slot
    refine List.ext_getElem? fun q => ?_
    by_cases hk : k = d
    · subst hk
      rw [if_pos rfl]
      rcases Nat.lt_or_ge q e with hq | hq
      · rw [List.getElem?_take_of_lt hq, List.getElem?_take_of_lt hq, List.getElem?_drop,
          List.getElem?_drop, hget, if_pos (by omega)]
        congr 1; omega
      · rw [List.getElem?_take_eq_none hq, List.getElem?_take_eq_none hq]
    · rw [if_neg hk]
      have hap2 := slot_apart (e := e) hk
      rcases Nat.lt_or_ge q e with hq | hq
      · rw [List.getElem?_take_of_lt hq, List.getElem?_take_of_lt hq, List.getElem?_drop,
          List.getElem?_drop, hget, if_neg (by omega)]
      · rw [List.getElem?_take_eq_none hq, List.getElem?_take_eq_none hq]

/-- Where the storage of a vector with a free slot has its bytes. -/
theorem swap_room {P : Params} {s : VS Elem} {t : VB} (h : Reach P s) (hs : SameState s t)
    (hc : s.v.size < s.v.cap) :
    ∃ b, t.v.data = some b ∧ b.cells.length < 2 ^ 64 ∧ t.v.size = s.v.size ∧ t.v.cap = s.v.cap ∧
      t.v.esz = s.v.esz ∧ 1 ≤ s.v.esz ∧
      ∀ k, k ≤ s.v.size → k * s.v.esz + s.v.esz ≤ b.cells.length ∧ byteOffset t.v k = k * s.v.esz := by
  obtain ⟨b, slack, R⟩ := h.rep
  have hd := hs.1.data
  rw [R.data] at hd
  cases ht : t.v.data with
  | none => rw [ht] at hd; exact absurd hd id
  | some b' =>
    rw [ht] at hd
    refine ⟨b', rfl, hd.2.2, hs.1.size, hs.1.cap, hs.1.esz, hs.1.pos, fun k hk => ?_⟩
    have h1 := hd.2.1.bounds.1
    have h2 := R.room
    have h3 := R.cap
    have h4 : (k + 1) * s.v.esz ≤ b.cells.length * s.v.esz := Nat.mul_le_mul_right _ (by omega)
    rw [Nat.add_mul, Nat.one_mul] at h4
    refine ⟨by omega, ?_⟩
    unfold byteOffset
    rw [hs.1.esz]
    exact mul64_small (L := b'.cells.length) (by omega) hd.2.2

/-- The accepted swap, with the tests done. -/
theorem swap_eval {P : Params} {s : VS Elem} {t : VB} (h : Reach P s) (hs : SameState s t)
    (hc : s.v.size < s.v.cap) {i j : Nat} (hi : i < s.v.size) (hj : j < s.v.size) (al base : Nat)
    {b : Block Byte} (hb : t.v.data = some b) :
    vecSwapC al base t i j =
      (asU64Pointer al (base + s.v.size * s.v.esz)).bind fun _ =>
      (asU64Pointer al (base + i * s.v.esz)).bind fun _ =>
      (asU64Pointer al (base + j * s.v.esz)).bind fun _ =>
      (memcpyWithin b.cells (s.v.size * s.v.esz) (i * s.v.esz) s.v.esz).bind fun cs =>
      (memcpyWithin cs (i * s.v.esz) (j * s.v.esz) s.v.esz).bind fun cs =>
      (memcpyWithin cs (j * s.v.esz) (s.v.size * s.v.esz) s.v.esz).bind fun cs =>
      .ret (stSuccess, { t with v := { t.v with data := some { b with cells := cs } } }) := by
  obtain ⟨b', hb', _, hsz, hcap, hesz, hpos, hk⟩ := swap_room h hs hc
  unfold vecSwapC
  rw [hsz, hcap, if_neg (by omega), if_neg (by omega), hb, withData_some]
  dsimp only
  rw [(hk s.v.size (Nat.le_refl _)).2, (hk i (by omega)).2, (hk j (by omega)).2, hesz]

end Zy
