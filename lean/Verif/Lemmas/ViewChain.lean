import Verif.Spec.ViewChain
import Verif.Lemmas.StringProps

/-!
# Lemmas: views of views
-/

namespace Zy

open Spec

theorem inside_of_well : ∀ {rs : List (Nat × Nat)} {len : Nat}, WellInside len rs → AllInside len rs
  | [], _, _ => trivial
  | _ :: _, _, h => ⟨Nat.le_of_lt h.1, inside_of_well h.2⟩

theorem insideEx_ok {v : View} {i n : Nat} (h : i + n < v.size) (hb : v.size < 18446744073709551616) :
    viewInsideViewEx v i n = (stSuccess, some ⟨v.mem.drop i, n⟩) := by
  unfold viewInsideViewEx
  rw [add64_eq (by omega), if_neg (by omega)]

theorem insideEx_no {v : View} {i n : Nat} (h : v.size ≤ i + n) (hb : i + n < 18446744073709551616) :
    viewInsideViewEx v i n = (stOutOfRange, none) := by
  unfold viewInsideViewEx
  rw [add64_eq hb, if_pos h]

/-- What a chain of views is when each one is well inside of the one before. -/
theorem viewChain_ok : ∀ (rs : List (Nat × Nat)) (v : View), v.size < 18446744073709551616 → WellInside v.size rs →
    viewChain v rs = some ⟨v.mem.drop (rs.map (·.1)).sum, ((rs.map (·.2)).getLast?).getD v.size⟩
  | [], v, _, _ => by simp [viewChain]
  | r :: rs, v, hb, h => by
    have h1 : r.1 + r.2 < v.size := h.1
    unfold viewChain
    rw [insideEx_ok h1 hb]
    show viewChain ⟨v.mem.drop r.1, r.2⟩ rs = _
    rw [viewChain_ok rs ⟨v.mem.drop r.1, r.2⟩ (by show r.2 < _; omega) h.2]
    cases rs with
    | nil => simp
    | cons q rs => simp [List.getLast?_cons]

theorem cutAll_eq : ∀ (rs : List (Nat × Nat)) (x : List Byte), AllInside x.length rs →
    cutAll x rs = (x.drop (rs.map (·.1)).sum).take (((rs.map (·.2)).getLast?).getD x.length)
  | [], x, _ => by simp [cutAll]
  | r :: rs, x, h => by
    have h1 : r.1 + r.2 ≤ x.length := h.1
    have hlen : ((x.drop r.1).take r.2).length = r.2 := by
      rw [List.length_take, List.length_drop]; omega
    have ih := cutAll_eq rs ((x.drop r.1).take r.2) (by rw [hlen]; exact h.2)
    rw [hlen] at ih
    show cutAll ((x.drop r.1).take r.2) rs = _
    rw [ih, List.drop_take, List.take_take, List.drop_drop]
    have hle : (rs.map (·.1)).sum + (((rs.map (·.2)).getLast?).getD r.2) ≤ r.2 := inside_le rs r.2 h.2
    rw [Nat.min_eq_left (by omega)]
    cases rs with
    | nil => simp
    | cons q rs => simp [List.getLast?_cons]
where
  inside_le : ∀ (rs : List (Nat × Nat)) (len : Nat), AllInside len rs →
      (rs.map (·.1)).sum + (((rs.map (·.2)).getLast?).getD len) ≤ len
    | [], len, _ => by simp
    | r :: rs, len, h => by
      have h1 : r.1 + r.2 ≤ len := h.1
      have := inside_le rs r.2 h.2
      have e : ((((r :: rs).map (·.2)).getLast?).getD len) = (((rs.map (·.2)).getLast?).getD r.2) := by
        cases rs with
        | nil => simp
        | cons q rs => simp [List.getLast?_cons]
      rw [e, List.map_cons, List.sum_cons]
      omega

theorem wholeViews_ok : ∀ (k : Nat) (v : View), v.size < 18446744073709551616 → k ≤ v.size →
    wholeViews v k = some ⟨v.mem, v.size - k⟩
  | 0, v, _, _ => rfl
  | k + 1, v, hb, hk => by
    have hs : viewGetSize v = v.size - 1 := by
      unfold viewGetSize
      rw [sub64_eq (by omega) hb]
    unfold wholeViews
    rw [hs, insideEx_ok (by omega) hb]
    show wholeViews ⟨v.mem.drop 0, v.size - 1⟩ k = _
    rw [wholeViews_ok k _ (by show v.size - 1 < _; omega) (by show k ≤ v.size - 1; omega)]
    simp only [List.drop_zero, Option.some.injEq, View.mk.injEq, true_and]
    omega

end Zy
