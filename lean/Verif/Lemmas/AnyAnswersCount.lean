import Verif.Lemmas.Shared
import Verif.Lemmas.Tends

/-!
# Lemmas: the number of elements after a refusal
-/

namespace Zy

open Spec

theorem heapOf_append {α : Type} (t es : List (Event α)) :
    heapOf (t ++ es) = (heapOf t).bind fun h => heapFrom h es := heapFrom_append t es _

theorem destroyLoop_heap : ∀ (n : Nat) (s : VS Byte) (i : Nat),
    Ensures (destroyLoop s i n) fun r => heapOf r.w.trace = heapOf s.w.trace
  | 0, _, _ => ensures_ret rfl
  | n + 1, s, i => by
    unfold destroyLoop
    refine ensures_withData fun b _ => ?_
    split
    · exact ensures_ub
    · refine (destroyLoop_heap n _ (i + 1)).imp fun r hr => hr.trans ?_
      show heapOf (s.w.trace ++ [_]) = _
      rw [heapOf_append]
      cases heapOf s.w.trace <;> rfl

theorem runDtors_heap (s : VS Byte) (i n : Nat) :
    Ensures (runDtors s i n) fun r => heapOf r.w.trace = heapOf s.w.trace :=
  ensures_ite (fun _ => destroyLoop_heap _ _ _) fun _ => ensures_ret rfl

theorem refused_count {s s1 s2 : VS Byte} {a c : Nat} {b : Block Byte} {st : Status} {h : Heap}
    (ha : s.v.allocator = some a) (hb : s.v.data = some b) (hh : heapOf s.w.trace = some h)
    (hx : h b.id = some ⟨a, s.v.esz, s.v.cap⟩) (hc : s.v.cap < c) (h1 : vecReserve s c = .ret (st, s1))
    (hst : failed st = true) (h2 : vecDestroy s1 = .ret (stSuccess, s2)) : heapOf s2.w.trace = none := by
  unfold vecReserve at h1
  rw [if_pos hc] at h1
  have hr : failed (s.w.oracle s.w.calls) = true ∧ s1 = ⟨{ s.v with cap := c, data := some b },
      { s.w with calls := s.w.calls + 1 }.log (.refused a)⟩ := by
    unfold reallocate at h1
    rw [ha] at h1
    simp only at h1
    rw [if_neg (by omega)] at h1
    unfold reallocTo at h1
    rw [hb] at h1
    simp only [withData, reallocBlock] at h1
    by_cases hf : failed (s.w.oracle s.w.calls) = true
    · rw [if_pos hf] at h1
      dsimp only at h1
      rw [if_pos hf, Out.ret_bind', if_pos hf] at h1
      cases h1
      exact ⟨hf, rfl⟩
    · rw [if_neg hf] at h1
      dsimp only at h1
      rw [if_neg hf, Out.ret_bind', if_neg (by rw [failed_success]; exact Bool.false_ne_true)] at h1
      simp only [Out.ret.injEq, Prod.mk.injEq] at h1
      rw [← h1.1] at hst
      cases hst
  obtain ⟨hf, rfl⟩ := hr
  obtain ⟨r, e1, e2⟩ := bind_ret h2
  have hv := runDtors_v e1
  have hH := runDtors_heap _ _ _ _ e1
  simp only at hv
  rw [hv] at e2
  simp only [ha] at e2
  rw [if_pos (by omega)] at e2
  simp only [withData] at e2
  generalize hD : deallocate r.w a b s.v.esz c = D at e2
  by_cases hf : failed (r.w.oracle r.w.calls) = true
  · have e3 := hD.symm.trans (show deallocate r.w a b s.v.esz c = _ from if_pos hf)
    subst e3
    dsimp only at e2
    rw [if_pos hf] at e2
    simp only [Out.ret.injEq, Prod.mk.injEq] at e2
    rw [e2.1] at hf
    cases hf
  · have e3 := hD.symm.trans (show deallocate r.w a b s.v.esz c = _ from if_neg hf)
    subst e3
    dsimp only at e2
    rw [if_neg hf] at e2
    simp only [Out.ret.injEq, Prod.mk.injEq] at e2
    rw [← e2.2]
    show heapOf (r.w.trace ++ [_]) = none
    rw [heapOf_append, hH]
    show (heapOf (s.w.trace ++ [_])).bind _ = none
    rw [heapOf_append, hh]
    show (if _ then _ else _ : Option Heap).bind _ = none
    rw [if_neg]
    · rfl
    · rw [hx]
      intro e
      simp only [Option.some.injEq, Extent.mk.injEq] at e
      omega

end Zy
