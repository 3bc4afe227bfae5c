import Verif.Model.Destroyed
import Verif.Lemmas.VectorReach
import Verif.Lemmas.ListProps

/-!
# Lemmas about containers that were destroyed
-/

namespace Zy

open Spec

variable {α : Type} {F : (Nat → Status) → Nat × Nat → Prop}

theorem dtorLoop_keeps {s s' : VS α} {i n : Nat} (h : destroyLoop s i n = .ret s') : s'.v = s.v := by
  induction n generalizing s i with
  | zero => cases h; rfl
  | succ n ih =>
    unfold destroyLoop withData at h
    cases hd : s.v.data with
    | none => rw [hd] at h; cases h
    | some b =>
      rw [hd] at h
      simp only at h
      split at h
      · cases h
      · exact (ih h :)

theorem dtors_keep {s s' : VS α} {i n : Nat} (h : runDtors s i n = .ret s') : s'.v = s.v := by
  unfold runDtors at h
  split at h
  · exact dtorLoop_keeps h
  · cases h; rfl

theorem vecDestroyN_eq (nf : NullFree α) {s : VS α} (h : s.v.data ≠ none) : vecDestroyN nf s = vecDestroy s := by
  unfold vecDestroyN vecDestroy
  cases hr : runDtors s 0 s.v.size with
  | ub w => rfl
  | ret s1 =>
    have hv := dtors_keep hr
    simp only [Out.ret_bind']
    cases s1.v.allocator with
    | none => rfl
    | some a =>
      simp only
      split
      · cases hd : s1.v.data with
        | none => rw [hv] at hd; exact absurd hd h
        | some b => simp [withData, freeData, hd]
      · rfl

theorem vecDestroyN_v {nf : NullFree α} {s s' : VS α} (h : vecDestroyN nf s = .ret (stSuccess, s')) :
    s'.v = { s.v with data := none } := by
  unfold vecDestroyN at h
  cases hr : runDtors s 0 s.v.size with
  | ub w => rw [hr] at h; cases h
  | ret s1 =>
    have hv := dtors_keep hr
    rw [hr] at h
    simp only [Out.ret_bind'] at h
    cases ha : s1.v.allocator with
    | none => rw [ha] at h; cases h; rw [hv] at ha; simp [hv, ha]
    | some a =>
      rw [ha] at h
      simp only at h
      split at h
      · cases hn : freeData nf s1 a with
        | ub w => rw [hn] at h; cases h
        | ret r =>
          rw [hn] at h
          simp only [Out.ret_bind'] at h
          split at h
          · rename_i hf
            rw [(Prod.mk.inj (Out.ret.inj h)).1] at hf; exact absurd hf (by decide)
          · cases h; rw [hv] at ha; simp [hv, ha]
      · cases h; rw [hv] at ha; simp [hv, ha]

/-- The elements of a vector that was destroyed need no destructor. -/
theorem dtors_again {P : Params} {s s' : VS α} {a : LState α} {b : Block α} {sl : List (Cell α)} {nf : NullFree α}
    (R : Rep P s a b sl) (hd : P.dtor = false ∨ s.v.size = 0) (h1 : vecDestroyN nf s = .ret (stSuccess, s')) :
    runDtors s' 0 s'.v.size = .ret s' := by
  unfold runDtors
  rw [vecDestroyN_v h1]
  rcases hd with hd | hd
  · rw [if_neg (by rw [show s.v.hasDtor = P.dtor from R.dtor, hd]; simp)]
  · simp only [hd, Nat.sub_self, destroyLoop]; simp

theorem destroy_again {P : Params} {s s' : VS α} {a : LState α} {b : Block α} {sl : List (Cell α)} {nf : NullFree α}
    (R : Rep P s a b sl) (hnf : P.allocator = none ∨ ∀ w, nf w = .ret (stSuccess, w)) (hd : P.dtor = false ∨ s.v.size = 0)
    (h1 : vecDestroyN nf s = .ret (stSuccess, s')) : vecDestroyN nf s' = .ret (stSuccess, s') := by
  have hv := vecDestroyN_v h1
  have hdata : s'.v.data = none := by rw [hv]
  have hal : s'.v.allocator = P.allocator := by rw [hv]; exact R.allocator
  have hs : s' = ⟨{ s'.v with data := none }, s'.w⟩ := by
    cases s' with | mk v w => cases v; simp at hdata; simp [hdata]
  unfold vecDestroyN
  rw [dtors_again R hd h1, Out.ret_bind', hal]
  cases ha : P.allocator with
  | none => simp only; rw [← hs]
  | some a =>
    simp only
    split
    · rcases hnf with hnf | hnf
      · rw [ha] at hnf; cases hnf
      · simp only [freeData, hdata, hnf, Out.ret_bind', failed_success, Bool.false_eq_true, if_false]
        rw [← hs]
    · rw [← hs]

theorem destroyN_ok {P : Params} {s : VS α} {a : LState α} {b : Block α} {sl : List (Cell α)} (R : Rep P s a b sl)
    (nf : NullFree α) :
    ∃ s', vecDestroyN nf s = .ret (stSuccess, s') ∧ vecDestroy s = .ret (stSuccess, s') := by
  obtain ⟨s', e, _⟩ := destroy_rep R
  exact ⟨s', by rw [vecDestroyN_eq nf (by rw [R.data]; simp)]; exact e, e⟩

/-! ## Lists -/

/-- Giving nodes back never makes memory accessible, and the first node is gone. -/
theorem freeLoop_gone {n : Nat} {s s' : LS α} {p : Option Nat} (ha : s.l.allocator.isSome)
    (h : freeLoop s p n = .ret (none, s')) :
    (∀ x, s.mem x = none → s'.mem x = none) ∧ ∀ x, p = some x → s'.mem x = none := by
  induction n generalizing s p with
  | zero =>
    unfold freeLoop at h
    cases p with
    | none => cases h; exact ⟨fun _ e => e, fun _ e => by cases e⟩
    | some q => cases h
  | succ n ih =>
    unfold freeLoop at h
    cases p with
    | none => cases h; exact ⟨fun _ e => e, fun _ e => by cases e⟩
    | some q =>
      simp only [Option.isSome_some, if_true] at h
      obtain ⟨a, ha'⟩ := Option.isSome_iff_exists.1 ha
      cases hm : s.mem q with
      | none =>
        have e1 : destroyData s (some q) = .ub .uaf ∨ destroyData s (some q) = .ret s := by
          unfold destroyData
          split
          · exact Or.inl (by simp [deref, hm])
          · exact Or.inr rfl
        have e2 : loadNext s (some q) = .ub .uaf := by simp [loadNext, deref, hm]
        rcases e1 with e1 | e1
        · rw [e1] at h; cases h
        · rw [e1, Out.ret_bind', e2] at h; cases h
      | some nd =>
        obtain ⟨s1, e1, e1l, e1m⟩ : ∃ s1 : LS α, destroyData s (some q) = .ret s1 ∧ s1.l = s.l ∧ s1.mem = s.mem := by
          unfold destroyData
          split
          · exact ⟨s.log (.destroy nd.data), by simp [deref, hm], rfl, rfl⟩
          · exact ⟨s, rfl, rfl, rfl⟩
        have hm1 : s1.mem q = some nd := by rw [e1m]; exact hm
        rw [e1, Out.ret_bind'] at h
        cases hn : loadNext s1 (some q) with
        | ub w => rw [hn] at h; cases h
        | ret nx =>
          rw [hn, Out.ret_bind', e1l, ha'] at h
          simp only [nodeDeallocate, deref, hm1, Out.ret_bind'] at h
          by_cases hf : failed (s1.w.freeSt s1.w.frees) = true
          · rw [if_pos hf, Out.ret_bind', if_pos hf] at h; cases h
          · rw [if_neg hf, Out.ret_bind', if_neg hf] at h
            obtain ⟨g1, -⟩ := ih (by show s1.l.allocator.isSome; rw [e1l]; exact ha) h
            refine ⟨fun x hx => g1 x ?_, fun x hx => g1 x ?_⟩
            · show (if x = q then none else s1.mem x) = none
              split
              · rfl
              · rw [e1m]; exact hx
            · cases hx
              show (if q = q then none else s1.mem q) = none
              rw [if_pos rfl]

/-- The nodes of a dynamic list that was destroyed are gone. -/
theorem destroy_dynamic_again {answer : Nat → Status} {dt : Bool} {s s' : LS α} {ch : List (Nat × Cell α)}
    {fs : List Nat} {d : Deque α} (R : LRep F (.dynamic answer) dt s ch fs d) (hne : ch ≠ [])
    (hF : FreesOK F (.dynamic answer)) (h : listDestroy s = .ret (stSuccess, s')) : listDestroy s' = .ub .uaf := by
  obtain ⟨a, ha, _⟩ := R.core.src
  have E := R.ends
  cases ch with
  | nil => exact absurd rfl hne
  | cons x c =>
    have hh : s.l.head = some x.1 := E.head
    have hz : s.l.size = c.length + 1 := E.size
    obtain ⟨s1, hr, hl, _⟩ := freeAll_ok hF R
    have : s1 = s' := by
      simp only [listDestroy, hr, Out.ret_bind', Out.ret.injEq, Prod.mk.injEq, true_and] at h
      exact h
    subst this
    have hgone : s1.mem x.1 = none := by
      unfold freeAll at hr
      refine (freeLoop_gone (by rw [ha]; rfl) hr).2 x.1 ?_
      simp [ha, hh]
    have e : (if s1.l.allocator.isSome || s1.l.hasDtor then s1.l.head else none) = some x.1 := by
      rw [hl]; simp [ha, hh]
    have e1 : destroyData s1 (some x.1) = .ub .uaf ∨ destroyData s1 (some x.1) = .ret s1 := by
      unfold destroyData
      split
      · exact Or.inl (by simp [deref, hgone])
      · exact Or.inr rfl
    have e2 : loadNext s1 (some x.1) = .ub .uaf := by simp [loadNext, deref, hgone]
    unfold listDestroy freeAll
    rw [e, hl, hz]
    simp only [freeLoop, Option.isSome_some, if_true]
    rcases e1 with e1 | e1
    · rw [e1]; rfl
    · rw [e1, Out.ret_bind', e2]; rfl

/-- Destroying a list on a caller buffer leaves the nodes where they are. -/
theorem destroy_fixed {n : Nat} {dt : Bool} {s : LS α} {ch : List (Nat × Cell α)} {fs : List Nat} {d : Deque α}
    (R : LRep F (.fixed n) dt s ch fs d) :
    ∃ s' : LS α, listDestroy s = .ret (stSuccess, s') ∧
      LRep F (.fixed n) dt s' ch fs { d with dead := d.dead ++ buried dt d.elems } ∧ (dt = false → s' = s) := by
  have C := R.core
  have E := R.ends
  have h1 := C.src.1
  cases dt with
  | true =>
    obtain ⟨s', g1, g2, g3⟩ := freeLoop_fixed ch C C.seg
    refine ⟨s', ?_, ⟨by rw [R.elems]; exact g3, by rw [g2]; exact E, R.elems⟩, fun e => by cases e⟩
    simp only [listDestroy, freeAll, h1, C.dt, Bool.or_true, if_true, E.head, E.size, g1, Out.ret_bind']
  | false =>
    refine ⟨s, ?_, ⟨by simpa [buried] using C, E, R.elems⟩, fun _ => rfl⟩
    simp only [listDestroy, freeAll, h1, C.dt, Option.isSome_none, Bool.or_false, Bool.false_eq_true, if_false]
    cases s.l.size <;> rfl

end Zy
