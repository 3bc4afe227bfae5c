import Verif.Lemmas.Destroyed
import Verif.Lemmas.StringReach
import Verif.Lemmas.BitsetProps
import Verif.Model.StringDebug
import Verif.Props.Vector
import Verif.Props.String
import Verif.Props.Bitset
import Verif.Props.List

/-!
# C127: destroying a container a second time
-/

namespace Zy

open Spec

variable {α : Type}

/-- C127, vectors that have no destructor or are empty: destroying succeeds and takes the memory away, and destroying a
second time succeeds and has no effect, if the vector lives on a buffer of the caller or the allocator ignores null
pointers as the default allocator does. -/
theorem C127_vector_partial {P : Params} {s : VS α} {nf : NullFree α} (h : Reach P s)
    (hnf : P.allocator = none ∨ ∀ w, nf w = .ret (stSuccess, w)) (hd : P.dtor = false ∨ s.v.size = 0) :
    ∃ s', vecDestroyN nf s = .ret (stSuccess, s') ∧ s'.v = { s.v with data := none } ∧
      vecDestroyN nf s' = .ret (stSuccess, s') := by
  obtain ⟨b, sl, R⟩ := h.rep
  obtain ⟨s', e, _⟩ := destroyN_ok R nf
  exact ⟨s', e, vecDestroyN_v e, destroy_again R hnf hd e⟩

/-- C127 is false for every vector with a destructor and at least one element: the second call hands addresses of
elements behind a null pointer to the destructor. -/
theorem C127_vector_negation {P : Params} {s : VS α} (nf : NullFree α) (h : Reach P s)
    (hd : P.dtor = true) (hn : s.v.size ≠ 0) :
    ∃ s', vecDestroyN nf s = .ret (stSuccess, s') ∧ vecDestroyN nf s' = .ub .null := by
  obtain ⟨b, sl, R⟩ := h.rep
  obtain ⟨s', h1, _⟩ := destroyN_ok R nf
  refine ⟨s', h1, ?_⟩
  have hv := vecDestroyN_v h1
  have hr : runDtors s' 0 s'.v.size = .ub .null := by
    unfold runDtors
    rw [hv]
    obtain ⟨n, hn'⟩ := Nat.exists_eq_succ_of_ne_zero hn
    have : s.v.hasDtor = true := by rw [R.dtor, hd]
    simp only [this, if_true, hn', Nat.sub_zero, destroyLoop, hv, withData]
  unfold vecDestroyN
  rw [hr]; rfl

/-- C127 is false for every other dynamic vector if the allocator does not ignore null pointers: the second call passes
one to it, and whatever the allocator does then happens. -/
theorem C127_allocator_negation {P : Params} {s : VS α} (nf : NullFree α) (h : Reach P s)
    (hal : P.allocator ≠ none) (hd : P.dtor = false ∨ s.v.size = 0) :
    ∃ s', vecDestroyN nf s = .ret (stSuccess, s') ∧
      (∀ why, nf s'.w = .ub why → vecDestroyN nf s' = .ub why) ∧
      (∀ st w, failed st = true → nf s'.w = .ret (st, w) → vecDestroyN nf s' = .ret (st, ⟨s'.v, w⟩)) := by
  obtain ⟨b, sl, R⟩ := h.rep
  obtain ⟨s', h1, _⟩ := destroyN_ok R nf
  refine ⟨s', h1, ?_⟩
  have hv := vecDestroyN_v h1
  have hdata : s'.v.data = none := by rw [hv]
  have ha : s'.v.allocator = P.allocator := by rw [hv]; exact R.allocator
  have hc : s'.v.cap ≠ 0 := by
    rw [hv]; show s.v.cap ≠ 0; rw [R.cap]; have := R.cap1; omega
  have key : vecDestroyN nf s' = (nf s'.w).bind fun r =>
      if failed r.1 then .ret (r.1, { s' with w := r.2 })
      else .ret (stSuccess, { v := { s'.v with data := none }, w := r.2 }) := by
    unfold vecDestroyN
    rw [dtors_again R hd h1, Out.ret_bind', ha]
    cases hp : P.allocator with
    | none => exact absurd hp hal
    | some a => simp only [if_pos hc, freeData, hdata]
  refine ⟨fun why hw => by rw [key, hw]; rfl, fun st w hf hw => ?_⟩
  rw [key, hw, Out.ret_bind', if_pos hf]

/-- C127 is false for every vector in builds with assertions. -/
theorem C127_assertion_negation {P : Params} {s : VS α} (h : Reach P s) :
    ∃ s', vecDestroy s = .ret (stSuccess, s') ∧ vecDestroyD s' = .ub .assertion := by
  obtain ⟨b, sl, R⟩ := h.rep
  obtain ⟨s', h1, h2⟩ := destroyN_ok R defaultNullFree
  have hdata : s'.v.data = none := by rw [vecDestroyN_v h1]
  exact ⟨s', h2, by simp [vecDestroyD, assertUsable, assertThat, hdata]⟩

/-- C127, strings: on a buffer of the caller destroying does nothing at all, so that it can be repeated and the string
remains usable; otherwise a second call succeeds and has no effect if the allocator ignores null pointers. -/
theorem C127_string_partial {P : Params} {t : Str} {nf : NullFree Byte} (h : SReach P t) :
    (P.allocator = none → strDestroyN nf t = .ret (stSuccess, t)) ∧
    ((∀ w, nf w = .ret (stSuccess, w)) →
      ∃ t', strDestroyN nf t = .ret (stSuccess, t') ∧ strDestroyN nf t' = .ret (stSuccess, t')) := by
  obtain ⟨b, sl, R⟩ := h.rep
  have hx := R.fixed
  have none_ok : P.allocator = none → strDestroyN nf t = .ret (stSuccess, t) := by
    intro hn
    rw [hn] at hx
    unfold strDestroyN; rw [if_pos (by rw [hx]; rfl)]
  refine ⟨none_ok, fun hnf => ?_⟩
  cases hp : P.allocator with
  | none => exact ⟨t, none_ok hp, none_ok hp⟩
  | some a =>
    have hf : t.fixed = false := by rw [hx, hp]; rfl
    obtain ⟨s', e, _⟩ := destroyN_ok R.rep nf
    have e2 := destroy_again R.rep (Or.inr hnf) (Or.inl R.nod) e
    exact ⟨{ t with s := s' }, by simp [strDestroyN, hf, e], by simp [strDestroyN, hf, e2]⟩

/-- C127, bitsets: a second call succeeds and has no effect, on a buffer of the caller and if the allocator ignores null
pointers. -/
theorem C127_bitset_partial {P : Params} {t : Bits} {nf : NullFree Byte} (h : BAny P t)
    (hnf : P.allocator = none ∨ ∀ w, nf w = .ret (stSuccess, w)) :
    ∃ t', bsDestroyN nf t = .ret (stSuccess, t') ∧ bsDestroyN nf t' = .ret (stSuccess, t') := by
  obtain ⟨hB, bytes, c, b, sl, R⟩ := h.sound
  obtain ⟨s', e, _⟩ := destroyN_ok R nf
  have e2 := destroy_again R hnf (Or.inl hB.2) e
  exact ⟨{ t with s := s' }, by simp [bsDestroyN, e], by simp [bsDestroyN, e2]⟩

/-- C127, lists that are empty, or that live on a buffer of the caller and have no destructor: destroying succeeds any
number of times and has no effect. -/
theorem C127_list_partial {K : Source} {dt : Bool} {s s' : LS α} (h : Created K dt s) {ops : List (LOp α)}
    {sts : List Status} (hf : LAllFit K dt emptyDeque ops) (hr : runList s ops = .ret (sts, s'))
    (hc : (listGetSize s').2 = 0 ∨ (dt = false ∧ ∃ n, K = .fixed n)) :
    listDestroy s' = .ret (stSuccess, s') := by
  obtain ⟨_, _, ch, fs, d, h1, _, R⟩ := runList_ok (freeFor_ok K s.l) ops (created_ok h) hf
  rw [hr] at h1; cases h1
  rcases hc with hc | ⟨rfl, n, rfl⟩
  · have hz : s'.l.size = 0 := hc
    have hch : ch = [] := by
      have := R.ends.size; rw [hz] at this; exact List.length_eq_zero_iff.1 this.symm
    have hh : s'.l.head = none := by rw [R.ends.head, hch]; rfl
    simp [listDestroy, freeAll, hh, hz, freeLoop]
  · obtain ⟨s'', e, _, g⟩ := destroy_fixed R
    rw [g rfl] at e; exact e

/-- C127 is false for every dynamic list with at least one element: the second call uses the nodes that the first gave
back. -/
theorem C127_list_dynamic_negation {answer : Nat → Status} {dt : Bool} {s s' : LS α} (h : Created (.dynamic answer) dt s)
    {ops : List (LOp α)} {sts : List Status} (hf : LAllFit (.dynamic answer) dt emptyDeque ops)
    (hr : runList s ops = .ret (sts, s')) (hn : (listGetSize s').2 ≠ 0) :
    ∃ s'', listDestroy s' = .ret (stSuccess, s'') ∧ listDestroy s'' = .ub .uaf := by
  obtain ⟨_, _, ch, fs, d, h1, _, R⟩ := runList_ok (freeFor_ok _ s.l) ops (created_ok h) hf
  rw [hr] at h1; cases h1
  obtain ⟨s'', e, _⟩ := destroy_ok (freeFor_ok _ s.l) R
  refine ⟨s'', e, destroy_dynamic_again R ?_ (freeFor_ok _ s.l) e⟩
  rintro rfl
  exact hn R.ends.size

/-- C127 is false for every list with a destructor on a buffer of the caller, unless it is empty: all elements are
destroyed a second time. -/
theorem C127_list_fixed_negation {n : Nat} {s s' : LS α} (h : Created (.fixed n) true s)
    {ops : List (LOp α)} {sts : List Status} (hf : LAllFit (.fixed n) true emptyDeque ops)
    (hr : runList s ops = .ret (sts, s')) :
    ∃ xs s1 s2, forward s' = .ret xs ∧ xs.length = (listGetSize s').2 ∧ listDestroy s' = .ret (stSuccess, s1) ∧
      listDestroy s1 = .ret (stSuccess, s2) ∧ lDestroyed s1.w.trace = lDestroyed s'.w.trace ++ xs ∧
      lDestroyed s2.w.trace = lDestroyed s'.w.trace ++ xs ++ xs := by
  obtain ⟨_, _, ch, fs, d, h1, _, R⟩ := runList_ok (freeFor_ok _ s.l) ops (created_ok h) hf
  rw [hr] at h1; cases h1
  obtain ⟨s2, e2, R2, _⟩ := destroy_fixed R
  obtain ⟨s3, e3, R3, _⟩ := destroy_fixed R2
  refine ⟨d.elems, s2, s3, forward_ok R, ?_, e2, e3, ?_, ?_⟩
  · rw [listGetSize, R.ends.size, R.elems, List.length_map]
  · rw [R2.core.dead, R.core.dead]; rfl
  · rw [R3.core.dead, R.core.dead]; rfl

/-! ## Examples -/

/-- A vector of one element without a destructor on a buffer of the caller. -/
example : ∃ s s' : VS Nat, s.v.size = 1 ∧ vecDestroyN (fun _ => .ub .null) s = .ret (stSuccess, s') ∧
    vecDestroyN (fun _ => .ub .null) s' = .ret (stSuccess, s') := by
  have h0 : Reach (α := Nat) ⟨none, 1, 0, 8, false⟩ ⟨⟨none, 1, 0, 0, 2, 8, false, some ⟨7, [none, none]⟩⟩, exW⟩ :=
    Reach.initBuffer (w := exW) (cap := 2) (b := ⟨7, [none, none]⟩) ⟨rfl, rfl⟩ (fun _ => failed_success)
      ⟨rfl, rfl, rfl⟩ (by decide) (by decide) rfl
  have h1 := Reach.step (op := .push (some 10)) h0 (by show _ < _; decide) rfl
  obtain ⟨s', g1, _, g2⟩ := C127_vector_partial (nf := fun _ => .ub .null) h1 (Or.inl rfl) (Or.inl rfl)
  exact ⟨_, s', rfl, g1, g2⟩

example : ∃ s', vecDestroyN defaultNullFree exS = .ret (stSuccess, s') ∧ vecDestroyN defaultNullFree s' = .ub .null :=
  C127_vector_negation _ exS_reach rfl (by decide)

example : ∃ s', vecDestroyN defaultNullFree exFixed = .ret (stSuccess, s') ∧
    vecDestroyN defaultNullFree s' = .ub .null :=
  C127_vector_negation _ exFixed_reach rfl (by decide)

example : ∃ s', vecDestroy exS = .ret (stSuccess, s') ∧ vecDestroyD s' = .ub .assertion :=
  C127_assertion_negation exS_reach

example : ∃ t', strDestroyN defaultNullFree exStr = .ret (stSuccess, t') ∧
    strDestroyN defaultNullFree t' = .ret (stSuccess, t') :=
  (C127_string_partial exStr_reach).2 fun _ => rfl

example : ∃ t', bsDestroyN defaultNullFree exOdd = .ret (stSuccess, t') ∧
    bsDestroyN defaultNullFree t' = .ret (stSuccess, t') :=
  C127_bitset_partial exOdd_any (Or.inr fun _ => rfl)

/-- A dynamic list of four elements. -/
example : ∃ sts s' s'', runList exLDyn exLOps = .ret (sts, s') ∧ listDestroy s' = .ret (stSuccess, s'') ∧
    listDestroy s'' = .ub .uaf := by
  obtain ⟨sts, s', d', h1, h2, h3, h4, h5, h6⟩ := C46_list_is_a_deque exLDyn_created exLOps (exLOps_fit _ _)
  have hs : (match runList exLDyn exLOps with | .ret q => (listGetSize q.2).2 | .ub _ => 0) = 4 := by decide +kernel
  rw [h1] at hs
  obtain ⟨s'', g⟩ := C127_list_dynamic_negation exLDyn_created (exLOps_fit _ _) h1 (by rw [show (listGetSize s').2 = 4 from hs]; decide)
  exact ⟨sts, s', s'', h1, g⟩

/-- A list on a buffer without a destructor. -/
example : ∃ sts s', runList exLFix exLOps = .ret (sts, s') ∧ listDestroy s' = .ret (stSuccess, s') := by
  obtain ⟨sts, s', d', h1, _⟩ := C46_list_is_a_deque exLFix_created exLOps (exLOps_fit _ _)
  exact ⟨sts, s', h1, C127_list_partial exLFix_created (exLOps_fit _ _) h1 (Or.inr ⟨rfl, 3, rfl⟩)⟩

/-- A list on a buffer with a destructor: each of the two elements is destroyed twice. -/
def exLFixD : LS Nat := ⟨⟨none, 0, 4, true, none, none, some 7, 64, none⟩, bufferMem 64 4, exLW⟩

theorem exLFixD_created : Created (.fixed 3) true exLFixD :=
  Created.fixed (esz := 4) (b := 7) (cap := 64) (bytes := 64) (dtor := true) (w := exLW)
    (st := stSuccess) ⟨rfl, rfl, rfl⟩ (by decide) (by decide) rfl

example : (runList exLFixD [.pushBack (some 1), .pushBack (some 2)]).bind (fun q =>
    (listDestroy q.2).bind fun r => (listDestroy r.2).bind fun u => .ret (lDestroyed u.2.w.trace)) =
    .ret [some 1, some 2, some 1, some 2] := by decide +kernel

example : ∃ sts s' xs s1 s2, runList exLFixD [.pushBack (some 1), .pushBack (some 2)] = .ret (sts, s') ∧
    forward s' = .ret xs ∧ xs.length = (listGetSize s').2 ∧ listDestroy s' = .ret (stSuccess, s1) ∧
    listDestroy s1 = .ret (stSuccess, s2) ∧ lDestroyed s1.w.trace = lDestroyed s'.w.trace ++ xs ∧
    lDestroyed s2.w.trace = lDestroyed s'.w.trace ++ xs ++ xs := by
  have hf := C46_short_histories_fit (α := Nat) (.fixed 3) true [.pushBack (some 1), .pushBack (some 2)] (by decide)
  obtain ⟨sts, s', d', h1, _⟩ := C46_list_is_a_deque exLFixD_created _ hf
  obtain ⟨xs, s1, s2, g⟩ := C127_list_fixed_negation exLFixD_created hf h1
  exact ⟨sts, s', xs, s1, s2, h1, g⟩

end Zy
