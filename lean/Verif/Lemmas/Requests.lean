import Verif.Lemmas.Tends

/-!
# Lemmas: requests to the allocator
-/

namespace Zy

open Spec

variable {α : Type}

/-! ## Proper requests -/

/-- `Proper` in terms of the fields it depends on, with the allocator and element size fixed. -/
structure Orderly (pre : List (Event α)) (a : Option Nat) (e : Nat) (v : Vec α) (w : World α) : Prop where
  al : v.allocator = a
  esz : v.esz = e
  cap : a ≠ none → v.cap ≠ 0
  ok : ∃ es, w.trace = pre ++ es ∧
    match (generalizing := false) a with
    | none => ∀ e ∈ es, isDestroy e = true
    | some a => ∃ b, v.data.map Block.id = some b ∧ requests es = some (some ⟨a, b, e⟩)

theorem Orderly.proper {pre : List (Event α)} {a : Option Nat} {e : Nat} {s : VS α}
    (h : Orderly pre a e s.v s.w) : Proper pre s := by
  obtain ⟨h1, h2, hcap, es, h3, h4⟩ := h
  refine ⟨es, h3, ?_⟩
  rw [h1]
  cases a with
  | none => exact h4
  | some a =>
    obtain ⟨b, hb, h5⟩ := h4
    cases hd : s.v.data with
    | none => rw [hd] at hb; cases hb
    | some c =>
      rw [hd] at hb
      cases hb
      exact ⟨c, rfl, h2 ▸ h5⟩

theorem Orderly.frame {pre : List (Event α)} {a : Option Nat} {e : Nat} {v v' : Vec α} {w : World α}
    (h : Orderly pre a e v w) (f : Frame v v') : Orderly pre a e v' w :=
  ⟨f.al.trans h.al, f.esz.trans h.esz, fun n => by rw [f.cap]; exact h.cap n, by rw [f.data]; exact h.ok⟩

theorem Orderly.cells {pre : List (Event α)} {a : Option Nat} {e : Nat} {s : VS α} {b : Block α}
    (h : Orderly pre a e s.v s.w) (hd : s.v.data = some b) (cs : List (Cell α)) (n : Nat) :
    Orderly pre a e { s.v with data := some { b with cells := cs }, size := n } s.w :=
  h.frame ⟨rfl, rfl, rfl, by rw [hd]; rfl⟩

theorem requests_append (es : List (Event α)) (x : Event α) :
    requests (es ++ [x]) = requestStep (requests es) x := by
  unfold requests
  rw [List.foldl_append]; rfl

theorem Orderly.destroyed {pre : List (Event α)} {a : Option Nat} {e : Nat} {v : Vec α} {w : World α}
    (h : Orderly pre a e v w) (x : Cell α) : Orderly pre a e v (w.log (.destroy x)) := by
  obtain ⟨h1, h2, hcap, es, h3, h4⟩ := h
  refine ⟨h1, h2, hcap, es ++ [.destroy x], by simp [World.log, h3], ?_⟩
  cases a with
  | none =>
    intro y hy
    rcases List.mem_append.1 hy with hy | hy
    · exact h4 y hy
    · simp at hy; subst hy; rfl
  | some a =>
    obtain ⟨b, hb, h5⟩ := h4
    exact ⟨b, hb, by rw [requests_append, h5]; rfl⟩

theorem Orderly.realloc {pre : List (Event α)} {a : Option Nat} {e c : Nat} {v : Vec α} {w : World α} {x : Nat}
    {b' : Block α} (he : e ≠ 0) (h : Orderly pre a e v w) (ha : v.allocator = some x) (hc : c ≠ 0)
    (hb' : v.data = some b') :
    Orderly pre a e { v with cap := c, data := some (reallocBlock w x b' v.esz c).2.1 }
      (reallocBlock w x b' v.esz c).2.2 := by
  have := h.al
  rw [ha] at this
  subst this
  obtain ⟨h1, h2, hcap, es, h3, b, hb, h5⟩ := h
  rw [hb'] at hb
  cases hb
  refine ⟨h1, h2, fun _ => hc, ?_⟩
  unfold reallocBlock
  simp only
  split
  · refine ⟨es ++ [.refused x], by simp [World.log, h3], b'.id, rfl, ?_⟩
    rw [requests_append, h5]; rfl
  · refine ⟨es ++ [.realloc x b'.id w.nextBlk v.esz c], by simp [World.log, h3], w.nextBlk, rfl, ?_⟩
    rw [requests_append, h5, h2]
    show (if _ then _ else _) = _
    rw [if_pos ⟨rfl, he, hc⟩]

theorem Tends.orderly {pre : List (Event α)} {a : Option Nat} {e : Nat} {o : VS α} {v : Vec α} {w : World α}
    (ht : Tends o v w) (he : e ≠ 0) (h : Orderly pre a e o.v o.w) : Orderly pre a e v w := by
  induction ht with
  | start => exact h
  | frame _ f ih => exact ih.frame f
  | destroyed _ x ih => exact ih.destroyed x
  | realloc _ ha hc hb ih => exact ih.realloc he ha hc hb

theorem Grown.orderly {w w' : World α} {al : Option Nat} {e : Nat} {v : Vec α} (h : Grown w al e v w') :
    e ≠ 0 ∧ Orderly w.trace al e v w' := by
  obtain ⟨o, h1, h2⟩ := h
  refine ⟨h1.ne, h2.orderly h1.ne ⟨h1.al, h1.esz, fun _ => h1.cap, ?_⟩⟩
  have h3 := h1.ok
  cases al with
  | none => exact ⟨[], by rw [show o.w = w from h3]; simp, by simp⟩
  | some a =>
    obtain ⟨g1, _, g3⟩ := h3
    refine ⟨_, g3, _, g1, ?_⟩
    show (if _ then _ else _) = _
    rw [if_pos ⟨h1.ne, h1.cap⟩]

theorem Made.orderly {w : World α} {s : VS α} (h : Made w s) :
    ∃ a e, e ≠ 0 ∧ Orderly w.trace a e s.v s.w := by
  obtain ⟨a, e, h⟩ := h.grown
  exact ⟨a, e, h.orderly⟩

theorem LaterVec.orderly {pre : List (Event α)} {a : Option Nat} {e : Nat} (he : e ≠ 0) {s u : VS α}
    (hl : LaterVec s u) (h : Orderly pre a e s.v s.w) : Orderly pre a e u.v u.w :=
  (hl.tends .start).orderly he h

theorem vecEmplaceEx_orderly {pre : List (Event α)} {a : Option Nat} {e : Nat} {s : VS α} (he : e ≠ 0)
    (h : Orderly pre a e s.v s.w) (i : Nat) (c : Ctor α) :
    Ensures (vecEmplaceEx s i c) fun r => Orderly pre a e r.2.v r.2.w :=
  (vecEmplaceEx_tends .start i c).imp fun _ hr => hr.orderly he h

theorem vecInitEx_orderly {w w' : World α} {esz cap : Nat} {dt : Bool} {al : Option Nat} {g th : Nat}
    {st : Status} {v : Vec α} (e : vecInitEx w esz cap dt al g th = (st, some v, w')) (hst : failed st = false) :
    esz ≠ 0 ∧ Orderly w.trace al esz v w' := (vecInitEx_grown e hst).orderly

theorem vecInitEx_failed {w w' : World α} {esz cap : Nat} {dt : Bool} {al : Option Nat} {g th : Nat}
    {st : Status} {o : Option (Vec α)} (e : vecInitEx w esz cap dt al g th = (st, o, w'))
    (hf : failed st = true) : ∃ es, w'.trace = w.trace ++ es ∧ requests es = some none := by
  unfold vecInitEx at e
  split at e
  · cases e; exact ⟨[], by simp, rfl⟩
  rename_i a
  split at e
  · cases e; exact ⟨[], by simp, rfl⟩
  simp only [allocate] at e
  split at e
  · cases e; exact ⟨[.refused a], by simp [World.log], rfl⟩
  · cases e
    rename_i hn
    exact absurd hf hn

/-- Destroying the vector either gives the block back or is refused. -/
theorem vecDestroy_requests {pre : List (Event α)} {a : Nat} {e : Nat} {s : VS α} (he : e ≠ 0)
    (h : Orderly pre (some a) e s.v s.w) :
    Ensures (vecDestroy s) fun r => (failed r.1 = true ∧ Orderly pre (some a) e r.2.v r.2.w) ∨
      (r.1 = stSuccess ∧ ∃ es, r.2.w.trace = pre ++ es ∧ requests es = some none) := by
  refine (runDtors_tends .start _ _).bind fun r hr => ?_
  replace hr := hr.orderly he h
  have hc := hr.cap (by simp)
  rw [hr.al]
  refine ensures_ite (fun _ => ensures_withData fun b hb => ?_) fun hz => absurd hc hz
  obtain ⟨h1, h2, hcap, es, h3, b', hb', h5⟩ := hr
  rw [hb] at hb'
  cases hb'
  unfold deallocate
  simp only
  by_cases hf : failed (r.w.oracle r.w.calls) = true
  · rw [if_pos hf]
    simp only
    rw [if_pos hf]
    refine ensures_ret (Or.inl ⟨hf, h1, h2, hcap, es ++ [.refused a], by simp [World.log, h3], b.id, by simp [hb], ?_⟩)
    rw [requests_append, h5]; rfl
  · rw [if_neg hf]
    simp only
    rw [if_neg hf]
    refine ensures_ret (Or.inr ⟨rfl, es ++ [.dealloc a b.id r.v.esz r.v.cap], by simp [World.log, h3], ?_⟩)
    rw [requests_append, h5, h2]
    show (if _ then _ else _) = _
    rw [if_pos ⟨rfl, he, hc⟩]

theorem requests_destroys : ∀ {es : List (Event α)}, (∀ e ∈ es, isDestroy e = true) → requests es = some none := by
  intro es
  unfold requests
  induction es with
  | nil => intro _; rfl
  | cons x es ih =>
    intro h
    have hx := h x List.mem_cons_self
    cases x with
    | destroy x => exact ih fun e he => h e (List.mem_cons_of_mem _ he)
    | _ => cases hx

/-- Destroying the vector: it is refused and everything stays as it is, or nothing is held afterwards. -/
theorem vecDestroy_accounted {pre : List (Event α)} {a : Option Nat} {e : Nat} {s : VS α} (he : e ≠ 0)
    (h : Orderly pre a e s.v s.w) :
    Ensures (vecDestroy s) fun r => (failed r.1 = true ∧ a ≠ none ∧ Orderly pre a e r.2.v r.2.w) ∨
      (r.1 = stSuccess ∧ ∃ es, r.2.w.trace = pre ++ es ∧ requests es = some none) := by
  cases a with
  | some a =>
    refine (vecDestroy_requests he h).imp fun r hr => ?_
    rcases hr with ⟨h1, h2⟩ | h1
    · exact Or.inl ⟨h1, by simp, h2⟩
    · exact Or.inr h1
  | none =>
    refine (runDtors_tends .start _ _).bind fun r hr => ?_
    replace hr := hr.orderly he h
    rw [hr.al]
    obtain ⟨es, h3, h4⟩ := hr.ok
    exact ensures_ret (Or.inr ⟨rfl, es, h3, requests_destroys h4⟩)

/-! ## Strings -/

section Strings

variable {pre : List (Event Byte)} {a : Option Nat} {e : Nat}

/-- The invariant for a string: that of its vector, and the flag tells whether there is an allocator. -/
structure SOrderly (pre : List (Event Byte)) (a : Option Nat) (e : Nat) (t : Str) : Prop where
  vec : Orderly pre a e t.s.v t.s.w
  fixed : t.fixed = a.isNone

theorem STends.orderly {o t : Str} (ht : STends o t) (he : e ≠ 0) (h : SOrderly pre a e o) : SOrderly pre a e t :=
  ⟨ht.vec.orderly he h.vec, ht.fixed.trans h.fixed⟩

theorem Later.orderly (he : e ≠ 0) {t u : Str} (hl : Later t u) (h : SOrderly pre a e t) : SOrderly pre a e u :=
  (hl.tends (.start t)).orderly he h

theorem MadeStr.orderly {w : World Byte} {t : Str} (h : MadeStr w t) : ∃ a, SOrderly w.trace a 1 t := by
  obtain ⟨a, h⟩ := h.grown
  exact ⟨a, h.vec.orderly.2, h.fixed⟩

theorem strDestroy_accounted {t : Str} (he : e ≠ 0) (h : SOrderly pre a e t) :
    Ensures (strDestroy t) fun r => (failed r.1 = true ∧ a ≠ none ∧ SOrderly pre a e r.2) ∨
      (r.1 = stSuccess ∧ ∃ es, r.2.s.w.trace = pre ++ es ∧ requests es = some none) := by
  refine ensures_ite (fun hf => ensures_ret ?_) fun _ => (vecDestroy_accounted he h.vec).bind fun r hr =>
    ensures_ret ?_
  · have ha : a = none := by
      have := h.fixed
      rw [hf] at this
      exact Option.isNone_iff_eq_none.1 this.symm
    subst ha
    obtain ⟨es, h3, h4⟩ := h.vec.ok
    exact Or.inr ⟨rfl, es, h3, requests_destroys h4⟩
  · rcases hr with ⟨h1, h2, h3⟩ | h1
    · exact Or.inl ⟨h1, h2, ⟨h3, h.fixed⟩⟩
    · exact Or.inr h1

end Strings

/-! ## Bitsets -/

section Bitsets

variable {pre : List (Event Byte)} {a : Option Nat} {e : Nat}

theorem LaterBits.orderly (he : e ≠ 0) {t u : Bits} (hl : LaterBits t u) (h : Orderly pre a e t.s.v t.s.w) :
    Orderly pre a e u.s.v u.s.w :=
  (hl.tends .start).orderly he h

theorem MadeBits.orderly {w : World Byte} {t : Bits} (h : MadeBits w t) :
    ∃ a, Orderly w.trace a 1 t.s.v t.s.w := by
  obtain ⟨a, h⟩ := h.grown
  exact ⟨a, h.orderly.2⟩

end Bitsets

end Zy
