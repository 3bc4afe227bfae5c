import Verif.Lemmas.Requests
import Verif.Spec.AnyAnswers

/-!
# Lemmas: programs whose allocators may refuse
-/

namespace Zy

open Spec

/-! ## Blocks in use -/

theorem blocksOf_append {α : Type} (t : List (Event α)) (e : Event α) :
    blocksOf (t ++ [e]) = (blocksOf t).bind fun h => blockStep h e := by
  unfold blocksOf
  rw [List.foldl_append]; rfl

/-- The invariant: the memory is as it should be, and later block numbers have not been used. -/
structure Neat (seats : List (Option Seat)) (w : World Byte) : Prop where
  sep : Disjoint seats w.trace
  old : ∀ {i : Nat} {p : Seat}, seats[i]? = some (some p) → p.blk < w.nextBlk

theorem Neat.trace {seats : List (Option Seat)} {w w' : World Byte} (N : Neat seats w) (ht : w'.trace = w.trace)
    (hn : w.nextBlk ≤ w'.nextBlk) : Neat seats w' :=
  ⟨ht ▸ N.sep, fun h => Nat.lt_of_lt_of_le (N.old h) hn⟩

/-- An event that does not concern the blocks. -/
theorem Neat.quiet {seats : List (Option Seat)} {w w' : World Byte} (N : Neat seats w) {e : Event Byte}
    (he : ∀ h : Blocks, blockStep h e = some h) (ht : w'.trace = w.trace ++ [e]) (hn : w.nextBlk ≤ w'.nextBlk) :
    Neat seats w' := by
  refine ⟨⟨N.sep.apart, ?_⟩, fun h => Nat.lt_of_lt_of_le (N.old h) hn⟩
  obtain ⟨h, h1, h2⟩ := N.sep.blocks
  refine ⟨h, ?_, h2⟩
  rw [ht, blocksOf_append, h1]
  exact he h

theorem put_self (h : Blocks) (b : Nat) (x : Option Owner) : h.put b x b = x := if_pos rfl

theorem put_other (h : Blocks) {b k : Nat} (x : Option Owner) (hk : k ≠ b) : h.put b x k = h k := if_neg hk

/-- The entry `i` of the list of seats. -/
theorem set_get {γ : Type} (l : List γ) (i j : Nat) (x : γ) :
    (l.set i x)[j]? = if i = j then (if i < l.length then some x else none) else l[j]? := by
  rw [List.getElem?_set]

/-- One object leaves its memory, and takes other memory (or none). -/
theorem Neat.step {seats : List (Option Seat)} {w w' : World Byte} (N : Neat seats w) {i : Nat} {old new : Option Seat}
    (hi : seats[i]? = some old) {e : Event Byte} (ht : w'.trace = w.trace ++ [e]) (hn : w.nextBlk ≤ w'.nextBlk)
    (hnew : ∀ s, new = some s → w.nextBlk ≤ s.blk ∧ s.blk < w'.nextBlk)
    (he : ∀ h : Blocks, (∀ s x, old = some s → s.own = some x → h s.blk = some x) →
      (∀ k, w.nextBlk ≤ k → h k = none) →
      ∃ h', blockStep h e = some h' ∧ ∀ k x, h' k = some x ↔
        (new = some ⟨k, some x⟩ ∨ (h k = some x ∧ old ≠ some ⟨k, some x⟩))) :
    Neat (seats.set i new) w' := by
  have hlt : i < seats.length := (List.getElem?_eq_some_iff.1 hi).1
  obtain ⟨h, h1, h2⟩ := N.sep.blocks
  have hfresh : ∀ k, w.nextBlk ≤ k → h k = none := by
    intro k hk
    cases hx : h k with
    | none => rfl
    | some x =>
      obtain ⟨j, hj⟩ := (h2 k x).1 hx
      have := N.old hj
      exact absurd this (Nat.not_lt.2 hk)
  obtain ⟨h', g1, g2⟩ := he h (fun s x hs hx => (h2 _ _).2 ⟨i, by rw [hi, hs]; obtain ⟨b, o⟩ := s; cases hx; rfl⟩) hfresh
  refine ⟨⟨?_, h', by rw [ht, blocksOf_append, h1]; exact g1, ?_⟩, ?_⟩
  · intro j k p q hj hk hpq
    rw [set_get] at hj hk
    by_cases hij : i = j
    · by_cases hik : i = k
      · exact hij.symm.trans hik
      · rw [if_pos hij, if_pos hlt] at hj
        rw [if_neg hik] at hk
        have a := (hnew p (by simpa using hj)).1
        have b := N.old hk
        omega
    · rw [if_neg hij] at hj
      by_cases hik : i = k
      · rw [if_pos hik, if_pos hlt] at hk
        have a := (hnew q (by simpa using hk)).1
        have b := N.old hj
        omega
      · rw [if_neg hik] at hk
        exact N.sep.apart hj hk hpq
  · intro k x
    rw [g2]
    constructor
    · rintro (hk | ⟨hk, hne⟩)
      · exact ⟨i, by rw [set_get, if_pos rfl, if_pos hlt, hk]⟩
      · obtain ⟨j, hj⟩ := (h2 k x).1 hk
        refine ⟨j, ?_⟩
        rw [set_get, if_neg ?_]
        · exact hj
        · rintro rfl
          rw [hi] at hj
          exact hne (by simpa using hj)
    · rintro ⟨j, hj⟩
      rw [set_get] at hj
      by_cases hij : i = j
      · rw [if_pos hij, if_pos hlt] at hj
        exact Or.inl (by simpa using hj)
      · rw [if_neg hij] at hj
        refine Or.inr ⟨(h2 k x).2 ⟨j, hj⟩, ?_⟩
        rintro rfl
        exact hij (N.sep.apart hi hj rfl)
  · intro j p hj
    rw [set_get] at hj
    by_cases hij : i = j
    · rw [if_pos hij, if_pos hlt] at hj
      exact (hnew p (by simpa using hj)).2
    · rw [if_neg hij] at hj
      exact Nat.lt_of_lt_of_le (N.old hj) hn

theorem Neat.none {seats : List (Option Seat)} {w : World Byte} (N : Neat seats w) : Neat (seats ++ [none]) w := by
  have hget : ∀ {j : Nat} {p : Seat}, (seats ++ [Option.none])[j]? = some (some p) ↔ seats[j]? = some (some p) := by
    intro j p
    rw [List.getElem?_append]
    split
    · exact Iff.rfl
    · rename_i h
      rw [List.getElem?_eq_none (Nat.le_of_not_lt h)]
      constructor
      · intro h'
        cases hj : j - seats.length with
        | zero => rw [hj] at h'; cases h'
        | succ n => rw [hj] at h'; cases h'
      · intro h'; cases h'
  refine ⟨⟨fun hi hj => N.sep.apart (hget.1 hi) (hget.1 hj), ?_⟩, fun h => N.old (hget.1 h)⟩
  obtain ⟨h, h1, h2⟩ := N.sep.blocks
  refine ⟨h, h1, fun k x => (h2 k x).trans ?_⟩
  constructor
  · rintro ⟨i, hi⟩; exact ⟨i, hget.2 hi⟩
  · rintro ⟨i, hi⟩; exact ⟨i, hget.1 hi⟩

/-- One object leaves memory of the program. -/
theorem Neat.drop {seats : List (Option Seat)} {w : World Byte} (N : Neat seats w) {i : Nat} {old : Option Seat}
    (hi : seats[i]? = some old) (ho : ∀ s, old = some s → s.own = Option.none) : Neat (seats.set i Option.none) w := by
  have hlt : i < seats.length := (List.getElem?_eq_some_iff.1 hi).1
  have hget : ∀ {j : Nat} {p : Seat}, (seats.set i Option.none)[j]? = some (some p) → seats[j]? = some (some p) := by
    intro j p h
    rw [set_get] at h
    split at h
    · cases h
    · exact h
  refine ⟨⟨fun hi hj => N.sep.apart (hget hi) (hget hj), ?_⟩, fun h => N.old (hget h)⟩
  obtain ⟨h, h1, h2⟩ := N.sep.blocks
  refine ⟨h, h1, fun k x => (h2 k x).trans ?_⟩
  constructor
  · rintro ⟨j, hj⟩
    refine ⟨j, ?_⟩
    rw [set_get, if_neg ?_]
    · exact hj
    · rintro rfl
      rw [hi] at hj
      cases hj
      have := ho _ rfl
      cases this
  · rintro ⟨j, hj⟩; exact ⟨j, hget hj⟩

/-- Memory of the program for a new object. -/
theorem Neat.aside {seats : List (Option Seat)} {w : World Byte} (N : Neat seats w) :
    Neat (seats ++ [some ⟨w.nextBlk, Option.none⟩]) w.aside := by
  have hget : ∀ {j : Nat} {p : Seat}, (seats ++ [some ⟨w.nextBlk, Option.none⟩])[j]? = some (some p) →
      seats[j]? = some (some p) ∨ j = seats.length ∧ p = ⟨w.nextBlk, Option.none⟩ := by
    intro j p h
    rw [List.getElem?_append] at h
    split at h
    · exact Or.inl h
    · rename_i hl
      cases hj : j - seats.length with
      | zero => rw [hj] at h; cases h; exact Or.inr ⟨by omega, rfl⟩
      | succ n => rw [hj] at h; cases h
  refine ⟨⟨?_, ?_⟩, ?_⟩
  · intro i j p q hi hj hpq
    rcases hget hi with hi | ⟨ei, rfl⟩ <;> rcases hget hj with hj | ⟨ej, rfl⟩
    · exact N.sep.apart hi hj hpq
    · have := N.old hi; simp only at hpq; omega
    · have := N.old hj; simp only at hpq; omega
    · exact ei.trans ej.symm
  · obtain ⟨h, h1, h2⟩ := N.sep.blocks
    refine ⟨h, h1, fun k x => (h2 k x).trans ?_⟩
    constructor
    · rintro ⟨i, hi⟩
      refine ⟨i, ?_⟩
      rw [List.getElem?_append_left (List.getElem?_eq_some_iff.1 hi).1]
      exact hi
    · rintro ⟨i, hi⟩
      rcases hget hi with hi | ⟨_, hi⟩
      · exact ⟨i, hi⟩
      · cases hi
  · intro i p hi
    show p.blk < w.nextBlk + 1
    rcases hget hi with hi | ⟨_, rfl⟩
    · exact Nat.lt_succ_of_lt (N.old hi)
    · exact Nat.lt_succ_self _

/-! ## Steps of one object -/

theorem Frame.seat {v v' : Vec Byte} (f : Frame v v') : seatOf v' = seatOf v := by
  unfold seatOf
  have h := f.data
  rw [f.al, f.esz]
  cases hd : v.data <;> cases hd' : v'.data <;> rw [hd, hd'] at h <;> simp at h ⊢
  exact h

/-- What is needed of an object. -/
structure Tidy (v : Vec Byte) : Prop where
  esz : v.esz ≠ 0
  cap : v.allocator ≠ none → v.cap ≠ 0

theorem Tends.sound {o : VS Byte} {v : Vec Byte} {w : World Byte} (h : Tends o v w) (S : Tidy o.v) : Tidy v := by
  induction h with
  | start => exact S
  | frame _ f ih => exact ⟨f.esz ▸ ih.esz, fun h => by rw [f.cap]; exact ih.cap (f.al ▸ h)⟩
  | destroyed _ _ ih => exact ih
  | realloc _ _ hc _ ih => exact ⟨ih.esz, fun _ => hc⟩

theorem set_same_obj {γ : Type} {l : List γ} {i : Nat} {x : γ} (h : l[i]? = some x) : l.set i x = l := by
  apply List.ext_getElem?
  intro j
  rw [set_get]
  split
  · rename_i hij
    subst hij
    rw [if_pos (List.getElem?_eq_some_iff.1 h).1, h]
  · rfl

theorem Tends.neat {o : VS Byte} {v : Vec Byte} {w : World Byte} (h : Tends o v w) (S : Tidy o.v)
    {seats : List (Option Seat)} {i : Nat} (hi : seats[i]? = some (seatOf o.v)) (N : Neat seats o.w) :
    Neat (seats.set i (seatOf v)) w := by
  have hlt := (List.getElem?_eq_some_iff.1 hi).1
  induction h with
  | start => rw [set_same_obj hi]; exact N
  | frame _ f ih => rw [f.seat]; exact ih
  | destroyed _ x ih => exact ih.quiet (e := .destroy x) (fun _ => rfl) rfl (Nat.le_refl _)
  | @realloc v w a c b h' ha hc hb ih =>
    have So := h'.sound S
    by_cases hf : failed (w.oracle w.calls) = true
    · have e1 : (reallocBlock w a b v.esz c) = (w.oracle w.calls, b, { w with calls := w.calls + 1 }.log (.refused a)) := by
        unfold reallocBlock; exact if_pos hf
      rw [e1]
      have e2 : seatOf { v with cap := c, data := some b } = seatOf v := by unfold seatOf; rw [hb]
      rw [e2]
      exact ih.quiet (e := .refused a) (fun _ => rfl) rfl (Nat.le_refl _)
    · have e1 : ∃ cs, reallocBlock w a b v.esz c = (w.oracle w.calls, ⟨w.nextBlk, cs⟩,
          { w with calls := w.calls + 1, nextBlk := w.nextBlk + 1 }.log (.realloc a b.id w.nextBlk v.esz c)) :=
        ⟨_, if_neg hf⟩
      obtain ⟨cs, e1⟩ := e1
      rw [e1]
      have e2 : seatOf v = some ⟨b.id, some ⟨a, v.esz⟩⟩ := by unfold seatOf; rw [hb, ha]; rfl
      have e3 : seatOf { v with cap := c, data := some ⟨w.nextBlk, cs⟩ } = some ⟨w.nextBlk, some ⟨a, v.esz⟩⟩ := by
        unfold seatOf; simp only [ha]; rfl
      rw [e3]
      have hi' : (seats.set i (seatOf v))[i]? = some (some ⟨b.id, some ⟨a, v.esz⟩⟩) := by
        rw [set_get, if_pos rfl, if_pos hlt, e2]
      have hold := ih.old hi'
      have := ih.step hi' (new := some ⟨w.nextBlk, some ⟨a, v.esz⟩⟩)
        (w' := { w with calls := w.calls + 1, nextBlk := w.nextBlk + 1 }.log (.realloc a b.id w.nextBlk v.esz c))
        rfl (Nat.le_succ _) (by
          intro s hs; cases hs; exact ⟨Nat.le_refl _, Nat.lt_succ_self _⟩) (by
          intro H hH hfr
          have hb1 := hH _ _ rfl rfl
          refine ⟨_, if_pos ⟨So.esz, hc, hb1, hfr _ (Nat.le_refl _)⟩, fun k x => ?_⟩
          by_cases hk : k = w.nextBlk
          · subst hk
            rw [put_self]
            constructor
            · intro e; cases e; exact Or.inl rfl
            · rintro (e | ⟨e, _⟩)
              · cases e; rfl
              · rw [hfr _ (Nat.le_refl _)] at e; cases e
          · rw [put_other _ _ hk]
            by_cases hk' : k = b.id
            · subst hk'
              rw [put_self]
              constructor
              · intro e; cases e
              · rintro (e | ⟨e, e'⟩)
                · simp only [Option.some.injEq, Seat.mk.injEq] at e; exact absurd e.1.symm hk
                · simp only at hb1
                  rw [hb1] at e; cases e; exact absurd rfl e'
            · rw [put_other _ _ hk']
              constructor
              · intro e
                refine Or.inr ⟨e, ?_⟩
                intro e'
                simp only [Option.some.injEq, Seat.mk.injEq] at e'
                exact hk' e'.1.symm
              · rintro (e | ⟨e, _⟩)
                · simp only [Option.some.injEq, Seat.mk.injEq] at e; exact absurd e.1.symm hk
                · exact e)
      rwa [List.set_set] at this

/-! ## Constructors -/

theorem Tends.al {o : VS Byte} {v : Vec Byte} {w : World Byte} (h : Tends o v w) : v.allocator = o.v.allocator := by
  induction h with
  | start => rfl
  | frame _ f ih => exact f.al.trans ih
  | destroyed _ _ ih => exact ih
  | realloc _ _ _ _ ih => exact ih

theorem Tends.stays {o : VS Byte} {v : Vec Byte} {w : World Byte} (h : Tends o v w) (ha : o.v.allocator = none) :
    seatOf v = seatOf o.v := by
  induction h with
  | start => rfl
  | frame _ f ih => rw [f.seat]; exact ih
  | destroyed _ _ ih => exact ih
  | realloc h' ha' _ _ _ => rw [h'.al, ha] at ha'; cases ha'

theorem Sprout.sound {w : World Byte} {al : Option Nat} {e : Nat} {o : VS Byte} (h : Sprout w al e o) : Tidy o.v :=
  ⟨h.esz ▸ h.ne, fun _ => h.cap⟩

theorem Grown.sound {w w' : World Byte} {al : Option Nat} {e : Nat} {v : Vec Byte} (h : Grown w al e v w') : Tidy v := by
  obtain ⟨o, h1, h2⟩ := h
  exact h2.sound h1.sound

theorem Grown.al {w w' : World Byte} {al : Option Nat} {e : Nat} {v : Vec Byte} (h : Grown w al e v w') :
    v.allocator = al := by
  obtain ⟨o, h1, h2⟩ := h
  exact h2.al.trans h1.al

theorem last_get {γ : Type} (l : List γ) (x : γ) : (l ++ [x])[l.length]? = some x := by
  rw [List.getElem?_append_right (Nat.le_refl _), Nat.sub_self]; rfl

theorem last_set {γ : Type} (l : List γ) (x y : γ) : (l ++ [x]).set l.length y = l ++ [y] := by
  rw [List.set_append_right _ _ (Nat.le_refl _), Nat.sub_self]; rfl

theorem Grown.neat {w w' : World Byte} {al : Option Nat} {e : Nat} {v : Vec Byte} (h : Grown w al e v w')
    (ha : v.allocator ≠ none) {seats : List (Option Seat)} (N : Neat seats w) : Neat (seats ++ [seatOf v]) w' := by
  obtain ⟨o, h1, h2⟩ := h
  rw [h2.al, h1.al] at ha
  cases al with
  | none => exact absurd rfl ha
  | some a =>
  have So := h1.sound
  obtain ⟨g1, g2, g3⟩ := h1.ok
  have e1 : seatOf o.v = some ⟨w.nextBlk, some ⟨a, e⟩⟩ := by
    unfold seatOf
    cases hd : o.v.data with
    | none => rw [hd] at g1; cases g1
    | some b =>
      rw [hd] at g1
      simp only [Option.map_some, Option.some.injEq] at g1
      rw [h1.al, h1.esz]
      simp only [Option.map_some, g1]
  have N1 : Neat (seats ++ [seatOf o.v]) o.w := by
    have := N.none.step (last_get seats none) (new := some ⟨w.nextBlk, some ⟨a, e⟩⟩) (w' := o.w) g3 (by omega) (by
      intro s hs; cases hs; exact ⟨Nat.le_refl _, by simp only; omega⟩) (by
      intro H _ hfr
      refine ⟨_, if_pos ⟨h1.ne, h1.cap, hfr _ (Nat.le_refl _)⟩, fun k x => ?_⟩
      by_cases hk : k = w.nextBlk
      · subst hk
        rw [put_self]
        constructor
        · intro e; cases e; exact Or.inl rfl
        · rintro (e | ⟨e, _⟩)
          · cases e; rfl
          · rw [hfr _ (Nat.le_refl _)] at e; cases e
      · rw [put_other _ _ hk]
        constructor
        · intro e
          exact Or.inr ⟨e, by intro e'; cases e'⟩
        · rintro (e | ⟨e, _⟩)
          · simp only [Option.some.injEq, Seat.mk.injEq] at e; exact absurd e.1.symm hk
          · exact e)
    rw [last_set] at this
    rw [e1]
    exact this
  have := h2.neat So (last_get _ _) N1
  rwa [last_set] at this

theorem Grown.neatOn {w w' : World Byte} {al : Option Nat} {e : Nat} {v : Vec Byte} (h : Grown w.aside al e v w')
    (ha : v.allocator = none) (hb : v.data.map Block.id = some w.nextBlk) {seats : List (Option Seat)}
    (N : Neat seats w) : Neat (seats ++ [seatOf v]) w' := by
  obtain ⟨o, h1, h2⟩ := h
  have hal := h2.al.symm.trans ha
  have e1 : seatOf o.v = some ⟨w.nextBlk, none⟩ := by
    rw [← h2.stays hal]
    unfold seatOf
    cases hd : v.data with
    | none => rw [hd] at hb; cases hb
    | some b =>
      rw [hd] at hb
      simp only [Option.map_some, Option.some.injEq] at hb
      rw [ha]
      simp only [Option.map_some, Option.map_none, hb]
  have hw : o.w = w.aside := by
    have h3 := h1.ok
    have : al = none := h1.al.symm.trans hal
    subst this
    exact h3
  have N1 : Neat (seats ++ [seatOf o.v]) o.w := by rw [e1, hw]; exact N.aside
  have := h2.neat h1.sound (last_get _ _) N1
  rwa [last_set] at this

/-! ## Constructors that fail -/

/-- Nothing is left behind. -/
def Leaves (w : World Byte) (st : Status) (w' : World Byte) : Prop :=
  failed st = true → ∀ seats, Neat seats w → Neat seats w'

theorem leaves_refl (w : World Byte) (st : Status) : Leaves w st w := fun _ _ N => N

theorem leaves_success (w w' : World Byte) : Leaves w stSuccess w' := fun h => absurd h (by decide)

theorem vecInitEx_leaves {w w' : World Byte} {esz cap : Nat} {dt : Bool} {al : Option Nat} {g th : Nat}
    {st : Status} {o : Option (Vec Byte)} (e : vecInitEx w esz cap dt al g th = (st, o, w')) : Leaves w st w' := by
  intro hf seats N
  unfold vecInitEx at e
  split at e
  · cases e; exact N
  rename_i a
  split at e
  · cases e; exact N
  simp only [allocate] at e
  split at e
  · cases e; exact N.quiet (e := .refused a) (fun _ => rfl) rfl (Nat.le_refl _)
  · cases e
    rename_i hn
    exact absurd hf hn

theorem vecDuplicateEx_leaves (w : World Byte) (src : Vec Byte) (cap : Nat) (al : Option Nat) (g th : Nat) :
    Ensures (vecDuplicateEx w src cap al g th) fun r => Leaves w r.1 r.2.2 := by
  unfold vecDuplicateEx
  generalize hR : vecInitEx w src.esz (max cap src.size) src.hasDtor al g th = R
  obtain ⟨st, o, w'⟩ := R
  simp only
  refine ensures_ite (fun _ => ensures_ret (vecInitEx_leaves hR)) fun _ => ?_
  split
  · exact ensures_ret (vecInitEx_leaves hR)
  · exact (ensures_any _).bind fun _ _ => ensures_ret (leaves_success _ _)

theorem strInitEx_leaves (w : World Byte) (cap : Nat) (al : Option Nat) (g th : Nat) :
    Ensures (strInitEx w cap al g th) fun r => Leaves w r.1 r.2.2 := by
  unfold strInitEx
  generalize hR : vecInitEx w 1 (add64 (max 32 cap) 1) false al g th = R
  obtain ⟨st, o, w'⟩ := R
  simp only
  refine ensures_ite (fun _ => ensures_ret (vecInitEx_leaves hR)) fun _ => ?_
  split
  · exact ensures_ret (vecInitEx_leaves hR)
  · exact (ensures_any _).bind fun _ _ => ensures_ret (leaves_success _ _)

theorem strDuplicateEx_leaves (w : World Byte) (x : View) (cap : Nat) (al : Option Nat) (g th : Nat) :
    Ensures (strDuplicateEx w x cap al g th) fun r => Leaves w r.1 r.2.2 := by
  refine ensures_ite (fun _ => ensures_ret (leaves_refl _ _)) fun _ => (strInitEx_leaves _ _ _ _ _).bind fun r hr =>
    ensures_ite (fun _ => ensures_ret hr) fun _ => ?_
  split
  · exact ensures_ret hr
  · exact (ensures_any _).bind fun _ _ => ensures_ret (leaves_success _ _)

theorem strConcatEx_leaves (w : World Byte) (x y : View) (cap : Nat) (al : Option Nat) (g th : Nat) :
    Ensures (strConcatEx w x y cap al g th) fun r => Leaves w r.1 r.2.2 := by
  refine ensures_ite (fun _ => ensures_ret (leaves_refl _ _)) fun _ => (strInitEx_leaves _ _ _ _ _).bind fun r hr =>
    ensures_ite (fun _ => ensures_ret hr) fun _ => ?_
  split
  · exact ensures_ret hr
  · exact (ensures_any _).bind fun _ _ => ensures_ret (leaves_success _ _)

/-- The bytes of a new bitset fit into the memory that was asked for. -/
theorem bsInitElements_fits : ∀ (n : Nat) {s : VS Byte}, s.v.size + n ≤ s.v.cap →
    Ensures (bsInitElements s n) fun r => r.1 = stSuccess
  | 0, _, _ => ensures_ret rfl
  | n + 1, s, h => by
    refine Ensures.bind (Q := fun r : Status × VS Byte => failed r.1 = false ∧ r.2.v.size ≤ s.v.size + 1 ∧
      r.2.v.cap = s.v.cap) ?_ fun r hr => ensures_ite (fun hf => ?_) fun _ =>
        bsInitElements_fits n (by rw [hr.2.2]; have := hr.2.1; omega)
    · have hle : add64 s.v.size 1 ≤ s.v.size + 1 := Nat.mod_le _ _
      have hg : growFor s (add64 s.v.size 1) = .ret (stSuccess, s) := by
        unfold growFor
        refine if_neg ?_
        unfold shouldGrow
        simp only [decide_eq_true_eq]
        omega
      unfold vecPushBack
      rw [hg]
      refine ensures_ite (fun hn => absurd hn (by simp [Src.isNull])) fun _ => ?_
      simp only [Out.ret_bind']
      exact ensures_ite (fun hf => absurd hf (by decide)) fun _ => ensures_withData fun _ _ =>
        (ensures_any _).bind fun _ _ => ensures_ret ⟨failed_success, hle, rfl⟩
    · rw [hr.1] at hf; cases hf

theorem vecInitEx_room {w w' : World Byte} {esz cap : Nat} {dt : Bool} {al : Option Nat} {g th : Nat}
    {st : Status} {v : Vec Byte} (e : vecInitEx w esz cap dt al g th = (st, some v, w')) : v.size + cap ≤ v.cap := by
  unfold vecInitEx at e
  split at e
  · cases e
  split at e
  · cases e
  · cases e
    simp only
    omega

theorem bsInitEx_leaves (w : World Byte) (count : Nat) (al : Option Nat) (g th : Nat) :
    Ensures (bsInitEx w count al g th) fun r => Leaves w r.1 r.2.2 := by
  unfold bsInitEx
  simp only
  generalize hR : vecInitEx w 1 (bitsToBytes count) false al g th = R
  obtain ⟨st, o, w'⟩ := R
  simp only
  refine ensures_ite (fun _ => ensures_ret (vecInitEx_leaves hR)) fun _ => ?_
  split
  · exact ensures_ret (vecInitEx_leaves hR)
  · rename_i v
    refine (bsInitElements_fits _ (s := ⟨v, w'⟩) (vecInitEx_room hR)).bind fun q hq =>
      ensures_ite (fun hf => ?_) fun _ => ensures_ret (leaves_success _ _)
    rw [hq] at hf; cases hf

/-! ## Destructors -/

theorem vecDestroy_neat {s : VS Byte} (S : Tidy s.v) {seats : List (Option Seat)} {i : Nat}
    (hi : seats[i]? = some (seatOf s.v)) (N : Neat seats s.w) :
    Ensures (vecDestroy s) fun r => (failed r.1 = true ∧ Neat (seats.set i (seatOf r.2.v)) r.2.w ∧ Tidy r.2.v ∧
        r.2.v.allocator = s.v.allocator ∨
      failed r.1 = false ∧ Neat (seats.set i none) r.2.w) := by
  refine (runDtors_tends .start _ _).bind fun r hr => ?_
  have So := hr.sound S
  have N1 := hr.neat S hi N
  have hlt := (List.getElem?_eq_some_iff.1 hi).1
  have hi1 : (seats.set i (seatOf r.v))[i]? = some (seatOf r.v) := by rw [set_get, if_pos rfl, if_pos hlt]
  split
  · rename_i a ha
    refine ensures_ite (fun hz => ensures_withData fun b hb => ?_) fun hz =>
      absurd (So.cap (by rw [ha]; simp)) hz
    unfold deallocate
    simp only
    by_cases hf : failed (r.w.oracle r.w.calls) = true
    · rw [if_pos hf]
      simp only
      rw [if_pos hf]
      exact ensures_ret (Or.inl ⟨hf, N1.quiet (e := .refused a) (fun _ => rfl) rfl (Nat.le_refl _), So, hr.al⟩)
    · rw [if_neg hf]
      simp only
      rw [if_neg hf]
      refine ensures_ret (Or.inr ⟨failed_success, ?_⟩)
      have e1 : seatOf r.v = some ⟨b.id, some ⟨a, r.v.esz⟩⟩ := by unfold seatOf; rw [hb, ha]; rfl
      have := N1.step (hi1.trans (by rw [e1])) (new := none)
        (w' := { r.w with calls := r.w.calls + 1 }.log (.dealloc a b.id r.v.esz r.v.cap)) rfl (Nat.le_refl _)
        (by intro s hs; cases hs) (by
          intro H hH hfr
          have hb1 := hH _ _ rfl rfl
          refine ⟨_, if_pos ⟨So.esz, hz, hb1⟩, fun k x => ?_⟩
          by_cases hk' : k = b.id
          · subst hk'
            rw [put_self]
            constructor
            · intro e; cases e
            · rintro (e | ⟨e, e'⟩)
              · cases e
              · simp only at hb1
                rw [hb1] at e; cases e; exact absurd rfl e'
          · rw [put_other _ _ hk']
            constructor
            · intro e
              refine Or.inr ⟨e, ?_⟩
              intro e'
              simp only [Option.some.injEq, Seat.mk.injEq] at e'
              exact hk' e'.1.symm
            · rintro (e | ⟨e, _⟩)
              · cases e
              · exact e)
      rwa [List.set_set] at this
  · rename_i ha
    refine ensures_ret (Or.inr ⟨failed_success, ?_⟩)
    have := N1.drop hi1 (by
      intro x hx
      unfold seatOf at hx
      rw [ha] at hx
      cases hd : r.v.data with
      | none => rw [hd] at hx; cases hx
      | some b => rw [hd] at hx; cases hx; rfl)
    rwa [List.set_set] at this

/-! ## Programs -/

/-- What is needed of an object of a program. -/
structure OSound (o : Obj) : Prop where
  sound : Tidy o.store
  fixed : ∀ v fx, o = .str v fx → fx = v.allocator.isNone

/-- The invariant of programs. -/
structure ProgInv (p : Desk) : Prop where
  neat : Neat p.seats p.w
  objs : ∀ {i : Nat} {o : Obj}, p.objs[i]? = some (some o) → OSound o

theorem seats_get {p : Desk} {i : Nat} {o : Obj} (h : p.objs[i]? = some (some o)) :
    p.seats[i]? = some (seatOf o.store) := by
  unfold Desk.seats
  rw [List.getElem?_map, h]; rfl

theorem seats_set (l : List (Option Obj)) (w : World Byte) (i : Nat) (o : Option Obj) :
    Desk.seats ⟨l.set i o, w⟩ = (Desk.seats ⟨l, w⟩).set i (o.bind fun o => seatOf o.store) := by
  unfold Desk.seats
  rw [List.map_set]

theorem seats_add (l : List (Option Obj)) (w : World Byte) (o : Obj) :
    Desk.seats ⟨l ++ [some o], w⟩ = Desk.seats ⟨l, w⟩ ++ [seatOf o.store] := by
  unfold Desk.seats
  rw [List.map_append]; rfl

theorem ProgInv.add {p : Desk} (I : ProgInv p) {o : Obj} {w : World Byte} (S : OSound o)
    (N : Neat (p.seats ++ [seatOf o.store]) w) : ProgInv ⟨p.objs ++ [some o], w⟩ := by
  refine ⟨?_, ?_⟩
  · rw [seats_add]; exact N
  · intro i o' hi
    simp only at hi
    rw [List.getElem?_append] at hi
    split at hi
    · exact I.objs hi
    · cases hj : i - p.objs.length with
      | zero => rw [hj] at hi; cases hi; exact S
      | succ n => rw [hj] at hi; cases hi

theorem ProgInv.put {p : Desk} (I : ProgInv p) {i : Nat} {o : Option Obj} {w : World Byte} (S : ∀ x, o = some x → OSound x)
    (N : Neat (p.seats.set i (o.bind fun o => seatOf o.store)) w) : ProgInv ⟨p.objs.set i o, w⟩ := by
  refine ⟨?_, ?_⟩
  · rw [seats_set]; exact N
  · intro j o' hj
    simp only at hj
    rw [set_get] at hj
    split at hj
    · split at hj
      · cases hj; exact S _ rfl
      · cases hj
    · exact I.objs hj

theorem ProgInv.leaves {p : Desk} (I : ProgInv p) {st : Status} {w : World Byte} (h : Leaves p.w st w) (hf : failed st = true) :
    ProgInv ⟨p.objs, w⟩ := ⟨h hf _ I.neat, I.objs⟩

/-- After the destructor. -/
theorem ProgInv.ended {p : Desk} (I : ProgInv p) {i : Nat} {st : Status} {o : Obj} {w : World Byte}
    (h : failed st = true ∧ Neat (p.seats.set i (seatOf o.store)) w ∧ OSound o ∨
      failed st = false ∧ Neat (p.seats.set i none) w) : ProgInv ⟨p.objs.set i (remains st o), w⟩ := by
  unfold remains
  rcases h with ⟨h1, h2, h3⟩ | ⟨h1, h2⟩
  · rw [if_pos h1]
    exact I.put (fun x hx => by cases hx; exact h3) h2
  · rw [if_neg (by rw [h1]; simp)]
    exact I.put (fun x hx => by cases hx) h2

theorem Happens.keeps {p q : Desk} (h : Happens p q) (I : ProgInv p) : ProgInv q := by
  cases h with
  | newVec h ha =>
    obtain ⟨a, e, g⟩ := h.grown
    exact I.add ⟨g.sound, fun _ _ e => by cases e⟩ (g.neat ha I.neat)
  | newVecOn h ha hb =>
    obtain ⟨a, e, g⟩ := h.grown
    exact I.add ⟨g.sound, fun _ _ e => by cases e⟩ (g.neatOn ha hb I.neat)
  | newStr h ha =>
    obtain ⟨a, g⟩ := h.grown
    exact I.add ⟨g.vec.sound, fun _ _ e => by cases e; rw [g.fixed, g.vec.al]⟩ (g.vec.neat ha I.neat)
  | newStrOn h ha hb =>
    obtain ⟨a, g⟩ := h.grown
    exact I.add ⟨g.vec.sound, fun _ _ e => by cases e; rw [g.fixed, g.vec.al]⟩ (g.vec.neatOn ha hb I.neat)
  | newBits h ha =>
    obtain ⟨a, g⟩ := h.grown
    exact I.add ⟨g.sound, fun _ _ e => by cases e⟩ (g.neat ha I.neat)
  | newBitsOn h ha hb =>
    obtain ⟨a, g⟩ := h.grown
    exact I.add ⟨g.sound, fun _ _ e => by cases e⟩ (g.neatOn ha hb I.neat)
  | noVec h hst => exact I.leaves (vecInitEx_leaves h) hst
  | noCopy h hst => exact I.leaves (vecDuplicateEx_leaves _ _ _ _ _ _ _ h) hst
  | noStr h hst => exact I.leaves (strInitEx_leaves _ _ _ _ _ _ h) hst
  | noStrCopy h hst => exact I.leaves (strDuplicateEx_leaves _ _ _ _ _ _ _ h) hst
  | noStrConcat h hst => exact I.leaves (strConcatEx_leaves _ _ _ _ _ _ _ _ h) hst
  | noBits h hst => exact I.leaves (bsInitEx_leaves _ _ _ _ _ _ h) hst
  | vec hi h =>
    have T := h.tends .start
    have So := (I.objs hi).sound
    exact I.put (fun x hx => by cases hx; exact ⟨T.sound So, fun _ _ e => by cases e⟩) (T.neat So (seats_get hi) I.neat)
  | str hi h =>
    have T := h.tends (.start _)
    have So := I.objs hi
    refine I.put (fun x hx => ?_) (T.vec.neat So.sound (seats_get hi) I.neat)
    cases hx
    refine ⟨T.vec.sound So.sound, fun _ _ e => ?_⟩
    cases e
    rw [T.fixed, T.vec.al]
    exact So.fixed _ _ rfl
  | bits hi h =>
    have T := h.tends .start
    have So := (I.objs hi).sound
    exact I.put (fun x hx => by cases hx; exact ⟨T.sound So, fun _ _ e => by cases e⟩) (T.neat So (seats_get hi) I.neat)
  | vecEnd hi h =>
    refine I.ended ?_
    rcases vecDestroy_neat (s := ⟨_, p.w⟩) (I.objs hi).sound (seats_get hi) I.neat _ h with ⟨h1, h2, h3, _⟩ | h1
    · exact Or.inl ⟨h1, h2, h3, fun _ _ e => by cases e⟩
    · exact Or.inr h1
  | @strEnd i v fx st t hi h =>
    have So := I.objs hi
    have hfx := So.fixed _ _ rfl
    refine I.ended ?_
    unfold strDestroy at h
    split at h
    · rename_i hf
      cases h
      refine Or.inr ⟨failed_success, I.neat.drop (seats_get hi) ?_⟩
      intro x hx
      simp only at hf
      rw [hf] at hfx
      have hal : v.allocator = none := by simpa using hfx.symm
      unfold seatOf at hx
      simp only [Obj.store] at hx
      rw [hal] at hx
      cases hd : v.data with
      | none => rw [hd] at hx; cases hx
      | some b => rw [hd] at hx; cases hx; rfl
    · obtain ⟨r, e1, e2⟩ := bind_ret h
      cases e2
      rcases vecDestroy_neat (s := ⟨_, p.w⟩) So.sound (seats_get hi) I.neat _ e1 with ⟨h1, h2, h3, h4⟩ | h1
      · exact Or.inl ⟨h1, h2, h3, fun _ _ e => by cases e; rw [h4]; exact hfx⟩
      · exact Or.inr h1
  | bitsEnd hi h =>
    refine I.ended ?_
    obtain ⟨r, e1, e2⟩ := bind_ret h
    cases e2
    rcases vecDestroy_neat (s := ⟨_, p.w⟩) (I.objs hi).sound (seats_get hi) I.neat _ e1 with ⟨h1, h2, h3, _⟩ | h1
    · exact Or.inl ⟨h1, h2, h3, fun _ _ e => by cases e⟩
    · exact Or.inr h1

theorem Program.inv {w : World Byte} (hw : w.trace = []) {p : Desk} (h : Program w p) : ProgInv p := by
  induction h with
  | start =>
    refine ⟨⟨⟨?_, .empty, ?_, ?_⟩, ?_⟩, ?_⟩
    · intro i j p q hi; cases hi
    · rw [hw]; rfl
    · intro k x
      constructor
      · intro e; cases e
      · rintro ⟨i, hi⟩; cases hi
    · intro i p hi; cases hi
    · intro i o hi; cases hi
  | next _ h ih => exact h.keeps ih

end Zy
