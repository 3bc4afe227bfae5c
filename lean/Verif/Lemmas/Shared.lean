import Verif.Lemmas.Stays
import Verif.Lemmas.VectorReach
import Verif.Spec.Together

/-!
# Lemmas: containers that share allocators
-/

namespace Zy

open Spec Located

variable {α β : Type}

/-! ## One container in the world of all -/

/-- The world without its past. -/
def base (w : World α) : World α :=
  { oracle := fun n => w.oracle (n + w.calls), calls := 0, nextBlk := w.nextBlk, trace := [] }

/-- The past of a world. -/
def past (w : World α) : World α → World α := place ((List.range w.calls).map w.oracle) w.trace

theorem past_base (w : World α) : past w (base w) = w := by
  obtain ⟨o, c, n, t⟩ := w
  simp only [past, base, place, List.length_map, List.length_range, List.append_nil, Nat.zero_add]
  congr 1
  funext k
  split
  · rename_i h
    simp [List.getD, h]
  · rename_i h
    rw [Nat.sub_add_cancel (Nat.le_of_not_lt h)]

theorem base_fresh (w : World α) : Fresh (base w) := ⟨rfl, rfl⟩

theorem base_reliable {w : World α} (h : Reliable w) : Reliable (base w) := fun _ => h _

theorem Grows.place {w w' : World α} (h : Grows w w') (pre : List Status) (t : List (Event α)) :
    Grows (place pre t w) (place pre t w') := by
  obtain ⟨h1, h2, h3, es, h4, h5⟩ := h
  refine ⟨by simp only [Zy.place, h1], Nat.add_le_add_right h2 _, h3, es, ?_, h5⟩
  simp only [Zy.place, h4, List.append_assoc]

theorem Grows.reliable {w w' : World α} (h : Grows w w') (hr : Reliable w) : Reliable w' := by
  intro k; rw [h.oracle]; exact hr k

theorem move_world {σ : Type} [Located α σ] (hm : ∀ δ (r : σ), world (move δ r) = δ (world r)) {f : World α → Out σ}
    (hf : ∀ pre t w, Acts (place pre t) w (f w) (f (place pre t w))) {w : World α} {t : List (Event α)} {r : σ}
    (h : f (place [] t (base w)) = .ret r) :
    ∃ q, f (base w) = .ret q ∧ r = move (place [] t) q ∧ f w = .ret (move (past w) q) ∧
      Grows w (past w (world q)) ∧ (world r).trace = t ++ (world q).trace ∧
      (past w (world q)).trace = w.trace ++ (world q).trace := by
  obtain ⟨e1, _⟩ := hf [] t (base w)
  rw [h] at e1
  cases hq : f (base w) with
  | ub u => rw [hq] at e1; cases e1
  | ret q =>
    rw [hq] at e1
    cases e1
    obtain ⟨e2, g2⟩ := hf ((List.range w.calls).map w.oracle) w.trace (base w)
    have g := (g2 q hq).place ((List.range w.calls).map w.oracle) w.trace
    have e3 : f w = .ret (move (past w) q) := by
      have := past_base w
      unfold past at this
      rw [this, hq] at e2
      exact e2
    have g' : Grows w (past w (world q)) := by
      have := past_base w
      unfold past at this
      rw [this] at g
      exact g
    refine ⟨q, rfl, rfl, e3, g', by rw [hm]; rfl, rfl⟩

/-! ## One block -/

/-- The block in the terms of `replay`. -/
def liveOf : Option Place → Option Live
  | some ⟨b, some e⟩ => some ⟨e.a, b, e.esz, e.n⟩
  | _ => none

/-- What one container did to the world: events about its own block, and destroyed elements. -/
structure Turn (w w' : World α) (x x' : Option Live) (dead : List (Cell α)) : Prop where
  grows : Grows w w'
  events : ∃ es, w'.trace = w.trace ++ es ∧ destroyedOf es = dead ∧
    es.foldl replayStep (some x) = some x'

theorem foldl_replay_none : ∀ es : List (Event α), es.foldl replayStep none = none
  | [] => rfl
  | e :: es => by
    show es.foldl replayStep (replayStep none e) = none
    have : replayStep none e = none := by cases e <;> rfl
    rw [this]; exact foldl_replay_none es

theorem destroys_replay {x : Option Live} : ∀ {es : List (Event α)}, onlyDestroys es →
    es.foldl replayStep (some x) = some x
  | [], _ => rfl
  | e :: es, h => by
    obtain ⟨c, rfl⟩ := h e List.mem_cons_self
    exact destroys_replay (es := es) fun e he => h e (List.mem_cons_of_mem _ he)

/-- New block numbers are at least `m`. -/
def NewIds (m : Nat) (es : List (Event α)) : Prop := ∀ e ∈ es, match e with
  | .alloc _ b _ _ => m ≤ b
  | .realloc _ _ b _ _ => m ≤ b
  | _ => True

/-- The block that is live afterwards was live before or is new. -/
theorem replay_blk {m : Nat} : ∀ {es : List (Event α)} {x x' : Option Live}, NewIds m es →
    es.foldl replayStep (some x) = some x' → ∀ l, x' = some l → (∃ k, x = some k ∧ k.blk = l.blk) ∨ m ≤ l.blk
  | [], x, x', _, h, l, hl => by
    cases h; exact .inl ⟨l, hl, rfl⟩
  | e :: es, x, x', hn, h, l, hl => by
    have hn' : NewIds m es := fun e he => hn e (List.mem_cons_of_mem _ he)
    have he := hn e List.mem_cons_self
    have h' : es.foldl replayStep (replayStep (some x) e) = some x' := h
    cases hs : replayStep (some x) e with
    | none => rw [hs, foldl_replay_none] at h'; cases h'
    | some y =>
      rw [hs] at h'
      rcases replay_blk hn' h' l hl with ⟨k, hk, hb⟩ | hb
      · subst hk
        cases e with
        | destroy c => cases hs; exact .inl ⟨k, rfl, hb⟩
        | refused a => cases hs; exact .inl ⟨k, rfl, hb⟩
        | alloc a b esz n =>
          cases x with
          | none => cases hs; right; rw [← hb]; exact he
          | some z => cases hs
        | realloc a o b esz n =>
          cases x with
          | none => cases hs
          | some z =>
            simp only [replayStep] at hs
            split at hs
            · cases hs; right; rw [← hb]; exact he
            · cases hs
        | dealloc a b esz n =>
          cases x with
          | none => cases hs
          | some z =>
            simp only [replayStep] at hs
            split at hs <;> cases hs
      · exact .inr hb

/-- The heap with one more block. -/
def withLive (h : Heap) : Option Live → Heap
  | none => h
  | some l => h.put l.blk (some ⟨l.a, l.esz, l.n⟩)

theorem heapFrom_append (es fs : List (Event α)) : ∀ h : Heap,
    heapFrom h (es ++ fs) = (heapFrom h es).bind fun h' => heapFrom h' fs := by
  induction es with
  | nil => intro h; rfl
  | cons e es ih =>
    intro h
    simp only [List.cons_append, heapFrom, Option.bind_assoc]
    congr 1
    funext h'
    exact ih h'

/-- Events about one block leave all the others alone. -/
theorem frame_replay {m : Nat} {h : Heap} (hm : ∀ k, m ≤ k → h k = none) :
    ∀ {es : List (Event α)} {x x' : Option Live}, NewIds m es → (∀ l, x = some l → h l.blk = none) →
    es.foldl replayStep (some x) = some x' →
    heapFrom (withLive h x) es = some (withLive h x') ∧ ∀ l, x' = some l → h l.blk = none
  | [], x, x', _, hx, e => by cases e; exact ⟨rfl, hx⟩
  | e :: es, x, x', hn, hx, he => by
    have hn' : NewIds m es := fun e he => hn e (List.mem_cons_of_mem _ he)
    have hne := hn e List.mem_cons_self
    have h' : es.foldl replayStep (replayStep (some x) e) = some x' := he
    cases hs : replayStep (some x) e with
    | none => rw [hs, foldl_replay_none] at h'; cases h'
    | some y =>
      rw [hs] at h'
      suffices key : heapStep (withLive h x) e = some (withLive h y) ∧ ∀ l, y = some l → h l.blk = none by
        simp only [heapFrom, key.1, Option.bind_some]
        exact frame_replay hm hn' key.2 h'
      cases e with
      | destroy c => cases hs; exact ⟨rfl, hx⟩
      | refused a => cases hs; exact ⟨rfl, hx⟩
      | alloc a b esz n =>
        cases x with
        | some z => cases hs
        | none =>
          cases hs
          refine ⟨?_, fun l hl => by cases hl; exact hm _ hne⟩
          exact if_pos (hm _ hne)
      | realloc a o b esz n =>
        cases x with
        | none => cases hs
        | some z =>
          simp only [replayStep] at hs
          split at hs
          · rename_i hc
            obtain ⟨c1, c2, c3, c4⟩ := hc
            cases hs
            have hz := hx z rfl
            refine ⟨?_, fun l hl => by cases hl; exact hm _ hne⟩
            have e1 : (withLive h (some z)) o = some ⟨z.a, z.esz, z.n⟩ := by
              simp [withLive, Heap.put, c2]
            have e2 : (withLive h (some z)) b = none := by
              simp only [withLive, Heap.put]
              rw [if_neg (by omega)]
              exact hm _ hne
            simp only [heapStep, e1, e2]
            rw [if_pos ⟨c1, c3, trivial⟩]
            congr 1
            funext k
            simp only [withLive, Heap.put]
            split
            · rfl
            · rename_i hk
              split
              · rename_i hk'
                subst hk'
                rw [← c2]; exact hz.symm
              · rename_i hk'
                rw [if_neg (by omega)]
          · cases hs
      | dealloc a b esz n =>
        cases x with
        | none => cases hs
        | some z =>
          simp only [replayStep] at hs
          split at hs
          · rename_i hc
            cases hs
            subst hc
            have hz := hx _ rfl
            refine ⟨?_, fun l hl => by cases hl⟩
            refine (if_pos (by simp [withLive, Heap.put])).trans ?_
            congr 1
            funext k
            simp only [withLive, Heap.put]
            split
            · rename_i hk; rw [hk]; exact hz.symm
            · rfl
          · cases hs

/-! ## All containers -/

/-- The invariant of the whole program. -/
structure Tidily (w : World α) (places : List (Option Place)) : Prop where
  sep : Separate places w.trace
  bound : ∀ {i : Nat} {p : Place}, places[i]? = some (some p) → p.blk < w.nextBlk
  reliable : Reliable w

theorem Tidily.more {w : World α} {places : List (Option Place)} (T : Tidily w places) :
    Tidily w (places ++ [none]) := by
  have key : ∀ {i : Nat} {p : Place}, (places ++ [none])[i]? = some (some p) ↔ places[i]? = some (some p) := by
    intro i p
    rw [List.getElem?_append]
    split
    · rfl
    · rename_i h
      have h1 : places[i]? = none := List.getElem?_eq_none (by omega)
      rw [h1]
      cases h2 : i - places.length with
      | zero => simp
      | succ k => simp
  refine ⟨⟨fun hp hq => T.sep.apart (key.1 hp) (key.1 hq), ?_⟩, fun hp => T.bound (key.1 hp), T.reliable⟩
  obtain ⟨h, e, hh⟩ := T.sep.heap
  exact ⟨h, e, fun k x => (hh k x).trans ⟨fun ⟨i, hi⟩ => ⟨i, key.2 hi⟩, fun ⟨i, hi⟩ => ⟨i, key.1 hi⟩⟩⟩

theorem Grows.newIds {w w' : World α} {es : List (Event α)} (h : Grows w w') (e : w'.trace = w.trace ++ es) :
    NewIds w.nextBlk es := by
  obtain ⟨fs, f1, f2⟩ := h.events
  have : fs = es := List.append_cancel_left (f1.symm.trans e)
  subst this
  intro x hx
  have := f2 x hx
  cases x <;> dsimp only at this ⊢
  · exact this.1
  · exact this.1

/-- The turn of one container. -/
theorem Tidily.turn {w w' : World α} {places : List (Option Place)} (T : Tidily w places) {i : Nat}
    {x x' : Option Place} (hi : places[i]? = some x) {dead : List (Cell α)}
    (t : Turn w w' (liveOf x) (liveOf x') dead)
    (hb : ∀ q, x' = some q → q.blk < w'.nextBlk ∧ ((∃ p, x = some p ∧ p.blk = q.blk) ∨ w.nextBlk ≤ q.blk)) :
    Tidily w' (places.set i x') := by
  have hlen : i < places.length := by
    rcases Nat.lt_or_ge i places.length with h | h
    · exact h
    · rw [List.getElem?_eq_none h] at hi; cases hi
  have hset : ∀ j : Nat, (places.set i x')[j]? = if j = i then some x' else places[j]? := by
    intro j
    rw [List.getElem?_set]
    by_cases h : i = j
    · subst h; rw [if_pos rfl, if_pos hlen, if_pos rfl]
    · rw [if_neg h, if_neg (fun h' => h h'.symm)]
  have hnew : ∀ {j : Nat} {p q : Place}, places[j]? = some (some p) → j ≠ i → x' = some q → p.blk ≠ q.blk := by
    intro j p q hp hj hq e
    rcases (hb q hq).2 with ⟨p', hp', e'⟩ | hge
    · subst hp'
      exact hj (T.sep.apart hp hi (e.trans e'.symm))
    · have := T.bound hp
      omega
  obtain ⟨g, es, e1, e2, e3⟩ := t
  refine ⟨⟨?_, ?_⟩, ?_, g.reliable T.reliable⟩
  · intro j k p q hp hq e
    rw [hset] at hp hq
    by_cases hj : j = i
    · rw [if_pos hj] at hp
      by_cases hk : k = i
      · rw [hj, hk]
      · rw [if_neg hk] at hq
        exact absurd e.symm (hnew hq hk (Option.some.inj hp))
    · rw [if_neg hj] at hp
      by_cases hk : k = i
      · rw [if_pos hk] at hq
        exact absurd e (hnew hp hj (Option.some.inj hq))
      · rw [if_neg hk] at hq
        exact T.sep.apart hp hq e
  · obtain ⟨h, h1, h2⟩ := T.sep.heap
    -- the blocks of the other containers
    let rest : Heap := fun k => if ∃ l, liveOf x = some l ∧ l.blk = k then none else h k
    have hrest : withLive rest (liveOf x) = h := by
      funext k
      cases hl : liveOf x with
      | none =>
        show (if _ then _ else _) = _
        rw [if_neg (by rw [hl]; rintro ⟨l, h, _⟩; cases h)]
      | some l =>
        simp only [withLive, Heap.put]
        split
        · rename_i hk
          subst hk
          obtain ⟨b, o⟩ | _ := x
          · cases hl
          rename_i p
          obtain ⟨b, o⟩ := p
          cases o with
          | none => cases hl
          | some e => cases hl; exact ((h2 _ _).2 ⟨i, hi⟩).symm
        · rename_i hk
          show (if _ then _ else _) = _
          rw [if_neg]
          rw [hl]
          rintro ⟨l', h', h''⟩
          cases h'
          exact hk h''.symm
    have hm : ∀ k, w.nextBlk ≤ k → rest k = none := by
      intro k hk
      show (if _ then _ else _) = _
      split
      · rfl
      · cases hh : h k with
        | none => rfl
        | some e =>
          obtain ⟨j, hj⟩ := (h2 k e).1 hh
          have hb' := T.bound hj
          dsimp only at hb'
          omega
    have hx : ∀ l, liveOf x = some l → rest l.blk = none := by
      intro l hl
      show (if _ then _ else _) = _
      rw [if_pos ⟨l, hl, rfl⟩]
    obtain ⟨f1, f2⟩ := frame_replay hm (g.newIds e1) hx e3
    refine ⟨withLive rest (liveOf x'), ?_, ?_⟩
    · unfold heapOf at h1 ⊢
      rw [e1, heapFrom_append, h1, Option.bind_some, ← hrest]
      exact f1
    · -- the other containers
      have hothers : ∀ k e, rest k = some e ↔ ∃ j : Nat, j ≠ i ∧ places[j]? = some (some ⟨k, some e⟩) := by
        intro k e
        show (if _ then _ else _) = _ ↔ _
        split
        · rename_i hc
          obtain ⟨l, hl, hk⟩ := hc
          constructor
          · intro h; cases h
          · rintro ⟨j, hj, hp⟩
            exfalso
            obtain ⟨b, o⟩ | _ := x
            · cases hl
            rename_i p
            obtain ⟨b, o⟩ := p
            cases o with
            | none => cases hl
            | some e' =>
              cases hl
              exact hj (T.sep.apart hp hi hk.symm)
        · rename_i hc
          rw [h2]
          constructor
          · rintro ⟨j, hp⟩
            refine ⟨j, ?_, hp⟩
            rintro rfl
            rw [hi] at hp
            cases hp
            exact hc ⟨_, rfl, rfl⟩
          · rintro ⟨j, _, hp⟩
            exact ⟨j, hp⟩
      intro k e
      have hmine : (∃ j : Nat, (places.set i x')[j]? = some (some ⟨k, some e⟩)) ↔
          x' = some ⟨k, some e⟩ ∨ rest k = some e := by
        rw [hothers]
        constructor
        · rintro ⟨j, hj⟩
          rw [hset] at hj
          split at hj
          · exact .inl (Option.some.inj hj)
          · rename_i hne; exact .inr ⟨j, hne, hj⟩
        · rintro (h | ⟨j, hne, hj⟩)
          · exact ⟨i, by rw [hset, if_pos rfl, h]⟩
          · exact ⟨j, by rw [hset, if_neg hne, hj]⟩
      rw [hmine]
      cases hl : liveOf x' with
      | none =>
        simp only [withLive]
        constructor
        · exact .inr
        · rintro (h | h)
          · rw [h] at hl; cases hl
          · exact h
      | some l =>
        have hl' : x' = some ⟨l.blk, some ⟨l.a, l.esz, l.n⟩⟩ := by
          cases x' with
          | none => cases hl
          | some p =>
            obtain ⟨b, o⟩ := p
            cases o with
            | none => cases hl
            | some e' => cases hl; rfl
        have hr := f2 l hl
        simp only [withLive, Heap.put]
        split
        · rename_i hk
          subst hk
          rw [hl', hr]
          simp
        · rename_i hk
          constructor
          · exact .inr
          · rintro (h | h)
            · rw [hl'] at h
              cases h
              exact absurd rfl hk
            · exact h
  · intro j p hp
    rw [hset] at hp
    split at hp
    · exact (hb p (Option.some.inj hp)).1
    · exact Nat.lt_of_lt_of_le (T.bound hp) g.next

/-! ## A represented container among others -/

/-- A past of its own: the allocation of the block. -/
def home (P : Params) (id cap : Nat) : List (Event α) :=
  match P.allocator with
  | some a => [.alloc a id P.esz cap]
  | none => []

/-- The memory of a container with these parameters. -/
def placed (P : Params) (id cap : Nat) : Place := ⟨id, P.allocator.map fun a => ⟨a, P.esz, cap⟩⟩

/-- The representation in a world of its own. -/
def Held (P : Params) (w : World α) (v : Vec α) (elems : List (Cell α)) (cap : Nat) (b : Block α)
    (slack : List (Cell α)) : Prop :=
  Rep P ⟨v, place [] (home P b.id cap) (base w)⟩ ⟨elems, cap, []⟩ b slack

theorem home_replay (P : Params) (id cap : Nat) :
    (home P id cap : List (Event α)).foldl replayStep (some none) = some (liveOf (some (placed P id cap))) := by
  unfold home placed
  cases P.allocator <;> rfl

theorem home_dead (P : Params) (id cap : Nat) : destroyedOf (home P id cap : List (Event α)) = [] := by
  unfold home
  cases P.allocator <;> rfl

theorem Rep.placeOf {P : Params} {s : VS α} {a : LState α} {b : Block α} {sl : List (Cell α)}
    (R : Rep P s a b sl) : placeOf s.v = some (placed P b.id a.cap) := by
  unfold Zy.placeOf placed
  rw [R.data, R.allocator, R.esz, R.cap]
  rfl

/-- The representation does not depend on what others do. -/
theorem Rep.held {P : Params} {v : Vec α} {w u : World α} {a : LState α} {b : Block α} {sl : List (Cell α)}
    (R : Rep P ⟨v, w⟩ a b sl) (hu : Reliable u) (hb : b.id < u.nextBlk) : Held P u v a.elems a.cap b sl := by
  refine { R with reliable := fun k _ => ?_, alloc := ?_, dead := ?_ }
  · exact hu _
  · unfold AllocOK home
    cases hP : P.allocator with
    | none => exact ⟨rfl, fun e h => nomatch h⟩
    | some al => exact ⟨rfl, hb⟩
  · show destroyedOf (home P b.id a.cap ++ []) = []
    rw [List.append_nil, home_dead]

/-- What a call of one container did. -/
structure Took (w w' : World α) (x x' : Option Place) (dead : List (Cell α)) : Prop where
  turn : Turn w w' (liveOf x) (liveOf x') dead
  ids : ∀ q, x' = some q → q.blk < w'.nextBlk ∧ ((∃ p, x = some p ∧ p.blk = q.blk) ∨ w.nextBlk ≤ q.blk)

/-- From a world of its own to the world of all. -/
theorem took {σ : Type} [Located α σ] (hm : ∀ δ (r : σ), world (move δ r) = δ (world r)) {f : World α → Out σ}
    (hf : ∀ pre t w, Acts (place pre t) w (f w) (f (place pre t w))) {w : World α} {t : List (Event α)} {r : σ}
    (h : f (place [] t (base w)) = .ret r) {x : Option Place}
    (ht : t.foldl replayStep (some none) = some (liveOf x)) (hd : destroyedOf t = [])
    {P : Params} {v : Vec α} {a : LState α} {b : Block α} {sl : List (Cell α)} (R : Rep P ⟨v, world r⟩ a b sl)
    (hx : P.allocator = none → t = [] ∧ liveOf x = none ∧ b.id < w.nextBlk ∧
      ((∃ p, x = some p ∧ p.blk = b.id) ∨ w.nextBlk ≤ b.id)) :
    ∃ q, r = move (place [] t) q ∧ f w = .ret (move (past w) q) ∧
      Took w (past w (world q)) x (some (placed P b.id a.cap)) a.dead := by
  obtain ⟨q, e1, e2, e3, g, t1, t2⟩ := move_world hm hf h
  refine ⟨q, e2, e3, ?_⟩
  have hes : destroyedOf (world q).trace = a.dead := by
    have := R.dead
    dsimp only at this
    rw [t1, destroyedOf_append, hd, List.nil_append] at this
    exact this
  have hA := R.alloc
  have hnb : (world r).nextBlk = (past w (world q)).nextBlk := by rw [e2, hm]; rfl
  unfold AllocOK at hA
  cases hP : P.allocator with
  | none =>
    rw [hP] at hA
    obtain ⟨h1, h2, h3, h4⟩ := hx hP
    have hl : liveOf (some (placed P b.id a.cap)) = none := by unfold placed; rw [hP]; rfl
    refine ⟨⟨g, (world q).trace, t2, hes, ?_⟩, ?_⟩
    · rw [hl, h2]
      refine destroys_replay ?_
      have := hA.2
      dsimp only at this
      rw [t1, h1, List.nil_append] at this
      exact this
    · intro p hp
      cases hp
      exact ⟨Nat.lt_of_lt_of_le h3 g.next, h4⟩
  | some al =>
    rw [hP] at hA
    obtain ⟨h1, h2⟩ := hA
    dsimp only at h1 h2
    have hl : liveOf (some (placed P b.id a.cap)) = some ⟨al, b.id, P.esz, a.cap⟩ := by unfold placed; rw [hP]; rfl
    have h3 : (world q).trace.foldl replayStep (some (liveOf x)) = some (liveOf (some (placed P b.id a.cap))) := by
      unfold replay at h1
      rw [t1, List.foldl_append, ht] at h1
      rw [hl]; exact h1
    refine ⟨⟨g, (world q).trace, t2, hes, h3⟩, ?_⟩
    intro p hp
    cases hp
    refine ⟨by rw [← hnb]; exact h2, ?_⟩
    rcases replay_blk (g.newIds t2) h3 _ hl with ⟨k, hk, hb⟩ | hb
    · left
      cases x with
      | none => cases hk
      | some p =>
        obtain ⟨b', o⟩ := p
        cases o with
        | none => cases hk
        | some e => cases hk; exact ⟨_, rfl, hb⟩
    · exact .inr hb

/-- A call of a container that existed before. -/
theorem took_held {σ : Type} [Located α σ] (hm : ∀ δ (r : σ), world (move δ r) = δ (world r)) {f : World α → Out σ}
    (hf : ∀ pre t w, Acts (place pre t) w (f w) (f (place pre t w))) {w : World α} {P : Params} {id cap : Nat}
    (hid : id < w.nextBlk) {r : σ} (h : f (place [] (home P id cap) (base w)) = .ret r)
    {v : Vec α} {a : LState α} {b : Block α} {sl : List (Cell α)} (R : Rep P ⟨v, world r⟩ a b sl)
    (hx : P.allocator = none → b.id = id) :
    ∃ q, r = move (place [] (home P id cap)) q ∧ f w = .ret (move (past w) q) ∧
      Took w (past w (world q)) (some (placed P id cap)) (some (placed P b.id a.cap)) a.dead := by
  refine took hm hf h (home_replay P id cap) (home_dead P id cap) R fun hP => ?_
  refine ⟨by unfold home; rw [hP], by unfold placed; rw [hP]; rfl, by rw [hx hP]; exact hid, .inl ⟨_, rfl, ?_⟩⟩
  exact (hx hP).symm

/-- The end of a container. -/
theorem took_end {σ : Type} [Located α σ] (hm : ∀ δ (r : σ), world (move δ r) = δ (world r)) {f : World α → Out σ}
    (hf : ∀ pre t w, Acts (place pre t) w (f w) (f (place pre t w))) {w : World α} {P : Params} {id cap : Nat}
    {r : σ} (h : f (place [] (home P id cap) (base w)) = .ret r) {dead : List (Cell α)}
    (hd : destroyedOf (world r).trace = dead)
    (h1 : P.allocator.isSome → replay (world r).trace = some none)
    (h2 : P.allocator = none → onlyDestroys (world r).trace) :
    ∃ q, r = move (place [] (home P id cap)) q ∧ f w = .ret (move (past w) q) ∧
      Took w (past w (world q)) (some (placed P id cap)) none dead := by
  obtain ⟨q, e1, e2, e3, g, t1, t2⟩ := move_world hm hf h
  refine ⟨q, e2, e3, ⟨g, (world q).trace, t2, ?_, ?_⟩, fun p hp => nomatch hp⟩
  · rw [t1, destroyedOf_append, home_dead, List.nil_append] at hd
    exact hd
  · cases hP : P.allocator with
    | none =>
      have h3 := h2 hP
      have hl : liveOf (some (placed P id cap)) = none := by unfold placed; rw [hP]; rfl
      rw [hl]
      refine destroys_replay ?_
      rw [t1] at h3
      unfold home at h3
      rw [hP, List.nil_append] at h3
      exact h3
    | some al =>
      have h3 := h1 (by rw [hP]; rfl)
      unfold replay at h3
      rw [t1, List.foldl_append, home_replay] at h3
      exact h3

/-! ## Lists of containers -/

section
variable {O A : Type}

/-- Both exist and match, or neither exists. -/
def Both (R : O → A → Prop) : Option O → Option A → Prop
  | some o, some x => R o x
  | none, none => True
  | _, _ => False

/-- The objects and the abstract objects, one by one. -/
def Matched (R : O → A → Prop) (l : List (Option O)) (m : List (Option A)) : Prop :=
  ∀ i : Nat, match l[i]?, m[i]? with
    | some (some o), some (some x) => R o x
    | some none, some none => True
    | none, none => True
    | _, _ => False

theorem Matched.get {R : O → A → Prop} {l : List (Option O)} {m : List (Option A)} (h : Matched R l m) {i : Nat}
    {x : A} (hi : m[i]? = some (some x)) : ∃ o, l[i]? = some (some o) ∧ R o x := by
  have := h i
  rw [hi] at this
  cases hl : l[i]? with
  | none => rw [hl] at this; cases this
  | some o =>
    cases o with
    | none => rw [hl] at this; cases this
    | some o => rw [hl] at this; exact ⟨o, rfl, this⟩

theorem Matched.length {R : O → A → Prop} {l : List (Option O)} {m : List (Option A)} (h : Matched R l m) :
    l.length = m.length := by
  rcases Nat.lt_trichotomy l.length m.length with hlt | heq | hgt
  · have := h l.length
    rw [List.getElem?_eq_none (Nat.le_refl _), List.getElem?_eq_getElem hlt] at this
    cases hm : m[l.length] <;> rw [hm] at this <;> cases this
  · exact heq
  · have := h m.length
    rw [List.getElem?_eq_none (Nat.le_refl m.length), List.getElem?_eq_getElem hgt] at this
    cases hm : l[m.length] <;> rw [hm] at this <;> cases this

theorem Matched.set {R R' : O → A → Prop} {l : List (Option O)} {m : List (Option A)} (h : Matched R l m)
    (hR : ∀ (j : Nat) o x, l[j]? = some (some o) → m[j]? = some (some x) → R o x → R' o x)
    (i : Nat) {o : Option O} {x : Option A}
    (hn : Both R' o x) :
    Matched R' (l.set i o) (m.set i x) := by
  intro j
  have hj := h j
  have hlen := h.length
  rw [List.getElem?_set, List.getElem?_set]
  by_cases hij : i = j
  · subst hij
    rw [if_pos rfl, if_pos rfl]
    by_cases hi : i < l.length
    · rw [if_pos hi, if_pos (by omega)]
      cases o <;> cases x <;> first | trivial | exact hn
    · rw [if_neg hi, if_neg (by omega)]
      trivial
  · rw [if_neg hij, if_neg hij]
    cases hl : l[j]? with
    | none =>
      cases hm : m[j]? with
      | none => trivial
      | some y => rw [hl, hm] at hj; cases y <;> cases hj
    | some a =>
      cases hm : m[j]? with
      | none => rw [hl, hm] at hj; cases a <;> cases hj
      | some y =>
        rw [hl, hm] at hj
        cases a <;> cases y <;> first | trivial | (exact hR j _ _ hl hm hj) | cases hj

theorem Matched.more {R : O → A → Prop} {l : List (Option O)} {m : List (Option A)} (h : Matched R l m) :
    Matched R (l ++ [none]) (m ++ [none]) := by
  intro j
  have hj := h j
  have hlen := h.length
  rw [List.getElem?_append, List.getElem?_append]
  by_cases hi : j < l.length
  · rw [if_pos hi, if_pos (by omega)]
    exact hj
  · rw [if_neg hi, if_neg (by omega), hlen]
    cases h2 : j - m.length with
    | zero => trivial
    | succ k => trivial

theorem set_last {γ : Type} (l : List γ) (a b : γ) : (l ++ [a]).set l.length b = l ++ [b] := by
  simp

end

end Zy
