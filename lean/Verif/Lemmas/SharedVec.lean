import Verif.Lemmas.Shared

/-!
# Lemmas: programs with vectors
-/

namespace Zy

open Spec Located

variable {α : Type}

/-! ## New vectors -/

instance : Located α (Option (Vec α) × World α) := ⟨fun p => p.2, fun δ p => (p.1, δ p.2)⟩

theorem vecInitEx_acts {δ : World α → World α} (hδ : Moves δ) (w : World α) (esz cap : Nat) (dt : Bool)
    (al : Option Nat) (g th : Nat) :
    Acts δ w (.ret (vecInitEx w esz cap dt al g th)) (.ret (vecInitEx (δ w) esz cap dt al g th)) := by
  unfold vecInitEx
  cases al with
  | none => exact acts_ret (r := (stInvalidArgument, (none : Option (Vec α)), w)) (.refl _)
  | some a =>
    dsimp only
    by_cases h : esz = 0 ∨ g < 1
    · rw [if_pos h, if_pos h]
      exact acts_ret (r := (stInvalidArgument, (none : Option (Vec α)), w)) (.refl _)
    · rw [if_neg h, if_neg h]
      have hc := hδ.call w
      have hn := hδ.now w
      have hx := hδ.next w
      unfold allocate
      dsimp only
      rw [hn]
      split
      · refine ⟨?_, fun r hr => ?_⟩
        · simp only [Out.ret_bind', move, hδ.log, hc]
        · cases hr
          exact ⟨rfl, Nat.le_succ _, Nat.le_refl _, [.refused a], rfl, fun e he => by
            rw [List.mem_singleton] at he; subst he; trivial⟩
      · refine ⟨?_, fun r hr => ?_⟩
        · have hb := hδ.block { w with calls := w.calls + 1 }
          dsimp only at hb
          rw [hc] at hb
          dsimp only at hb
          simp only [Out.ret_bind', move, hδ.log, hx]
          rw [hb, hx]
        · cases hr
          refine ⟨rfl, Nat.le_succ _, Nat.le_succ _, [.alloc a w.nextBlk esz (max 1 cap)], rfl, fun e he => ?_⟩
          rw [List.mem_singleton] at he; subst he
          exact ⟨Nat.le_refl _, Nat.lt_succ_self _⟩

theorem vecDuplicateEx_acts {δ : World α → World α} (hδ : Moves δ) (w : World α) (src : Vec α) (cap : Nat)
    (al : Option Nat) (g th : Nat) :
    Acts δ w (vecDuplicateEx w src cap al g th) (vecDuplicateEx (δ w) src cap al g th) := by
  obtain ⟨e, h⟩ := vecInitEx_acts hδ w src.esz (max cap src.size) src.hasDtor al g th
  simp only [Out.ret_bind', Out.ret.injEq] at e
  have h := h _ rfl
  unfold vecDuplicateEx
  rw [e]
  generalize vecInitEx w src.esz (max cap src.size) src.hasDtor al g th = r at h ⊢
  obtain ⟨st, o, w'⟩ := r
  show Acts δ w (if failed st then _ else _) (if failed st then _ else _)
  refine acts_ite (fun _ => acts_ret (r := (st, o, w')) h) fun _ => ?_
  cases o with
  | none => exact acts_ret (r := (st, (none : Option (Vec α)), w')) h
  | some d => exact acts_pre fun d' _ => acts_ret (r := (stSuccess, some d', w')) h

/-- New memory of the program. -/
theorem took_buffer {w : World α} {P : Params} (hP : P.allocator = none) (cap : Nat) :
    Took w { w with nextBlk := w.nextBlk + 1 } none (some (placed P w.nextBlk cap)) [] := by
  have hl : liveOf (some (placed P w.nextBlk cap)) = none := by unfold placed; rw [hP]; rfl
  refine ⟨⟨⟨rfl, Nat.le_refl _, Nat.le_succ _, [], (List.append_nil _).symm, fun _ h => nomatch h⟩, [],
    (List.append_nil _).symm, rfl, ?_⟩, fun q hq => ?_⟩
  · rw [hl]; rfl
  · cases hq
    exact ⟨Nat.lt_succ_self _, .inr (Nat.le_refl _)⟩

theorem place_nil (w : World α) : place [] [] w = w := by
  obtain ⟨o, c, n, t⟩ := w
  simp [place]

theorem home_mem (P : Params) (w : World α) (id cap : Nat) :
    (place [] (home P id cap) (base w)).nextBlk = w.nextBlk := rfl

/-- A call of a represented vector among others. -/
theorem call_held {P : Params} {w : World α} {v : Vec α} {elems : List (Cell α)} {cap : Nat} {b : Block α}
    {sl : List (Cell α)} (R : Held P w v elems cap b sl) (hr : Reliable w) (hid : b.id < w.nextBlk) (op : VOp α)
    (hd : InDomain P ⟨elems, cap, []⟩ op) :
    ∃ junk st y v' w' b' sl', junk.length = junkLen ⟨elems, cap, []⟩ op ∧
      step P junk ⟨elems, cap, []⟩ op = (st, y) ∧ vecOp ⟨v, w⟩ op = .ret (st, ⟨v', w'⟩) ∧
      Held P w' v' y.elems y.cap b' sl' ∧
      Took w w' (some (placed P b.id cap)) (some (placed P b'.id y.cap)) y.dead := by
  obtain ⟨junk, st, s', y, b', sl', hj, hs, he, R'⟩ := op_ok R op hd
  have hst : P.allocator = none → b'.id = b.id := by
    intro hP
    have h0 : Lodged (some b.id) v := ⟨R.allocator.trans hP, by rw [R.data]; rfl⟩
    have h1 := vecOp_lodged (s := ⟨v, place [] (home P b.id cap) (base w)⟩) h0 op _ he
    have h2 := h1.data
    dsimp only at h2
    rw [R'.data] at h2
    exact Option.some.inj h2
  obtain ⟨⟨st', s''⟩, e1, e2, T⟩ := took_held (f := fun w => vecOp ⟨v, w⟩ op) (fun _ _ => rfl)
    (fun pre t w => vecOp_acts (place_moves pre t) v w op) hid he (v := s'.v) R' hst
  simp only [move, Prod.mk.injEq] at e1
  obtain ⟨rfl, rfl⟩ := e1
  refine ⟨junk, st, y, s''.v, _, b', sl', hj, hs, e2, ?_, T⟩
  exact R'.held (T.turn.grows.reliable hr) (T.ids _ rfl).1

/-- The end of a represented vector among others. -/
theorem destroy_held {P : Params} {w : World α} {v : Vec α} {elems : List (Cell α)} {cap : Nat} {b : Block α}
    {sl : List (Cell α)} (R : Held P w v elems cap b sl) :
    ∃ s', vecDestroy ⟨v, w⟩ = .ret (stSuccess, s') ∧
      Took w s'.w (some (placed P b.id cap)) none (killed P elems) := by
  obtain ⟨s', e, _, hd, h1, h2⟩ := destroy_rep R
  obtain ⟨⟨st', s''⟩, e1, e2, T⟩ := took_end (f := fun w => vecDestroy ⟨v, w⟩) (fun _ _ => rfl)
    (fun pre t w => vecDestroy_acts (place_moves pre t) v w) e hd h1 fun h => (h2 h).2
  cases e1
  exact ⟨_, e2, T⟩

/-! ## The invariant of the program -/

/-- A vector of the program is the vector of the specification. -/
def VHeld (w : World α) (v : Vec α) (x : AVec α) : Prop := ∃ b sl, Held x.P w v x.elems x.cap b sl

/-- The invariant. -/
structure PInv (p : Prog α) (S : Tableau α) : Prop where
  tidy : Tidily p.w p.places
  dead : destroyedOf p.w.trace = S.dead
  vecs : Matched (VHeld p.w) p.vecs S.vecs

theorem places_set (l : List (Option (Vec α))) (w w' : World α) (i : Nat) (o : Option (Vec α)) :
    Prog.places ⟨l.set i o, w'⟩ = (Prog.places ⟨l, w⟩).set i (o.bind placeOf) := by
  simp [Prog.places]

theorem PInv.place {p : Prog α} {S : Tableau α} (_ : PInv p S) {i : Nat} {v : Vec α}
    (h : p.vecs[i]? = some (some v)) : p.places[i]? = some (placeOf v) := by
  unfold Prog.places
  rw [List.getElem?_map, h]
  rfl

/-- The turn of one vector. -/
theorem PInv.turn {p : Prog α} {S : Tableau α} (I : PInv p S) {i : Nat} {o o' : Option (Vec α)} {x' : Option (AVec α)}
    (hi : p.vecs[i]? = some o) {w' : World α} {dead : List (Cell α)}
    (T : Took p.w w' (o.bind placeOf) (o'.bind placeOf) dead)
    (hn : Both (VHeld w') o' x') :
    PInv ⟨p.vecs.set i o', w'⟩ ⟨S.vecs.set i x', S.dead ++ dead⟩ := by
  have hp : p.places[i]? = some (o.bind placeOf) := by
    unfold Prog.places
    rw [List.getElem?_map, hi]
    rfl
  refine ⟨?_, ?_, ?_⟩
  · rw [places_set _ p.w]
    exact I.tidy.turn hp T.turn T.ids
  · obtain ⟨es, e1, e2, _⟩ := T.turn.events
    show destroyedOf w'.trace = _
    rw [e1, destroyedOf_append, I.dead, e2]
  · refine I.vecs.set ?_ i hn
    rintro j v x hj hx ⟨b, sl, R⟩
    have hb : b.id < p.w.nextBlk := by
      refine I.tidy.bound (i := j) (p := placed x.P b.id x.cap) ?_
      rw [I.place hj, ← R.placeOf]
    exact ⟨b, sl, R.held (T.turn.grows.reliable I.tidy.reliable) (Nat.lt_of_lt_of_le hb T.turn.grows.next)⟩

/-- One more vector. -/
theorem PInv.add {p : Prog α} {S : Tableau α} (I : PInv p S) {v : Vec α} {x : AVec α} {w' : World α}
    (T : Took p.w w' none (placeOf v) []) (hn : VHeld w' v x) :
    PInv ⟨p.vecs ++ [some v], w'⟩ ⟨S.vecs ++ [some x], S.dead⟩ := by
  have I' : PInv ⟨p.vecs ++ [none], p.w⟩ ⟨S.vecs ++ [none], S.dead⟩ := by
    refine ⟨?_, I.dead, I.vecs.more⟩
    have := I.tidy.more
    simpa [Prog.places] using this
  have h := I'.turn (i := p.vecs.length) (o := none) (o' := some v) (x' := some x) (by simp) T hn
  rw [List.append_nil] at h
  have e1 : (p.vecs ++ [none]).set p.vecs.length (some v) = p.vecs ++ [some v] := set_last _ _ _
  have e2 : (S.vecs ++ [none]).set p.vecs.length (some x) = S.vecs ++ [some x] := by
    rw [I.vecs.length]; exact set_last _ _ _
  dsimp only at h
  rw [e1, e2] at h
  exact h

/-- One command. -/
theorem exec_ok {p : Prog α} {S : Tableau α} (I : PInv p S) (c : Cmd α) (hc : Sensible S c) :
    ∃ st p' S', p.exec c = .ret (st, p') ∧ Does S c st S' ∧ PInv p' S' := by
  have hr := I.tidy.reliable
  cases c with
  | create a g th esz cap dt =>
    obtain ⟨h1, h2, h3, h4, h5⟩ := hc
    let P : Params := ⟨some a, g, th, esz, dt⟩
    have hne : ¬ (esz = 0 ∨ g < 1) := by omega
    have hi : ∃ st v w', vecInitEx (base p.w) esz cap dt (some a) g th = (st, some v, w') := by
      unfold vecInitEx
      simp only
      rw [if_neg hne]
      exact ⟨_, _, _, rfl⟩
    obtain ⟨st, v, w', hi⟩ := hi
    obtain ⟨hst, b, sl, R⟩ := init_rep (P := P) (base_fresh p.w) (base_reliable hr) ⟨rfl, h2, h3⟩ h5 hi
    obtain ⟨⟨st', o, w''⟩, e1, e2, T⟩ := took (f := fun w => .ret (vecInitEx w esz cap dt (some a) g th))
      (fun _ _ => rfl) (fun pre t w => vecInitEx_acts (place_moves pre t) w _ _ _ _ _ _) (w := p.w) (t := [])
      (by rw [place_nil, hi]) (x := none) rfl rfl (v := v) R fun h => by cases h
    simp only [move, Prod.mk.injEq] at e1
    obtain ⟨rfl, rfl, rfl⟩ := e1
    simp only [Out.ret.injEq, move] at e2
    refine ⟨st, _, _, ?_, .create hst, I.add (v := v) (w' := past p.w w'') ?_ ?_⟩
    · simp only [Prog.exec, e2]
    · have := R.placeOf
      dsimp only at this
      rw [this]
      exact T
    · exact ⟨b, sl, R.held (T.turn.grows.reliable hr) (T.ids _ rfl).1⟩
  | createOn cells esz cap dt =>
    obtain ⟨h1, h2, h3, h4⟩ := hc
    let P : Params := ⟨none, 1, 0, esz, dt⟩
    have hi : ∃ v, vecInitBuffer esz (some ⟨p.w.nextBlk, cells⟩) cap dt = (stSuccess, some v) := by
      unfold vecInitBuffer
      simp only
      rw [if_neg (by omega)]
      exact ⟨_, rfl⟩
    obtain ⟨v, hi⟩ := hi
    obtain ⟨_, _, R⟩ := initBuffer_rep (P := P) (base_fresh p.w) (base_reliable hr) ⟨rfl, rfl, rfl⟩ h4 h2 hi
    have T := took_buffer (w := p.w) (P := P) rfl cap
    refine ⟨stSuccess, _, _, ?_, .createOn, I.add (v := v) (w' := { p.w with nextBlk := p.w.nextBlk + 1 }) ?_ ?_⟩
    · simp only [Prog.exec, hi]
    · have := R.placeOf
      dsimp only at this
      rw [this]
      exact T
    · exact ⟨_, _, R.held hr (Nat.lt_succ_self _)⟩
  | duplicate i a g th cap =>
    obtain ⟨h1, h2, h3, x, hx, h5⟩ := hc
    obtain ⟨s, hs, b, sl, R⟩ := I.vecs.get hx
    let P : Params := ⟨some a, g, th, x.P.esz, x.P.dtor⟩
    obtain ⟨v, w', b', sl', hd, R', _⟩ := duplicate_rep (P := P) R (base_fresh p.w) (base_reliable hr)
      (cap := cap) ⟨rfl, h2, h3, rfl, rfl⟩ h1 h5
    obtain ⟨⟨st', o, w''⟩, e1, e2, T⟩ := took (f := fun w => vecDuplicateEx w s cap (some a) g th)
      (fun _ _ => rfl) (fun pre t w => vecDuplicateEx_acts (place_moves pre t) w _ _ _ _ _) (w := p.w) (t := [])
      (by rw [place_nil]; exact hd) (x := none) rfl rfl (v := v) R' fun h => by cases h
    simp only [move, Prod.mk.injEq] at e1
    obtain ⟨rfl, rfl, rfl⟩ := e1
    simp only [move] at e2
    refine ⟨stSuccess, _, _, ?_, .duplicate hx, I.add (v := v) (w' := past p.w w'') ?_ ?_⟩
    · simp only [Prog.exec, hs, e2, Out.ret_bind']
    · have := R'.placeOf
      dsimp only at this
      rw [this]
      exact T
    · exact ⟨b', sl', R'.held (T.turn.grows.reliable hr) (T.ids _ rfl).1⟩
  | call i op =>
    obtain ⟨x, hx, hd⟩ := hc
    obtain ⟨v, hv, b, sl, R⟩ := I.vecs.get hx
    have hpl := R.placeOf
    dsimp only at hpl
    have hb : b.id < p.w.nextBlk := I.tidy.bound (by rw [I.place hv, hpl])
    obtain ⟨junk, st, y, v', w', b', sl', hj, hs, he, R', T⟩ := call_held R hr hb op hd
    refine ⟨st, _, _, ?_, .call hx junk hj hs, I.turn hv (o' := some v') (w' := w') (dead := y.dead) ?_ ?_⟩
    · simp only [Prog.exec, hv, he, Out.ret_bind']
    · have h1 := R'.placeOf
      dsimp only at h1
      simp only [Option.bind_some, hpl, h1]
      exact T
    · exact ⟨b', sl', R'⟩
  | destroy i =>
    obtain ⟨x, hx⟩ := hc
    obtain ⟨v, hv, b, sl, R⟩ := I.vecs.get hx
    have hpl := R.placeOf
    dsimp only at hpl
    obtain ⟨s', he, T⟩ := destroy_held R
    refine ⟨stSuccess, _, _, ?_, .destroy hx, I.turn hv (o' := none) (x' := none) (w' := s'.w) (dead := killed x.P x.elems) ?_ trivial⟩
    · simp only [Prog.exec, hv, he, Out.ret_bind']
    · simp only [Option.bind_some, hpl, Option.bind_none]
      exact T

theorem run_ok (cs : List (Cmd α)) : ∀ {p : Prog α} {S : Tableau α}, PInv p S → AllSensible S cs →
    ∃ sts p' S', p.run cs = .ret (sts, p') ∧ Tells S cs sts S' ∧ PInv p' S' := by
  induction cs with
  | nil => intro p S I _; exact ⟨[], p, S, rfl, .nil S, I⟩
  | cons c cs ih =>
    intro p S I h
    cases h with
    | cons hc ht =>
      obtain ⟨st, p1, S1, e1, d1, I1⟩ := exec_ok I c hc
      obtain ⟨sts, p2, S2, e2, d2, I2⟩ := ih I1 (ht st S1 d1)
      exact ⟨st :: sts, p2, S2, by simp only [Prog.run, e1, e2, Out.ret_bind'], .cons d1 d2, I2⟩

theorem start_inv {w : World α} (hw : Fresh w) (hr : Reliable w) : PInv ⟨[], w⟩ ⟨[], []⟩ := by
  refine ⟨⟨⟨?_, ?_⟩, ?_, hr⟩, ?_, fun i => ?_⟩
  · intro i j p q h; simp [Prog.places] at h
  · refine ⟨.empty, by rw [hw.2]; rfl, fun k e => ?_⟩
    simp [Prog.places, Heap.empty]
  · intro i p h; simp [Prog.places] at h
  · show destroyedOf w.trace = []
    rw [hw.2]; rfl
  · show match ([] : List (Option (Vec α)))[i]?, ([] : List (Option (AVec α)))[i]? with | _, _ => _
    simp

theorem PInv.shows {p : Prog α} {S : Tableau α} (I : PInv p S) : p.shows S := by
  refine ⟨I.vecs.length, I.dead, fun i => ?_⟩
  have h := I.vecs i
  cases hl : p.vecs[i]? with
  | none =>
    cases hm : S.vecs[i]? with
    | none => trivial
    | some y => rw [hl, hm] at h; cases y <;> cases h
  | some a =>
    cases hm : S.vecs[i]? with
    | none => rw [hl, hm] at h; cases a <;> cases h
    | some y =>
      rw [hl, hm] at h
      cases a with
      | none => cases y <;> first | trivial | cases h
      | some v =>
        cases y with
        | none => cases h
        | some x =>
          obtain ⟨b, sl, R⟩ := h
          refine ⟨?_, R.cap, R.size, R.allocator, R.esz⟩
          have hd := R.data
          have hs := R.size
          dsimp only at hd hs
          simp only [contents, hd, withData, hs, R.cells]
          unfold readRange
          simp

end Zy
