import Verif.Lemmas.BitsetReach
import Verif.Lemmas.SharedVec
import Verif.Lemmas.StringMake
import Verif.Spec.Mixed

/-!
# Lemmas: programs with vectors, strings and bitsets
-/

namespace Zy

open Spec Located

/-! ## New strings and bitsets -/

instance : Located Byte (Option Str × World Byte) := ⟨fun p => p.2, fun δ p => (p.1.map (move δ), δ p.2)⟩
instance : Located Byte (Option Bits × World Byte) := ⟨fun p => p.2, fun δ p => (p.1.map (move δ), δ p.2)⟩

section
variable {δ : World Byte → World Byte} (hδ : Moves δ)
include hδ

theorem strInitEx_acts (w : World Byte) (cap : Nat) (al : Option Nat) (g th : Nat) :
    Acts δ w (strInitEx w cap al g th) (strInitEx (δ w) cap al g th) := by
  obtain ⟨e, h⟩ := vecInitEx_acts hδ w 1 (add64 (max 32 cap) 1) false al g th
  simp only [Out.ret_bind', Out.ret.injEq] at e
  have h := h _ rfl
  unfold strInitEx
  rw [e]
  generalize vecInitEx w 1 (add64 (max 32 cap) 1) false al g th = r at h ⊢
  obtain ⟨st, o, w'⟩ := r
  show Acts δ w (if failed st then _ else _) (if failed st then _ else _)
  refine acts_ite (fun _ => acts_ret (r := (st, (none : Option Str), w')) h) fun _ => ?_
  cases o with
  | none => exact acts_ret (r := (st, (none : Option Str), w')) h
  | some v => exact acts_pre fun v' _ => acts_ret (r := (stSuccess, some (⟨⟨v', w'⟩, false⟩ : Str), w')) h

omit hδ in
theorem nullTerminate_moved (v : Vec Byte) (w : World Byte) (fx : Bool) :
    nullTerminate ⟨⟨v, δ w⟩, fx⟩ = (nullTerminate ⟨⟨v, w⟩, fx⟩).bind fun t => .ret (move δ t) := by
  unfold nullTerminate
  dsimp only
  cases strPoke v (sub64 v.size 1) (some 0#8) <;> rfl

omit hδ in
theorem nullTerminate_world {t t' : Str} (h : nullTerminate t = .ret t') : t'.s.w = t.s.w := by
  unfold nullTerminate at h
  cases hp : strPoke t.s.v (sub64 t.s.v.size 1) (some 0#8) with
  | ub u => rw [hp] at h; cases h
  | ret v => rw [hp] at h; cases h; rfl

omit hδ in
theorem dupInto_moved (v : Vec Byte) (w : World Byte) (fx : Bool) (src : View) :
    dupInto ⟨⟨v, δ w⟩, fx⟩ src = (dupInto ⟨⟨v, w⟩, fx⟩ src).bind fun t => .ret (move δ t) := by
  unfold dupInto
  dsimp only
  cases vecMemcpy v 0 (.ext src.mem) (sub64 src.size 1) with
  | ub u => rfl
  | ret v' => exact nullTerminate_moved _ _ _

omit hδ in
theorem concatInto_moved (v : Vec Byte) (w : World Byte) (fx : Bool) (s1 s2 : View) :
    concatInto ⟨⟨v, δ w⟩, fx⟩ s1 s2 = (concatInto ⟨⟨v, w⟩, fx⟩ s1 s2).bind fun t => .ret (move δ t) := by
  unfold concatInto
  dsimp only
  cases vecMemcpy v 0 (.ext s1.mem) (sub64 s1.size 1) with
  | ub u => rfl
  | ret v1 =>
    simp only [Out.ret_bind']
    cases vecMemcpy v1 (sub64 s1.size 1) (.ext s2.mem) (sub64 s2.size 1) with
    | ub u => rfl
    | ret v' => exact nullTerminate_moved _ _ _

omit hδ in
/-- Filling a new string. -/
theorem fill_acts {w : World Byte} {x y : Out (Status × Option Str × World Byte)} (h : Acts δ w x y)
    {f : Str → Out Str} (hf : ∀ v w fx, f ⟨⟨v, δ w⟩, fx⟩ = (f ⟨⟨v, w⟩, fx⟩).bind fun t => .ret (move δ t)) :
    Acts δ w
      (x.bind fun r => if failed r.1 then .ret r else match r.2.1 with
        | none => .ret r
        | some t => (f t).bind fun t => .ret (stSuccess, some t, r.2.2))
      (y.bind fun r => if failed r.1 then .ret r else match r.2.1 with
        | none => .ret r
        | some t => (f t).bind fun t => .ret (stSuccess, some t, r.2.2)) := by
  refine acts_bind h fun r hr => ?_
  obtain ⟨st, o, w'⟩ := r
  show Acts δ w (if failed st then _ else _) (if failed st then _ else _)
  refine acts_ite (fun _ => acts_ret (r := (st, o, w')) hr) fun _ => ?_
  cases o with
  | none => exact acts_ret (r := (st, (none : Option Str), w')) hr
  | some t =>
    have := hf t.s.v t.s.w t.fixed
    show Acts δ w ((f t).bind _) ((f (move δ t)).bind _)
    have e : f (move δ t) = (f t).bind fun t => .ret (move δ t) := this
    rw [e]
    cases f t with
    | ub u => exact acts_ub
    | ret t' => exact acts_ret (r := (stSuccess, some t', w')) hr

theorem strDuplicateEx_acts (w : World Byte) (src : View) (cap : Nat) (al : Option Nat) (g th : Nat) :
    Acts δ w (strDuplicateEx w src cap al g th) (strDuplicateEx (δ w) src cap al g th) := by
  unfold strDuplicateEx
  refine acts_ite (fun _ => acts_ret (r := (stInvalidArgument, (none : Option Str), w)) (.refl _)) fun _ => ?_
  exact fill_acts (strInitEx_acts hδ w _ al g th) fun v w fx => dupInto_moved v w fx src

theorem strConcatEx_acts (w : World Byte) (s1 s2 : View) (cap : Nat) (al : Option Nat) (g th : Nat) :
    Acts δ w (strConcatEx w s1 s2 cap al g th) (strConcatEx (δ w) s1 s2 cap al g th) := by
  unfold strConcatEx
  refine acts_ite (fun _ => acts_ret (r := (stInvalidArgument, (none : Option Str), w)) (.refl _)) fun _ => ?_
  exact fill_acts (strInitEx_acts hδ w _ al g th) fun v w fx => concatInto_moved v w fx s1 s2

theorem bsInitElements_acts : ∀ (n : Nat) (v : Vec Byte) (w : World Byte),
    Acts δ w (bsInitElements ⟨v, w⟩ n) (bsInitElements ⟨v, δ w⟩ n)
  | 0, _, _ => acts_same (.refl _)
  | n + 1, v, w => by
    unfold bsInitElements
    refine acts_check (vecPushBack_acts hδ v w _) (fun _ _ _ h => acts_same h) fun st v' w' h => ?_
    exact (bsInitElements_acts n v' w').after h

theorem bsInitEx_acts (w : World Byte) (n : Nat) (al : Option Nat) (g th : Nat) :
    Acts δ w (bsInitEx w n al g th) (bsInitEx (δ w) n al g th) := by
  obtain ⟨e, h⟩ := vecInitEx_acts hδ w 1 (bitsToBytes n) false al g th
  simp only [Out.ret_bind', Out.ret.injEq] at e
  have h := h _ rfl
  unfold bsInitEx
  dsimp only
  rw [e]
  generalize vecInitEx w 1 (bitsToBytes n) false al g th = r at h ⊢
  obtain ⟨st, o, w'⟩ := r
  show Acts δ w (if failed st then _ else _) (if failed st then _ else _)
  refine acts_ite (fun _ => acts_ret (r := (st, (none : Option Bits), w')) h) fun _ => ?_
  cases o with
  | none => exact acts_ret (r := (st, (none : Option Bits), w')) h
  | some v =>
    refine acts_check ((bsInitElements_acts hδ (bitsToBytes n) v w').after h) (fun st v w'' h => ?_)
      fun st v w'' h => ?_
    · exact acts_ret (r := (st, (none : Option Bits), w'')) h
    · exact acts_ret (r := (stSuccess, some (⟨n, ⟨v, w''⟩⟩ : Bits), w'')) h

end

/-! ## Objects among others -/

/-- An object of the program is the object of the specification. -/
def OHeld (w : World Byte) : Obj → AObj → Prop
  | .vec v, .vec x => VHeld w v x
  | .str v fx, .str P x => ∃ b sl, SRep P ⟨⟨v, place [] (home P b.id x.bytes) (base w)⟩, fx⟩ x b sl
  | .bits n v, .bits P x => ∃ bytes b sl, BRep P ⟨n, ⟨v, place [] (home P b.id x.cap) (base w)⟩⟩ x bytes b sl
  | _, _ => False

theorem SRep.at {P : Params} {t : Str} {x : SState} {b : Block Byte} {sl : List (Cell Byte)} (R : SRep P t x b sl)
    {u : World Byte} (hu : Reliable u) (hb : b.id < u.nextBlk) : OHeld u t.obj (.str P x) :=
  ⟨b, sl, R.rep.held hu hb, R.one, R.nod, R.fixed⟩

theorem BRep.at {P : Params} {t : Bits} {x : BState} {bytes : List Byte} {b : Block Byte} {sl : List (Cell Byte)}
    (R : BRep P t x bytes b sl) {u : World Byte} (hu : Reliable u) (hb : b.id < u.nextBlk) :
    OHeld u t.obj (.bits P x) :=
  ⟨bytes, b, sl, R.rep.held hu hb, R.par, R.size, R.flat, R.short⟩

/-- The memory of an object, and its independence of others. -/
theorem OHeld.core {w : World Byte} {o : Obj} {x : AObj} (h : OHeld w o x) :
    ∃ p, placeOf o.store = some p ∧ ∀ u, Reliable u → p.blk < u.nextBlk → OHeld u o x := by
  cases o <;> cases x <;> first | cases h | skip
  · rename_i b h
    obtain ⟨sl, R⟩ := h
    exact ⟨_, R.placeOf, fun u hu hb => ⟨b, sl, R.held hu hb⟩⟩
  · rename_i b h
    obtain ⟨sl, R⟩ := h
    exact ⟨_, R.rep.placeOf, fun u hu hb => R.at hu hb⟩
  · rename_i bytes h
    obtain ⟨b, sl, R⟩ := h
    exact ⟨_, R.rep.placeOf, fun u hu hb => R.at hu hb⟩

/-- A call of a string among others. -/
theorem str_held {P : Params} {w : World Byte} {x : SState} {b : Block Byte}
    (hr : Reliable w) (hid : b.id < w.nextBlk) {f : World Byte → Out (Status × Str)}
    (hf : ∀ pre t w, Acts (place pre t) w (f w) (f (place pre t w)))
    (hd : P.allocator = none → Ensures (f (place [] (home P b.id x.bytes) (base w))) fun r => SLodged (some b.id) r.2)
    {st : Status} {y : SState} (h : SRes P (f (place [] (home P b.id x.bytes) (base w))) st y) :
    ∃ t', f w = .ret (st, t') ∧ OHeld t'.s.w t'.obj (.str P y) ∧
      Took w t'.s.w (some (placed P b.id x.bytes)) (placeOf t'.s.v) [] := by
  obtain ⟨t, b', sl', e, R⟩ := h
  obtain ⟨⟨st', t''⟩, e1, e2, T⟩ := took_held (fun _ _ => rfl) hf hid e (v := t.s.v) R.rep fun hP => by
    have h2 := (hd hP _ e).vec.data
    rw [R.rep.data] at h2
    exact Option.some.inj h2
  simp only [move, Prod.mk.injEq] at e1
  obtain ⟨rfl, rfl⟩ := e1
  refine ⟨_, e2, ?_, ?_⟩
  · exact R.at (T.turn.grows.reliable hr) (T.ids _ rfl).1
  · have h1 := R.rep.placeOf
    dsimp only at h1
    show Took w _ _ (placeOf t''.s.v) []
    rw [h1]; exact T

/-- A call of a bitset among others. -/
theorem bits_held {P : Params} {w : World Byte} {x : BState} {b : Block Byte}
    (hr : Reliable w) (hid : b.id < w.nextBlk) {f : World Byte → Out (Status × Bits)}
    (hf : ∀ pre t w, Acts (place pre t) w (f w) (f (place pre t w)))
    (hd : P.allocator = none → Ensures (f (place [] (home P b.id x.cap) (base w))) fun r => Lodged (some b.id) r.2.s.v)
    {st : Status} {y : BState} {t : Bits} {bytes : List Byte} {b' : Block Byte} {sl' : List (Cell Byte)}
    (e : f (place [] (home P b.id x.cap) (base w)) = .ret (st, t)) (R : BRep P t y bytes b' sl') :
    ∃ t', f w = .ret (st, t') ∧ OHeld t'.s.w t'.obj (.bits P y) ∧
      Took w t'.s.w (some (placed P b.id x.cap)) (placeOf t'.s.v) [] := by
  obtain ⟨⟨st', t''⟩, e1, e2, T⟩ := took_held (fun _ _ => rfl) hf hid e (v := t.s.v) R.rep fun hP => by
    have h2 := (hd hP _ e).data
    rw [R.rep.data] at h2
    exact Option.some.inj h2
  simp only [move, Prod.mk.injEq] at e1
  obtain ⟨rfl, rfl⟩ := e1
  refine ⟨_, e2, ?_, ?_⟩
  · exact R.at (T.turn.grows.reliable hr) (T.ids _ rfl).1
  · have h1 := R.rep.placeOf
    dsimp only at h1
    show Took w _ _ (placeOf t''.s.v) []
    rw [h1]; exact T

/-- A new string. -/
theorem str_new {P : Params} {a : Nat} (hP : P.allocator = some a) {w : World Byte} (hr : Reliable w)
    {f : World Byte → Out (Status × Option Str × World Byte)}
    (hf : ∀ pre t w, Acts (place pre t) w (f w) (f (place pre t w)))
    {t : Str} (e : f (base w) = .ret (stSuccess, some t, t.s.w)) {y : SState} {b : Block Byte}
    {sl : List (Cell Byte)} (R : SRep P t y b sl) :
    ∃ t' w', f w = .ret (stSuccess, some t', w') ∧ OHeld w' t'.obj (.str P y) ∧
      Took w w' none (placeOf t'.s.v) [] := by
  obtain ⟨⟨st, o, w'⟩, e1, e2, T⟩ := took (fun _ _ => rfl) hf (w := w) (t := []) (by rw [place_nil]; exact e)
    (x := none) rfl rfl (v := t.s.v) R.rep fun h => by rw [hP] at h; cases h
  simp only [move, Prod.mk.injEq] at e1
  obtain ⟨rfl, e1, e3⟩ := e1
  cases o with
  | none => cases e1
  | some u =>
    simp only [Option.map_some, Option.some.injEq] at e1
    subst e1
    refine ⟨_, _, e2, ?_, ?_⟩
    · exact R.at (T.turn.grows.reliable hr) (T.ids _ rfl).1
    · have h1 := R.rep.placeOf
      dsimp only at h1
      show Took w _ _ (placeOf u.s.v) []
      rw [h1]; exact T

/-- A new bitset. -/
theorem bits_new {P : Params} {a : Nat} (hP : P.allocator = some a) {w : World Byte} (hr : Reliable w)
    {f : World Byte → Out (Status × Option Bits × World Byte)}
    (hf : ∀ pre t w, Acts (place pre t) w (f w) (f (place pre t w)))
    {t : Bits} (e : f (base w) = .ret (stSuccess, some t, t.s.w)) {y : BState} {bytes : List Byte} {b : Block Byte}
    {sl : List (Cell Byte)} (R : BRep P t y bytes b sl) :
    ∃ t' w', f w = .ret (stSuccess, some t', w') ∧ OHeld w' t'.obj (.bits P y) ∧
      Took w w' none (placeOf t'.s.v) [] := by
  obtain ⟨⟨st, o, w'⟩, e1, e2, T⟩ := took (fun _ _ => rfl) hf (w := w) (t := []) (by rw [place_nil]; exact e)
    (x := none) rfl rfl (v := t.s.v) R.rep fun h => by rw [hP] at h; cases h
  simp only [move, Prod.mk.injEq] at e1
  obtain ⟨rfl, e1, e3⟩ := e1
  cases o with
  | none => cases e1
  | some u =>
    simp only [Option.map_some, Option.some.injEq] at e1
    subst e1
    refine ⟨_, _, e2, ?_, ?_⟩
    · exact R.at (T.turn.grows.reliable hr) (T.ids _ rfl).1
    · have h1 := R.rep.placeOf
      dsimp only at h1
      show Took w _ _ (placeOf u.s.v) []
      rw [h1]; exact T

/-! ## The invariant of the program -/

/-- The invariant. -/
structure DInv (p : Desk) (S : Shelf) : Prop where
  tidy : Tidily p.w p.places
  dead : destroyedOf p.w.trace = S.dead
  objs : Matched (OHeld p.w) p.objs S.objs

theorem desk_set (l : List (Option Obj)) (w w' : World Byte) (i : Nat) (o : Option Obj) :
    Desk.places ⟨l.set i o, w'⟩ = (Desk.places ⟨l, w⟩).set i (o.bind fun o => placeOf o.store) := by
  simp [Desk.places]

theorem DInv.place {p : Desk} {S : Shelf} (_ : DInv p S) {i : Nat} {o : Obj}
    (h : p.objs[i]? = some (some o)) : p.places[i]? = some (placeOf o.store) := by
  unfold Desk.places
  rw [List.getElem?_map, h]
  rfl

/-- The turn of one object. -/
theorem DInv.turn {p : Desk} {S : Shelf} (I : DInv p S) {i : Nat} {o o' : Option Obj} {x' : Option AObj}
    (hi : p.objs[i]? = some o) {w' : World Byte} {dead : List (Cell Byte)}
    (T : Took p.w w' (o.bind fun o => placeOf o.store) (o'.bind fun o => placeOf o.store) dead)
    (hn : Both (OHeld w') o' x') :
    DInv ⟨p.objs.set i o', w'⟩ ⟨S.objs.set i x', S.dead ++ dead⟩ := by
  have hp : p.places[i]? = some (o.bind fun o => placeOf o.store) := by
    unfold Desk.places
    rw [List.getElem?_map, hi]
    rfl
  refine ⟨?_, ?_, ?_⟩
  · rw [desk_set _ p.w]
    exact I.tidy.turn hp T.turn T.ids
  · obtain ⟨es, e1, e2, _⟩ := T.turn.events
    show destroyedOf w'.trace = _
    rw [e1, destroyedOf_append, I.dead, e2]
  · refine I.objs.set ?_ i hn
    intro j v x hj hx h
    obtain ⟨q, hq, hm⟩ := h.core
    refine hm _ (T.turn.grows.reliable I.tidy.reliable) (Nat.lt_of_lt_of_le ?_ T.turn.grows.next)
    refine I.tidy.bound (i := j) (p := q) ?_
    rw [I.place hj, hq]

/-- One more object. -/
theorem DInv.add {p : Desk} {S : Shelf} (I : DInv p S) {o : Obj} {x : AObj} {w' : World Byte}
    (T : Took p.w w' none (placeOf o.store) []) (hn : OHeld w' o x) :
    DInv ⟨p.objs ++ [some o], w'⟩ (S.add x) := by
  have I' : DInv ⟨p.objs ++ [none], p.w⟩ ⟨S.objs ++ [none], S.dead⟩ := by
    refine ⟨?_, I.dead, I.objs.more⟩
    have := I.tidy.more
    simpa [Desk.places] using this
  have h := I'.turn (i := p.objs.length) (o := none) (o' := some o) (x' := some x) (by simp) T hn
  rw [List.append_nil] at h
  have e1 : (p.objs ++ [none]).set p.objs.length (some o) = p.objs ++ [some o] := set_last _ _ _
  have e2 : (S.objs ++ [none]).set p.objs.length (some x) = S.objs ++ [some x] := by
    rw [I.objs.length]; exact set_last _ _ _
  dsimp only at h
  rw [e1, e2] at h
  exact h

theorem DInv.put {p : Desk} {S : Shelf} (I : DInv p S) {i : Nat} {o o' : Obj} {x' : AObj}
    (hi : p.objs[i]? = some (some o)) {w' : World Byte} (T : Took p.w w' (placeOf o.store) (placeOf o'.store) [])
    (hn : OHeld w' o' x') : DInv ⟨p.objs.set i (some o'), w'⟩ (S.put i x') := by
  have h := I.turn (o' := some o') (x' := some x') hi T hn
  rw [List.append_nil] at h
  exact h

theorem DInv.str {p : Desk} {S : Shelf} (I : DInv p S) {i : Nat} {P : Params} {x : SState}
    (h : S.objs[i]? = some (some (.str P x))) :
    ∃ v fx b sl, p.objs[i]? = some (some (.str v fx)) ∧ p.str i = .ret ⟨⟨v, p.w⟩, fx⟩ ∧
      SRep P ⟨⟨v, Zy.place [] (home P b.id x.bytes) (base p.w)⟩, fx⟩ x b sl ∧ b.id < p.w.nextBlk ∧
      placeOf v = some (placed P b.id x.bytes) := by
  obtain ⟨o, ho, R⟩ := I.objs.get h
  cases o with
  | vec v => cases R
  | bits n v => cases R
  | str v fx =>
    obtain ⟨b, sl, R⟩ := R
    have hp : placeOf v = some (placed P b.id x.bytes) := R.rep.placeOf
    refine ⟨v, fx, b, sl, ho, by simp only [Desk.str, ho], R, ?_, hp⟩
    refine I.tidy.bound (i := i) (p := placed P b.id x.bytes) ?_
    rw [I.place ho]; exact congrArg some hp

theorem DInv.bits {p : Desk} {S : Shelf} (I : DInv p S) {i : Nat} {P : Params} {x : BState}
    (h : S.objs[i]? = some (some (.bits P x))) :
    ∃ n v bytes b sl, p.objs[i]? = some (some (.bits n v)) ∧ p.bits i = .ret ⟨n, ⟨v, p.w⟩⟩ ∧
      BRep P ⟨n, ⟨v, Zy.place [] (home P b.id x.cap) (base p.w)⟩⟩ x bytes b sl ∧ b.id < p.w.nextBlk ∧
      placeOf v = some (placed P b.id x.cap) := by
  obtain ⟨o, ho, R⟩ := I.objs.get h
  cases o with
  | vec v => cases R
  | str v fx => cases R
  | bits n v =>
    obtain ⟨bytes, b, sl, R⟩ := R
    have hp : placeOf v = some (placed P b.id x.cap) := R.rep.placeOf
    refine ⟨n, v, bytes, b, sl, ho, by simp only [Desk.bits, ho], R, ?_, hp⟩
    refine I.tidy.bound (i := i) (p := placed P b.id x.cap) ?_
    rw [I.place ho]; exact congrArg some hp

theorem DInv.vec {p : Desk} {S : Shelf} (I : DInv p S) {i : Nat} {x : AVec Byte}
    (h : S.objs[i]? = some (some (.vec x))) :
    ∃ v b sl, p.objs[i]? = some (some (.vec v)) ∧ p.vec i = .ret ⟨v, p.w⟩ ∧
      Held x.P p.w v x.elems x.cap b sl ∧ b.id < p.w.nextBlk ∧ placeOf v = some (placed x.P b.id x.cap) := by
  obtain ⟨o, ho, R⟩ := I.objs.get h
  cases o with
  | str v fx => cases R
  | bits n v => cases R
  | vec v =>
    obtain ⟨b, sl, R⟩ := R
    have hp : placeOf v = some (placed x.P b.id x.cap) := R.placeOf
    refine ⟨v, b, sl, ho, by simp only [Desk.vec, ho], R, ?_, hp⟩
    refine I.tidy.bound (i := i) (p := placed x.P b.id x.cap) ?_
    rw [I.place ho]; exact congrArg some hp

/-- The view of a represented string. -/
theorem SRep.strView_eq {P : Params} {v : Vec Byte} {w u : World Byte} {fx : Bool} {x : SState} {b : Block Byte}
    {sl : List (Cell Byte)} (R : SRep P ⟨⟨v, w⟩, fx⟩ x b sl) :
    strView ⟨⟨v, u⟩, fx⟩ = ⟨x.text ++ ([some 0#8] ++ sl), x.text.length + 1⟩ := by
  have h1 := R.rep.data
  have h2 := R.size
  have h3 := R.rep.cells
  dsimp only at h1 h2 h3
  simp only [strView, h1, h2, h3, List.append_assoc]

theorem Logic.call_eq (f : Logic) : ∃ g : Byte → Byte → Byte, Logic.call f = bsPerform (fun x y => (stSuccess, g x y)) ∧
    ∀ x y, byteBits (g x y) = List.zipWith f.bit (byteBits x) (byteBits y) := by
  cases f
  · exact ⟨_, rfl, byteBits_and⟩
  · exact ⟨_, rfl, byteBits_or⟩
  · exact ⟨_, rfl, byteBits_xor⟩

theorem bsInitEx_world {w w' : World Byte} {n al g th : Nat} {st : Status} {t : Bits}
    (h : bsInitEx w n (some al) g th = .ret (st, some t, w')) : t.s.w = w' := by
  unfold bsInitEx at h
  dsimp only at h
  generalize vecInitEx w 1 (bitsToBytes n) false (some al) g th = r at h
  obtain ⟨st, o, u⟩ := r
  dsimp only at h
  split at h
  · cases h
  · cases o with
    | none => cases h
    | some v =>
      dsimp only at h
      cases hb : bsInitElements ⟨v, u⟩ (bitsToBytes n) with
      | ub x => rw [hb] at h; cases h
      | ret q =>
        rw [hb, Out.ret_bind'] at h
        split at h
        · cases h
        · cases h; rfl

/-- The source of a logical operation is its memory. -/
theorem perform_src (op : Byte → Byte → Status × Byte) (t : Bits) (n : Nat) (v : Vec Byte) (w w' : World Byte) :
    bsPerform op t ⟨n, ⟨v, w⟩⟩ = bsPerform op t ⟨n, ⟨v, w'⟩⟩ := by
  obtain ⟨e, _⟩ := bsPerform_acts (δ := id) op t.size n t.s.v v t.s.w w w'
  dsimp only [id] at e
  refine (Eq.trans ?_ e.symm)
  show bsPerform op t ⟨n, ⟨v, w⟩⟩ = (bsPerform op t ⟨n, ⟨v, w⟩⟩).bind _
  cases bsPerform op t ⟨n, ⟨v, w⟩⟩ <;> rfl

/-- A new bitset in memory of the program. -/
theorem bufferBits {δ : World Byte → World Byte} (hδ : Moves δ) {u : World Byte} {id n cap : Nat}
    {cells : List (Cell Byte)} {t : Bits} (h0 : 1 ≤ cap)
    (e : bsInitBuffer u n (some ⟨id, cells⟩) cap = .ret (stSuccess, some t)) :
    bsInitBuffer (δ u) n (some ⟨id, cells⟩) cap = .ret (stSuccess, some (move δ t)) ∧
      t.s.v.data.map (fun b => b.id) = some id := by
  unfold bsInitBuffer at e ⊢
  dsimp only at e ⊢
  split at e
  · cases e
  rename_i hc
  rw [if_neg hc]
  have hv : ∃ v : Vec Byte, vecInitBuffer 1 (some (⟨id, cells⟩ : Block Byte)) cap false = (stSuccess, some v) ∧
      v.allocator = none ∧ v.data = some ⟨id, cells⟩ := by
    unfold vecInitBuffer
    simp only
    rw [if_neg (by omega)]
    exact ⟨_, rfl, rfl, rfl⟩
  obtain ⟨v, hv, hv1, hv2⟩ := hv
  rw [hv] at e ⊢
  simp only [failed_success, Bool.false_eq_true, if_false] at e ⊢
  obtain ⟨e1, _⟩ := bsInitElements_acts hδ (bitsToBytes n) v u
  rw [e1]
  have hl := bsInitElements_lodged (d := some id) (s := ⟨v, u⟩) (bitsToBytes n) ⟨hv1, by rw [hv2]; rfl⟩
  cases hb : bsInitElements ⟨v, u⟩ (bitsToBytes n) with
  | ub x => rw [hb] at e; cases e
  | ret q =>
    rw [hb, Out.ret_bind'] at e
    simp only [Out.ret_bind']
    split at e
    · simp only [Out.ret.injEq, Prod.mk.injEq, reduceCtorEq, and_false] at e
    · rename_i hq
      cases e
      refine ⟨?_, (hl _ hb).data⟩
      show (if failed q.1 then _ else _) = _
      rw [if_neg hq]
      rfl

/-- One command. -/
theorem deed_ok {p : Desk} {S : Shelf} (I : DInv p S) (c : Deed) (hc : Reasonable S c) :
    ∃ st p' S', p.exec c = .ret (st, p') ∧ Done S c st S' ∧ DInv p' S' := by
  have hr := I.tidy.reliable
  cases c with
  | newVector a g th esz cap dt =>
    obtain ⟨⟨h1, h2, h3⟩, h4, h5⟩ := hc
    let P : Params := ⟨some a, g, th, esz, dt⟩
    have hne : ¬ (esz = 0 ∨ g < 1) := by omega
    have hi : ∃ st v w', vecInitEx (base p.w) esz cap dt (some a) g th = (st, some v, w') := by
      unfold vecInitEx
      simp only
      rw [if_neg hne]
      exact ⟨_, _, _, rfl⟩
    obtain ⟨st, v, w', hi⟩ := hi
    obtain ⟨hst, b, sl, R⟩ := init_rep (P := P) (base_fresh p.w) (base_reliable hr) ⟨rfl, h2, h3⟩ h5 hi
    obtain ⟨⟨st', o, w''⟩, e1, e2, T⟩ := took (f := fun w => .ret (vecInitEx w esz cap dt (some a) g th))
      (fun _ _ => rfl) (fun pre t w => vecInitEx_acts (place_moves pre t) w _ _ _ _ _ _) (w := p.w) (t := [])
      (by rw [place_nil, hi]) (x := none) rfl rfl (v := v) R fun h => by cases h
    simp only [move, Prod.mk.injEq] at e1
    obtain ⟨rfl, rfl, rfl⟩ := e1
    simp only [Out.ret.injEq, move] at e2
    refine ⟨st, _, _, ?_, .newVector hst, I.add (o := .vec v) (w' := past p.w w'') ?_ ?_⟩
    · simp only [Desk.exec, e2, Option.map_some]
    · have := R.placeOf
      dsimp only at this
      show Took _ _ _ (placeOf v) _
      rw [this]
      exact T
    · exact ⟨b, sl, R.held (T.turn.grows.reliable hr) (T.ids _ rfl).1⟩
  | newVectorOn cells esz cap dt =>
    obtain ⟨h1, h2, h3, h4⟩ := hc
    let P : Params := ⟨none, 1, 0, esz, dt⟩
    have hi : ∃ v, vecInitBuffer esz (some ⟨p.w.nextBlk, cells⟩) cap dt = (stSuccess, some v) := by
      unfold vecInitBuffer
      simp only
      rw [if_neg (by omega)]
      exact ⟨_, rfl⟩
    obtain ⟨v, hi⟩ := hi
    obtain ⟨_, _, R⟩ := initBuffer_rep (P := P) (base_fresh p.w) (base_reliable hr) ⟨rfl, rfl, rfl⟩ h4 h2 hi
    have T := took_buffer (w := p.w) (P := P) rfl cap
    refine ⟨stSuccess, _, _, ?_, .newVectorOn, I.add (o := .vec v) (w' := { p.w with nextBlk := p.w.nextBlk + 1 }) ?_ ?_⟩
    · simp only [Desk.exec, hi, Option.map_some]
    · have := R.placeOf
      dsimp only at this
      show Took _ _ _ (placeOf v) _
      rw [this]
      exact T
    · exact ⟨_, _, R.held hr (Nat.lt_succ_self _)⟩
  | copyVector i a g th cap =>
    obtain ⟨⟨h1, h2, h3⟩, x, hx, h5⟩ := hc
    obtain ⟨s, b, sl, ho, hs, R, _, _⟩ := I.vec hx
    let P : Params := ⟨some a, g, th, x.P.esz, x.P.dtor⟩
    obtain ⟨v, w', b', sl', hd, R', _⟩ := duplicate_rep (P := P) R (base_fresh p.w) (base_reliable hr)
      (cap := cap) ⟨rfl, h2, h3, rfl, rfl⟩ h1 h5
    obtain ⟨⟨st', o, w''⟩, e1, e2, T⟩ := took (f := fun w => vecDuplicateEx w s cap (some a) g th)
      (fun _ _ => rfl) (fun pre t w => vecDuplicateEx_acts (place_moves pre t) w _ _ _ _ _) (w := p.w) (t := [])
      (by rw [place_nil]; exact hd) (x := none) rfl rfl (v := v) R' fun h => by cases h
    simp only [move, Prod.mk.injEq] at e1
    obtain ⟨rfl, rfl, rfl⟩ := e1
    simp only [move] at e2
    refine ⟨stSuccess, _, _, ?_, .copyVector hx, I.add (o := .vec v) (w' := past p.w w'') ?_ ?_⟩
    · simp only [Desk.exec, hs, e2, Out.ret_bind', Option.map_some]
    · have := R'.placeOf
      dsimp only at this
      show Took _ _ _ (placeOf v) _
      rw [this]
      exact T
    · exact ⟨b', sl', R'.held (T.turn.grows.reliable hr) (T.ids _ rfl).1⟩
  | newString a g th cap =>
    obtain ⟨⟨h1, h2, h3⟩, h4⟩ := hc
    obtain ⟨t, b, sl, e, R, _⟩ := strInitEx_ok (P := bytesFrom a g th) (base_fresh p.w) (base_reliable hr)
      ⟨rfl, h2, h3, rfl, rfl⟩ h1 h4
    obtain ⟨t', w', e', H, T⟩ := str_new (P := bytesFrom a g th) rfl hr
      (f := fun w => strInitEx w cap (some a) g th)
      (fun pre t w => strInitEx_acts (place_moves pre t) w _ _ _ _) e R
    exact ⟨stSuccess, _, _, by simp only [Desk.exec, e', Out.ret_bind', Option.map_some], .newString, I.add T H⟩
  | newStringOn cells cap =>
    obtain ⟨h1, h2⟩ := hc
    have T := took_buffer (w := p.w) (P := bytesOn) rfl cap
    obtain ⟨v, e, R⟩ := strInitBuffer_ok (P := bytesOn) (base_fresh p.w) (base_reliable hr)
      ⟨rfl, rfl, rfl, rfl, rfl⟩ (b := ⟨p.w.nextBlk, cells⟩) h2 (by omega)
    have e' : strInitBuffer p.w (some ⟨p.w.nextBlk, cells⟩) cap = .ret (stSuccess, some ⟨⟨v, p.w⟩, true⟩) := by
      unfold strInitBuffer at e ⊢
      rw [if_neg (by omega)] at e ⊢
      generalize vecInitBuffer 1 (some (⟨p.w.nextBlk, cells⟩ : Block Byte)) cap false = r at e ⊢
      obtain ⟨st, o⟩ := r
      dsimp only at e ⊢
      split at e
      · cases e
      · rename_i hf
        rw [if_neg hf]
        cases o with
        | none => cases e
        | some u =>
          dsimp only at e ⊢
          cases hs : strStart u with
          | ub x => rw [hs] at e; cases e
          | ret u' => rw [hs] at e; cases e; rfl
    refine ⟨stSuccess, _, _, by simp only [Desk.exec, e', Out.ret_bind', Option.map_some]; rfl, .newStringOn,
      I.add (w' := { p.w with nextBlk := p.w.nextBlk + 1 }) ?_ (R.at hr (Nat.lt_succ_self _))⟩
    have := R.rep.placeOf
    dsimp only at this
    show Took _ _ _ (placeOf v) _
    rw [this]
    exact T
  | copyString i a g th cap =>
    obtain ⟨⟨h1, h2, h3⟩, h4, Q, x, hx, h5⟩ := hc
    obtain ⟨v, fx, b, sl, ho, hs, R, _, _⟩ := I.str hx
    obtain ⟨t, b', sl', e, R', _⟩ := strDuplicateEx_ok (P := bytesFrom a g th) (base_fresh p.w) (base_reliable hr)
      ⟨rfl, h2, h3, rfl, rfl⟩ h1 h4 (x := x.text) (rest := [some 0#8] ++ sl) h5
    rw [← R.strView_eq (u := p.w)] at e
    obtain ⟨t', w', e', H, T⟩ := str_new (P := bytesFrom a g th) rfl hr
      (f := fun w => strDuplicateEx w (strView ⟨⟨v, p.w⟩, fx⟩) cap (some a) g th)
      (fun pre t w => strDuplicateEx_acts (place_moves pre t) w _ _ _ _ _) e R'
    exact ⟨stSuccess, _, _, by simp only [Desk.exec, hs, e', Out.ret_bind', Option.map_some], .copyString hx, I.add T H⟩
  | joinStrings i j a g th cap =>
    obtain ⟨⟨h1, h2, h3⟩, h4, Q, Q', x, y, hx, hy, h5⟩ := hc
    obtain ⟨v, fx, b, sl, ho, hs, R, _, _⟩ := I.str hx
    obtain ⟨v2, fx2, b2, sl2, ho2, hs2, R2, _, _⟩ := I.str hy
    obtain ⟨t, b', sl', e, R', _⟩ := strConcatEx_ok (P := bytesFrom a g th) (base_fresh p.w) (base_reliable hr)
      ⟨rfl, h2, h3, rfl, rfl⟩ h1 h4 (x := x.text) (y := y.text) (rest := [some 0#8] ++ sl)
      (rest' := [some 0#8] ++ sl2) h5
    rw [← R.strView_eq (u := p.w), ← R2.strView_eq (u := p.w)] at e
    obtain ⟨t', w', e', H, T⟩ := str_new (P := bytesFrom a g th) rfl hr
      (f := fun w => strConcatEx w (strView ⟨⟨v, p.w⟩, fx⟩) (strView ⟨⟨v2, p.w⟩, fx2⟩) cap (some a) g th)
      (fun pre t w => strConcatEx_acts (place_moves pre t) w _ _ _ _ _ _) e R'
    exact ⟨stSuccess, _, _, by simp only [Desk.exec, hs, hs2, e', Out.ret_bind', Option.map_some], .joinStrings hx hy,
      I.add T H⟩
  | newBits n a g th =>
    obtain ⟨⟨h1, h2, h3⟩, h4⟩ := hc
    obtain ⟨t, w1, b, sl, e, hs, R⟩ := binit_ok (P := bytesFrom a g th) (n := n) (base_fresh p.w) (base_reliable hr)
      ⟨rfl, h2, h3⟩ ⟨rfl, rfl⟩ h1
    have R := zero_rep ⟨rfl, rfl⟩ h4 hs R
    have hw1 := bsInitEx_world e
    subst hw1
    obtain ⟨t', w', e', H, T⟩ := bits_new (P := bytesFrom a g th) rfl hr
      (f := fun w => bsInitEx w n (some a) g th)
      (fun pre t w => bsInitEx_acts (place_moves pre t) w _ _ _ _) e R
    rw [bitsToBytes_eq h4.2] at H
    exact ⟨stSuccess, _, _, by simp only [Desk.exec, e', Out.ret_bind', Option.map_some], .newBits, I.add T H⟩
  | newBitsOn n cells cap =>
    obtain ⟨h1, h2, h3, h4, h5⟩ := hc
    have T := took_buffer (w := p.w) (P := bytesOn) rfl cap
    have hb : bitsToBytes n ≤ cap := by rw [bitsToBytes_eq h2]; exact h4
    obtain ⟨t, b', sl, e, hs, R⟩ := binitBuffer_ok (P := bytesOn) (n := n) (base_fresh p.w) (base_reliable hr)
      ⟨rfl, rfl, rfl⟩ ⟨rfl, rfl⟩ (b := ⟨p.w.nextBlk, cells⟩) h5 (by omega) hb
    have R := zero_rep ⟨rfl, rfl⟩ ⟨h1, h2⟩ hs R
    obtain ⟨e', hid⟩ := bufferBits (place_moves ((List.range p.w.calls).map p.w.oracle) p.w.trace) h3 e
    have hp : Zy.place ((List.range p.w.calls).map p.w.oracle) p.w.trace (base p.w) = p.w := past_base p.w
    rw [hp] at e'
    have hid : b'.id = p.w.nextBlk := by
      have := R.rep.data
      rw [this] at hid
      exact Option.some.inj hid
    refine ⟨stSuccess, ⟨p.objs ++ [some t.obj], { p.w with nextBlk := p.w.nextBlk + 1 }⟩, _, ?_, .newBitsOn,
      I.add ?_ (R.at hr (by rw [hid]; exact Nat.lt_succ_self _))⟩
    · simp only [Desk.exec, e', Out.ret_bind', Option.map_some]; rfl
    · have := R.rep.placeOf
      dsimp only at this
      show Took _ _ _ (placeOf t.s.v) _
      rw [this, hid]
      exact T
  | vectorCall i op =>
    obtain ⟨x, hx, hd⟩ := hc
    obtain ⟨v, b, sl, ho, hs, R, hb, hpl⟩ := I.vec hx
    obtain ⟨junk, st, y, v', w', b', sl', hj, hs', he, R', T⟩ := call_held R hr hb op hd
    refine ⟨st, _, _, ?_, .vectorCall hx junk hj hs', I.turn ho (o' := some (.vec v')) (w' := w') (dead := y.dead) ?_ ?_⟩
    · simp only [Desk.exec, hs, he, Out.ret_bind']
    · have h1 := R'.placeOf
      dsimp only at h1
      show Took _ _ (placeOf v) (placeOf v') _
      rw [hpl, h1]
      exact T
    · exact ⟨b', sl', R'⟩
  | stringCall i op =>
    obtain ⟨P, x, hx, hd⟩ := hc
    obtain ⟨v, fx, b, sl, ho, hs, R, hb, hpl⟩ := I.str hx
    obtain ⟨junk, st, t', y, b', sl', hj, hs', he, R'⟩ := sop_ok R op hd
    obtain ⟨t2, e2, H, T⟩ := str_held (P := P) (x := x) hr hb (f := fun w => strOp ⟨⟨v, w⟩, fx⟩ op)
      (fun pre t w => strOp_acts (place_moves pre t) v w fx op)
      (fun hP => strOp_lodged ⟨⟨R.rep.allocator.trans hP, by rw [R.rep.data]; rfl⟩⟩ op)
      (⟨t', b', sl', he, R'⟩ : SRes P _ st y)
    refine ⟨st, _, _, ?_, .stringCall hx junk hj hs', I.put ho (o' := t2.obj) ?_ H⟩
    · simp only [Desk.exec, hs, e2, Out.ret_bind']
    · show Took _ _ (placeOf v) _ _
      rw [hpl]; exact T
  | appendString i j =>
    obtain ⟨_, P, P', x, y, hx, hy, hf⟩ := hc
    obtain ⟨v, fx, b, sl, ho, hs, R, hb, hpl⟩ := I.str hx
    obtain ⟨v2, fx2, b2, sl2, ho2, hs2, R2, _, _⟩ := I.str hy
    have h := append_res R y.text ([some 0#8] ++ sl2) hf
    rw [← R2.strView_eq (u := p.w)] at h
    obtain ⟨t2, e2, H, T⟩ := str_held (P := P) (x := x) hr hb
      (f := fun w => strAppend ⟨⟨v, w⟩, fx⟩ (strView ⟨⟨v2, p.w⟩, fx2⟩))
      (fun pre t w => strAppendSrc_acts (place_moves pre t) v w fx _ _)
      (fun hP => strAppendSrc_lodged ⟨⟨R.rep.allocator.trans hP, by rw [R.rep.data]; rfl⟩⟩ _ _) h
    refine ⟨_, _, _, ?_, .appendString hx hy, I.put ho (o' := t2.obj) ?_ H⟩
    · simp only [Desk.exec, hs, hs2, e2, Out.ret_bind']
    · show Took _ _ (placeOf v) _ _
      rw [hpl]; exact T
  | bitsCall i op =>
    obtain ⟨P, x, hx, hd⟩ := hc
    obtain ⟨n, v, bytes, b, sl, ho, hs, R, hb, hpl⟩ := I.bits hx
    obtain ⟨t', bytes', b', sl', he, R'⟩ := bop_ok R op hd
    obtain ⟨t2, e2, H, T⟩ := bits_held (P := P) (x := x) hr hb (f := fun w => bsOp ⟨n, ⟨v, w⟩⟩ op)
      (fun pre t w => bsOp_acts (place_moves pre t) n v w op)
      (fun hP => bsOp_lodged ⟨R.rep.allocator.trans hP, by rw [R.rep.data]; rfl⟩ op) he R'
    refine ⟨_, _, _, ?_, .bitsCall hx, I.put ho (o' := t2.obj) ?_ H⟩
    · simp only [Desk.exec, hs, e2, Out.ret_bind']
    · show Took _ _ (placeOf v) _ _
      rw [hpl]; exact T
  | logic f i j =>
    obtain ⟨_, P, P', x, y, hx, hy⟩ := hc
    obtain ⟨n, v, bytes, b, sl, ho, hs, R, hb, hpl⟩ := I.bits hx
    obtain ⟨n2, v2, bytes2, b2, sl2, ho2, hs2, R2, _, _⟩ := I.bits hy
    obtain ⟨g, hg, hbits⟩ := Logic.call_eq f
    obtain ⟨t', b', he, _, R'⟩ := perform_ok R R2 g
    rw [flatBits_zipWith hbits, ← R.flat, ← R2.flat] at R'
    obtain ⟨t2, e2, H, T⟩ := bits_held (P := P) (x := x) hr hb
      (f := fun w => bsPerform (fun x y => (stSuccess, g x y)) ⟨n, ⟨v, w⟩⟩ ⟨n2, ⟨v2, p.w⟩⟩)
      (fun pre t w => bsPerform_acts _ n n2 v v2 w p.w p.w)
      (fun hP => bsPerform_lodged _ _ ⟨R.rep.allocator.trans hP, by rw [R.rep.data]; rfl⟩)
      (by rw [← he]; exact perform_src _ _ _ _ _ _) R'
    refine ⟨_, _, _, ?_, .logic hx hy, I.put ho (o' := t2.obj) ?_ H⟩
    · simp only [Desk.exec, hs, hs2, hg, e2, Out.ret_bind']
    · show Took _ _ (placeOf v) _ _
      rw [hpl]; exact T
  | destroy i =>
    obtain ⟨x, hx⟩ := hc
    cases x with
    | vec x =>
      obtain ⟨v, b, sl, ho, hs, R, hb, hpl⟩ := I.vec hx
      obtain ⟨s', he, T⟩ := destroy_held R
      refine ⟨stSuccess, _, _, ?_, .destroy hx, I.turn ho (o' := none) (x' := none) (w' := s'.w) ?_ trivial⟩
      · simp only [Desk.exec, ho, he, Out.ret_bind']
      · show Took _ _ (placeOf v) none _
        rw [hpl]; exact T
    | str P x =>
      obtain ⟨v, fx, b, sl, ho, hs, R, hb, hpl⟩ := I.str hx
      have hfx : fx = P.allocator.isNone := R.fixed
      cases hP : P.allocator with
      | none =>
        rw [hP] at hfx
        subst hfx
        have e : strDestroy ⟨⟨v, p.w⟩, true⟩ = .ret (stSuccess, ⟨⟨v, p.w⟩, true⟩) := rfl
        refine ⟨stSuccess, _, _, ?_, .destroy hx, I.turn ho (o' := none) (x' := none) (w' := p.w) ?_ trivial⟩
        · simp only [Desk.exec, ho, Option.isNone_none, e, Out.ret_bind']
        · show Took _ _ (placeOf v) none _
          rw [hpl]
          refine ⟨⟨.refl _, [], (List.append_nil _).symm, rfl, ?_⟩, fun q hq => nomatch hq⟩
          unfold placed
          rw [hP]; rfl
      | some a =>
        rw [hP] at hfx
        subst hfx
        obtain ⟨s', he, T⟩ := destroy_held (P := P) (w := p.w) R.rep
        rw [killed_nod R.nod] at T
        refine ⟨stSuccess, _, _, ?_, .destroy hx, I.turn ho (o' := none) (x' := none) (w' := s'.w) ?_ trivial⟩
        · simp only [Desk.exec, ho, strDestroy, Option.isNone_some, Bool.false_eq_true, if_false, he, Out.ret_bind']
        · show Took _ _ (placeOf v) none _
          rw [hpl]; exact T
    | bits P x =>
      obtain ⟨n, v, bytes, b, sl, ho, hs, R, hb, hpl⟩ := I.bits hx
      obtain ⟨s', he, T⟩ := destroy_held (P := P) (w := p.w) R.rep
      rw [killed_nod R.par.2] at T
      refine ⟨stSuccess, _, _, ?_, .destroy hx, I.turn ho (o' := none) (x' := none) (w' := s'.w) ?_ trivial⟩
      · simp only [Desk.exec, ho, bsDestroy, he, Out.ret_bind']
      · show Took _ _ (placeOf v) none _
        rw [hpl]; exact T

theorem deeds_ok (cs : List Deed) : ∀ {p : Desk} {S : Shelf}, DInv p S → AllReasonable S cs →
    ∃ sts p' S', p.run cs = .ret (sts, p') ∧ Story S cs sts S' ∧ DInv p' S' := by
  induction cs with
  | nil => intro p S I _; exact ⟨[], p, S, rfl, .nil S, I⟩
  | cons c cs ih =>
    intro p S I h
    cases h with
    | cons hc ht =>
      obtain ⟨st, p1, S1, e1, d1, I1⟩ := deed_ok I c hc
      obtain ⟨sts, p2, S2, e2, d2, I2⟩ := ih I1 (ht st S1 d1)
      exact ⟨st :: sts, p2, S2, by simp only [Desk.run, e1, e2, Out.ret_bind'], .cons d1 d2, I2⟩

theorem desk_start {w : World Byte} (hw : Fresh w) (hr : Reliable w) : DInv ⟨[], w⟩ ⟨[], []⟩ := by
  refine ⟨⟨⟨?_, ?_⟩, ?_, hr⟩, ?_, fun i => ?_⟩
  · intro i j p q h; simp [Desk.places] at h
  · refine ⟨.empty, by rw [hw.2]; rfl, fun k e => ?_⟩
    simp [Desk.places, Heap.empty]
  · intro i p h; simp [Desk.places] at h
  · show destroyedOf w.trace = []
    rw [hw.2]; rfl
  · show match ([] : List (Option Obj))[i]?, ([] : List (Option AObj))[i]? with | _, _ => _
    simp

theorem OHeld.shows {w : World Byte} {o : Obj} {x : AObj} (h : OHeld w o x) : o.shows w x := by
  cases o <;> cases x <;> first | cases h | skip
  · rename_i b h
    obtain ⟨sl, R⟩ := h
    refine ⟨?_, R.cap, R.size, R.allocator, R.esz⟩
    have hd := R.data
    have hs := R.size
    dsimp only at hd hs
    simp only [contents, hd, withData, hs, R.cells]
    unfold readRange
    simp
  · rename_i b h
    obtain ⟨sl, R⟩ := h
    exact ⟨R.abs_eq, R.terminated, R.rep.allocator, R.fixed⟩
  · rename_i bytes h
    obtain ⟨b, sl, R⟩ := h
    exact ⟨R.abs_eq, R.size, R.rep.allocator⟩

theorem DInv.shows {p : Desk} {S : Shelf} (I : DInv p S) : p.shows S := by
  refine ⟨I.objs.length, I.dead, fun i => ?_⟩
  have h := I.objs i
  cases hl : p.objs[i]? with
  | none =>
    cases hm : S.objs[i]? with
    | none => trivial
    | some y => rw [hl, hm] at h; cases y <;> cases h
  | some a =>
    cases hm : S.objs[i]? with
    | none => rw [hl, hm] at h; cases a <;> cases h
    | some y =>
      rw [hl, hm] at h
      cases a with
      | none => cases y <;> first | trivial | cases h
      | some v =>
        cases y with
        | none => cases h
        | some x => exact OHeld.shows h

end Zy
