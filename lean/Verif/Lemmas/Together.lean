import Verif.Lemmas.Requests
import Verif.Spec.AnyAllocator

/-!
# Lemmas: a call depends on the world only through the answers of the allocator

What happened before (the trace, the number of requests) has no influence on a call. The call appends events and
uses new block numbers.
-/

namespace Zy

open Spec

variable {α β γ : Type}

/-! ## Worlds -/

/-- The later world continues the earlier one: events are appended, and blocks get unused numbers. -/
structure Grows (w w' : World α) : Prop where
  oracle : w'.oracle = w.oracle
  calls : w.calls ≤ w'.calls
  next : w.nextBlk ≤ w'.nextBlk
  events : ∃ es, w'.trace = w.trace ++ es ∧ ∀ e ∈ es, match e with
    | .alloc _ b _ _ => w.nextBlk ≤ b ∧ b < w'.nextBlk
    | .realloc _ _ b _ _ => w.nextBlk ≤ b ∧ b < w'.nextBlk
    | _ => True

theorem Grows.refl (w : World α) : Grows w w :=
  ⟨rfl, Nat.le_refl _, Nat.le_refl _, [], (List.append_nil _).symm, fun _ h => nomatch h⟩

theorem Grows.trans {u v w : World α} (h : Grows u v) (h' : Grows v w) : Grows u w := by
  obtain ⟨es, e1, e2⟩ := h.events
  obtain ⟨fs, f1, f2⟩ := h'.events
  have n1 := h.next
  have n2 := h'.next
  refine ⟨h'.oracle.trans h.oracle, Nat.le_trans h.calls h'.calls, Nat.le_trans n1 n2, es ++ fs, ?_, ?_⟩
  · rw [f1, e1, List.append_assoc]
  · intro x hx
    rcases List.mem_append.1 hx with hx | hx
    · have := e2 x hx
      cases x <;> dsimp only at this ⊢ <;> omega
    · have := f2 x hx
      cases x <;> dsimp only at this ⊢ <;> omega

theorem grows_destroyed (w : World α) (x : Cell α) : Grows w (w.log (.destroy x)) :=
  ⟨rfl, Nat.le_refl _, Nat.le_refl _, [.destroy x], rfl, fun e h => by
    rw [List.mem_singleton] at h; subst h; trivial⟩

/-- A change of the past that no call notices. -/
structure Moves (δ : World α → World α) : Prop where
  log : ∀ w e, δ (w.log e) = (δ w).log e
  now : ∀ w, (δ w).oracle (δ w).calls = w.oracle w.calls
  next : ∀ w, (δ w).nextBlk = w.nextBlk
  call : ∀ w, δ { w with calls := w.calls + 1 } = { δ w with calls := (δ w).calls + 1 }
  block : ∀ w, δ { w with nextBlk := w.nextBlk + 1 } = { δ w with nextBlk := (δ w).nextBlk + 1 }

/-- Another past: answers `pre` and events `t` before everything else. -/
def place (pre : List Status) (t : List (Event α)) (w : World α) : World α :=
  { oracle := fun n => if n < pre.length then pre.getD n stSuccess else w.oracle (n - pre.length)
    calls := w.calls + pre.length
    nextBlk := w.nextBlk
    trace := t ++ w.trace }

theorem place_moves (pre : List Status) (t : List (Event α)) : Moves (place pre t) where
  log w e := by simp [place, World.log]
  now w := by
    show (if w.calls + pre.length < pre.length then _ else w.oracle (w.calls + pre.length - pre.length)) = _
    rw [if_neg (by omega), Nat.add_sub_cancel]
  next _ := rfl
  call w := by simp [place]; omega
  block _ := rfl

/-! ## Objects in a world -/

/-- Objects that live in a world. -/
class Located (α : outParam Type) (σ : Type) where
  world : σ → World α
  move : (World α → World α) → σ → σ

open Located

instance : Located α (VS α) := ⟨fun s => s.w, fun δ s => ⟨s.v, δ s.w⟩⟩
instance : Located Byte Str := ⟨fun t => t.s.w, fun δ t => ⟨⟨t.s.v, δ t.s.w⟩, t.fixed⟩⟩
instance : Located Byte Bits := ⟨fun t => t.s.w, fun δ t => ⟨t.size, ⟨t.s.v, δ t.s.w⟩⟩⟩
instance {σ : Type} [Located α σ] : Located α (Status × σ) := ⟨fun p => world p.2, fun δ p => (p.1, move δ p.2)⟩
instance : Located Byte (Str × β) := ⟨fun p => p.1.s.w, fun δ p => (move δ p.1, p.2)⟩

variable {σ τ : Type} [Located α σ] [Located α τ]

/-- `y` is `x` with another past, and `x` continues the world `w`. -/
def Acts (δ : World α → World α) (w : World α) (x y : Out σ) : Prop :=
  (y = x.bind fun r => .ret (move δ r)) ∧ ∀ r, x = .ret r → Grows w (world r)

section
variable {δ : World α → World α} {w : World α}

theorem acts_ret {r : σ} (h : Grows w (world r)) : Acts δ w (.ret r) (.ret (move δ r)) :=
  ⟨rfl, fun q hq => by cases hq; exact h⟩

theorem acts_ub {u : UB} : Acts (σ := σ) δ w (.ub u) (.ub u) := ⟨rfl, fun q hq => by cases hq⟩

theorem acts_ite {c : Prop} [Decidable c] {x y x' y' : Out σ} (h : c → Acts δ w x y) (h' : ¬ c → Acts δ w x' y') :
    Acts δ w (if c then x else x') (if c then y else y') := by
  split
  · exact h ‹_›
  · exact h' ‹_›

theorem acts_bind {x y : Out σ} (h : Acts δ w x y) {g g' : σ → Out τ}
    (hg : ∀ r, Grows w (world r) → Acts δ w (g r) (g' (move δ r))) : Acts δ w (x.bind g) (y.bind g') := by
  obtain ⟨h1, h2⟩ := h
  cases x with
  | ub u => rw [h1]; exact acts_ub
  | ret r => rw [h1]; exact hg r (h2 r rfl)

theorem acts_pre {m : Out β} {g g' : β → Out σ} (h : ∀ b, m = .ret b → Acts δ w (g b) (g' b)) :
    Acts δ w (m.bind g) (m.bind g') := by
  cases m with
  | ub u => exact acts_ub
  | ret b => exact h b rfl

theorem acts_withData {d : Option (Block β)} {f f' : Block β → Out σ} (h : ∀ b, d = some b → Acts δ w (f b) (f' b)) :
    Acts δ w (withData d f) (withData d f') := by
  cases d with
  | none => exact acts_ub
  | some b => exact h b rfl

theorem Acts.after {w' : World α} {x y : Out σ} (hw : Grows w w') (h : Acts δ w' x y) : Acts δ w x y :=
  ⟨h.1, fun r hr => hw.trans (h.2 r hr)⟩

end

/-! ## Vectors -/

section
variable {δ : World α → World α} (hδ : Moves δ)
include hδ

theorem destroyLoop_acts : ∀ (n : Nat) (v : Vec α) (w : World α) (i : Nat),
    Acts δ w (destroyLoop ⟨v, w⟩ i n) (destroyLoop ⟨v, δ w⟩ i n)
  | 0, _, w, _ => acts_ret (r := (⟨_, w⟩ : VS α)) (Grows.refl w)
  | n + 1, v, w, i => by
    unfold destroyLoop
    refine acts_withData fun b _ => ?_
    cases b.cells[i]? with
    | none => exact acts_ub
    | some x =>
      have := destroyLoop_acts n v (w.log (.destroy x)) (i + 1)
      rw [hδ.log] at this
      exact this.after (grows_destroyed w x)

theorem runDtors_acts (v : Vec α) (w : World α) (i n : Nat) :
    Acts δ w (runDtors ⟨v, w⟩ i n) (runDtors ⟨v, δ w⟩ i n) :=
  acts_ite (fun _ => destroyLoop_acts hδ _ _ _ _) fun _ => acts_ret (r := (⟨v, w⟩ : VS α)) (Grows.refl w)

theorem reallocBlock_moved (w : World α) (a : Nat) (b : Block α) (e n : Nat) :
    reallocBlock (δ w) a b e n =
      ((reallocBlock w a b e n).1, (reallocBlock w a b e n).2.1, δ (reallocBlock w a b e n).2.2) := by
  unfold reallocBlock
  simp only [hδ.now, hδ.next]
  by_cases hf : failed (w.oracle w.calls) = true
  · simp only [hf, if_true, hδ.log, hδ.call, hδ.next]
  · simp only [hf, if_false, Bool.false_eq_true]
    rw [hδ.log]
    have := hδ.block { w with calls := w.calls + 1 }
    dsimp only at this
    rw [this, hδ.call, hδ.next]

omit hδ in
theorem reallocBlock_grows (w : World α) (a : Nat) (b : Block α) (e n : Nat) :
    Grows w (reallocBlock w a b e n).2.2 := by
  unfold reallocBlock
  dsimp only
  split
  · exact ⟨rfl, Nat.le_succ _, Nat.le_refl _, [.refused a], rfl, fun e h => by
      rw [List.mem_singleton] at h; subst h; trivial⟩
  · exact ⟨rfl, Nat.le_succ _, Nat.le_succ _, [.realloc a b.id w.nextBlk e n], rfl, fun e h => by
      rw [List.mem_singleton] at h; subst h; exact ⟨Nat.le_refl _, Nat.lt_succ_self _⟩⟩

theorem reallocTo_acts (v : Vec α) (w : World α) (a c : Nat) :
    Acts δ w (reallocTo ⟨v, w⟩ a c) (reallocTo ⟨v, δ w⟩ a c) := by
  unfold reallocTo
  refine acts_withData fun b _ => ?_
  dsimp only
  rw [reallocBlock_moved hδ]
  have hg := reallocBlock_grows w a b v.esz c
  refine acts_ite (fun _ => ?_) fun _ => ?_
  · exact acts_ret (r := (_, (⟨_, (reallocBlock w a b v.esz c).2.2⟩ : VS α))) hg
  · exact acts_ret (r := (_, (⟨_, (reallocBlock w a b v.esz c).2.2⟩ : VS α))) hg

omit hδ in
theorem acts_same {st : Status} {v : Vec α} {w w' : World α} (h : Grows w' w) :
    Acts δ w' (.ret (st, (⟨v, w⟩ : VS α))) (.ret (st, ⟨v, δ w⟩)) :=
  acts_ret (r := (st, (⟨v, w⟩ : VS α))) h

theorem reallocate_acts (v : Vec α) (w : World α) (c : Nat) :
    Acts δ w (reallocate ⟨v, w⟩ c) (reallocate ⟨v, δ w⟩ c) := by
  unfold reallocate
  dsimp only
  cases v.allocator with
  | none => exact acts_ite (fun _ => acts_same (.refl _)) fun _ => acts_same (.refl _)
  | some a =>
    exact acts_ite (fun _ => acts_ite (fun _ => reallocTo_acts hδ _ _ _ _) fun _ => acts_same (.refl _))
      fun _ => reallocTo_acts hδ _ _ _ _

theorem growFor_acts (v : Vec α) (w : World α) (n : Nat) :
    Acts δ w (growFor ⟨v, w⟩ n) (growFor ⟨v, δ w⟩ n) :=
  acts_ite (fun _ => reallocate_acts hδ _ _ _) fun _ => acts_same (.refl _)

theorem shrinkAfter_acts (v : Vec α) (w : World α) :
    Acts δ w (shrinkAfter ⟨v, w⟩) (shrinkAfter ⟨v, δ w⟩) :=
  acts_ite (fun _ => reallocate_acts hδ _ _ _) fun _ => acts_same (.refl _)

omit hδ in
theorem shiftLeft_acts (v : Vec α) (w : World α) (i n : Nat) :
    Acts δ w (shiftLeft ⟨v, w⟩ i n) (shiftLeft ⟨v, δ w⟩ i n) :=
  acts_withData fun b _ => acts_pre fun cs _ =>
    acts_ret (r := (⟨{ v with data := some { b with cells := cs } }, w⟩ : VS α)) (.refl _)

omit hδ in
theorem shiftRight_acts (v : Vec α) (w : World α) (i n : Nat) :
    Acts δ w (shiftRight ⟨v, w⟩ i n) (shiftRight ⟨v, δ w⟩ i n) :=
  acts_withData fun b _ => acts_pre fun cs _ =>
    acts_ret (r := (⟨{ v with data := some { b with cells := cs } }, w⟩ : VS α)) (.refl _)

omit hδ in
/-- A call that fails or is followed by something else. -/
theorem acts_check {w : World α} {x y : Out (Status × VS α)} (h : Acts δ w x y)
    {g g' : Status × VS α → Out (Status × τ)} {e e' : Status × VS α → Out (Status × τ)}
    (he : ∀ st v w', Grows w w' → Acts δ w (e (st, ⟨v, w'⟩)) (e' (st, ⟨v, δ w'⟩)))
    (hg : ∀ st v w', Grows w w' → Acts δ w (g (st, ⟨v, w'⟩)) (g' (st, ⟨v, δ w'⟩))) :
    Acts δ w (x.bind fun r => if failed r.1 then e r else g r) (y.bind fun r => if failed r.1 then e' r else g' r) :=
  acts_bind h fun r hr => acts_ite (fun _ => he r.1 r.2.v r.2.w hr) fun _ => hg r.1 r.2.v r.2.w hr

theorem vecPushBack_acts (v : Vec α) (w : World α) (x : Src α) :
    Acts δ w (vecPushBack ⟨v, w⟩ x) (vecPushBack ⟨v, δ w⟩ x) := by
  unfold vecPushBack
  refine acts_ite (fun _ => acts_same (.refl _)) fun _ => ?_
  refine acts_check (growFor_acts hδ v w _) (fun _ _ _ h => acts_same h) fun st v w' h => ?_
  exact acts_withData fun b _ => acts_pre fun b' _ => acts_same h

theorem vecInsertRange_acts (v : Vec α) (w : World α) (i : Nat) (x : Src α) (n : Nat) :
    Acts δ w (vecInsertRange ⟨v, w⟩ i x n) (vecInsertRange ⟨v, δ w⟩ i x n) := by
  unfold vecInsertRange
  refine acts_ite (fun _ => acts_same (.refl _)) fun _ => acts_ite (fun _ => acts_same (.refl _)) fun _ => ?_
  refine acts_check (growFor_acts hδ v w _) (fun _ _ _ h => acts_same h) fun st v w' h => ?_
  dsimp only
  refine acts_bind (acts_ite (fun _ => (shiftRight_acts v w' _ _).after h) fun _ =>
    acts_ret (r := (⟨v, w'⟩ : VS α)) h) fun r hr => ?_
  exact acts_withData fun b _ => acts_pre fun b' _ => acts_same hr

theorem vecEmplaceEx_acts (v : Vec α) (w : World α) (i : Nat) (c : Ctor α) :
    Acts δ w (vecEmplaceEx ⟨v, w⟩ i c) (vecEmplaceEx ⟨v, δ w⟩ i c) := by
  unfold vecEmplaceEx
  refine acts_ite (fun _ => acts_same (.refl _)) fun _ => ?_
  refine acts_check (growFor_acts hδ v w _) (fun _ _ _ h => acts_same h) fun st v w' h => ?_
  dsimp only
  refine acts_bind (acts_ite (fun _ => (shiftRight_acts v w' _ _).after h) fun _ =>
    acts_ret (r := (⟨v, w'⟩ : VS α)) h) fun r hr => ?_
  cases c with
  | none => exact acts_same hr
  | some f =>
    refine acts_withData (d := r.v.data) fun b _ => ?_
    cases b.cells[i]? with
    | none => exact acts_ub
    | some x => exact acts_ite (fun _ => acts_same hr) fun _ => acts_same hr

theorem vecSet_acts (v : Vec α) (w : World α) (i : Nat) (x : Src α) :
    Acts δ w (vecSet ⟨v, w⟩ i x) (vecSet ⟨v, δ w⟩ i x) := by
  unfold vecSet
  refine acts_ite (fun _ => acts_same (.refl _)) fun _ => acts_ite (fun _ => acts_same (.refl _)) fun _ => ?_
  refine acts_bind (runDtors_acts hδ v w _ _) fun r hr => ?_
  exact acts_withData fun b _ => acts_pre fun b' _ => acts_same hr

omit hδ in
theorem vecSwap_acts (v : Vec α) (w : World α) (i j : Nat) :
    Acts δ w (vecSwap ⟨v, w⟩ i j) (vecSwap ⟨v, δ w⟩ i j) :=
  acts_ite (fun _ => acts_same (.refl _)) fun _ => acts_ite (fun _ => acts_same (.refl _)) fun _ =>
    acts_withData fun _ _ => acts_pre fun _ _ => acts_pre fun _ _ => acts_pre fun _ _ => acts_same (.refl _)

theorem vecDeleteRange_acts (v : Vec α) (w : World α) (i n : Nat) :
    Acts δ w (vecDeleteRange ⟨v, w⟩ i n) (vecDeleteRange ⟨v, δ w⟩ i n) := by
  unfold vecDeleteRange
  refine acts_ite (fun _ => acts_same (.refl _)) fun _ => acts_ite (fun _ => acts_same (.refl _)) fun _ => ?_
  refine acts_bind (runDtors_acts hδ v w _ _) fun r hr => ?_
  refine acts_bind (acts_ite (fun _ => (shiftLeft_acts r.v r.w _ _).after hr) fun _ => acts_ret hr) fun q hq => ?_
  exact (shrinkAfter_acts hδ _ _).after hq

theorem vecPopBack_acts (v : Vec α) (w : World α) :
    Acts δ w (vecPopBack ⟨v, w⟩) (vecPopBack ⟨v, δ w⟩) := by
  unfold vecPopBack
  refine acts_ite (fun _ => acts_same (.refl _)) fun _ => ?_
  refine acts_bind (runDtors_acts hδ v w _ _) fun r hr => ?_
  exact (shrinkAfter_acts hδ _ _).after hr

theorem vecResizeEx_acts (v : Vec α) (w : World α) (n : Nat) (x : Src α) :
    Acts δ w (vecResizeEx ⟨v, w⟩ n x) (vecResizeEx ⟨v, δ w⟩ n x) := by
  unfold vecResizeEx
  refine acts_ite (fun _ => acts_same (.refl _)) fun _ => ?_
  refine acts_bind (acts_ite (fun _ => runDtors_acts hδ v w _ _) fun _ =>
    acts_ret (r := (⟨v, w⟩ : VS α)) (.refl _)) fun q hq => ?_
  refine acts_check (acts_ite (fun _ => (reallocate_acts hδ q.v q.w _).after hq) fun _ => acts_same hq)
    (fun _ _ _ h => acts_same h) fun st v w' h => ?_
  exact acts_ite (fun _ => acts_withData fun b _ => acts_pre fun b' _ => acts_same h) fun _ => acts_same h

theorem vecReserve_acts (v : Vec α) (w : World α) (n : Nat) :
    Acts δ w (vecReserve ⟨v, w⟩ n) (vecReserve ⟨v, δ w⟩ n) :=
  acts_ite (fun _ => acts_check (reallocate_acts hδ v w _) (fun _ _ _ h => acts_same h) fun _ _ _ h => acts_same h)
    fun _ => acts_same (.refl _)

theorem vecOp_acts (v : Vec α) (w : World α) (op : VOp α) :
    Acts δ w (vecOp ⟨v, w⟩ op) (vecOp ⟨v, δ w⟩ op) := by
  unfold vecOp
  cases op with
  | push x => exact vecPushBack_acts hδ v w _
  | insertRange i xs => exact vecInsertRange_acts hδ v w _ _ _
  | emplace i c => exact vecEmplaceEx_acts hδ v w _ _
  | set i x => exact vecSet_acts hδ v w _ _
  | swap i j => exact vecSwap_acts v w _ _
  | deleteRange i n => exact vecDeleteRange_acts hδ v w _ _
  | pop => exact vecPopBack_acts hδ v w
  | clear => exact vecResizeEx_acts hδ v w _ _
  | resize n x => exact vecResizeEx_acts hδ v w _ _
  | reserve c => exact vecReserve_acts hδ v w _
  | shrinkToFit => exact reallocate_acts hδ v w _

theorem vecDestroy_acts (v : Vec α) (w : World α) :
    Acts δ w (vecDestroy ⟨v, w⟩) (vecDestroy ⟨v, δ w⟩) := by
  unfold vecDestroy
  refine acts_bind (runDtors_acts hδ v w _ _) fun r hr => ?_
  have e : (move δ r).v = r.v := rfl
  rw [e]
  cases r.v.allocator with
  | none => exact acts_same hr
  | some a =>
    dsimp only
    refine acts_ite (fun _ => ?_) fun _ => acts_same hr
    refine acts_withData fun b _ => ?_
    have hm : deallocate (δ r.w) a b r.v.esz r.v.cap =
        ((deallocate r.w a b r.v.esz r.v.cap).1, δ (deallocate r.w a b r.v.esz r.v.cap).2) := by
      unfold deallocate
      simp only [hδ.now]
      split <;> simp only [hδ.log, hδ.call]
    have hg : Grows r.w (deallocate r.w a b r.v.esz r.v.cap).2 := by
      unfold deallocate
      dsimp only
      split
      · exact ⟨rfl, Nat.le_succ _, Nat.le_refl _, [.refused a], rfl, fun e h => by
          rw [List.mem_singleton] at h; subst h; trivial⟩
      · exact ⟨rfl, Nat.le_succ _, Nat.le_refl _, [.dealloc a b.id r.v.esz r.v.cap], rfl, fun e h => by
          rw [List.mem_singleton] at h; subst h; trivial⟩
    have e2 : (move δ r).w = δ r.w := rfl
    rw [e2, hm]
    exact acts_ite (fun _ => acts_same (Grows.trans hr hg)) fun _ => acts_same (Grows.trans hr hg)

end

/-! ## Strings -/

section
variable {δ : World Byte → World Byte}

theorem acts_str {st : Status} {v : Vec Byte} {w w' : World Byte} {fx : Bool} (h : Grows w' w) :
    Acts δ w' (.ret (st, (⟨⟨v, w⟩, fx⟩ : Str))) (.ret (st, ⟨⟨v, δ w⟩, fx⟩)) :=
  acts_ret (r := (st, (⟨⟨v, w⟩, fx⟩ : Str))) h

theorem nullTerminate_acts (v : Vec Byte) (w w' : World Byte) (fx : Bool) (h : Grows w' w) :
    Acts δ w' ((nullTerminate ⟨⟨v, w⟩, fx⟩).bind fun t => .ret (stSuccess, t))
      ((nullTerminate ⟨⟨v, δ w⟩, fx⟩).bind fun t => .ret (stSuccess, t)) := by
  unfold nullTerminate
  dsimp only
  cases strPoke v (sub64 v.size 1) (some 0#8) with
  | ub u => exact acts_ub
  | ret x => exact acts_str h

theorem checkTerminate_acts {w : World Byte} {x y : Out (Status × VS Byte)} (h : Acts δ w x y)
    (s s' : VS Byte) (fx : Bool) :
    Acts δ w (x.bind fun r => checkTerminate ⟨s, fx⟩ r) (y.bind fun r => checkTerminate ⟨s', fx⟩ r) :=
  acts_check h (fun _ _ _ h => acts_str h) fun _ _ _ h => nullTerminate_acts _ _ _ _ h

variable (hδ : Moves δ)
include hδ

theorem strAppendSrc_acts (v : Vec Byte) (w : World Byte) (fx : Bool) (src : Src Byte) (n : Nat) :
    Acts δ w (strAppendSrc ⟨⟨v, w⟩, fx⟩ src n) (strAppendSrc ⟨⟨v, δ w⟩, fx⟩ src n) := by
  unfold strAppendSrc
  refine acts_ite (fun _ => acts_str (.refl _)) fun _ => ?_
  refine acts_check (vecResizeEx_acts hδ v w _ _) (fun _ _ _ h => acts_str h) fun _ _ _ h => ?_
  exact acts_pre fun _ _ => nullTerminate_acts _ _ _ _ h

theorem strAppendExSrc_acts (v : Vec Byte) (w : World Byte) (fx : Bool) (src : Src Byte) (n i c : Nat) :
    Acts δ w (strAppendExSrc ⟨⟨v, w⟩, fx⟩ src n i c) (strAppendExSrc ⟨⟨v, δ w⟩, fx⟩ src n i c) := by
  unfold strAppendExSrc
  refine acts_ite (fun _ => acts_str (.refl _)) fun _ => acts_ite (fun _ => acts_str (.refl _)) fun _ => ?_
  refine acts_check (vecResizeEx_acts hδ v w _ _) (fun _ _ _ h => acts_str h) fun _ _ _ h => ?_
  exact acts_pre fun _ _ => nullTerminate_acts _ _ _ _ h

theorem strResize_acts (v : Vec Byte) (w : World Byte) (fx : Bool) (n : Nat) :
    Acts δ w (strResize ⟨⟨v, w⟩, fx⟩ n) (strResize ⟨⟨v, δ w⟩, fx⟩ n) :=
  checkTerminate_acts (vecResizeEx_acts hδ v w _ _) _ _ _

omit hδ in
theorem strCaseEx_acts (f : Byte → Byte) (v : Vec Byte) (w : World Byte) (fx : Bool) (i n : Nat) :
    Acts δ w (strCaseEx f ⟨⟨v, w⟩, fx⟩ i n) (strCaseEx f ⟨⟨v, δ w⟩, fx⟩ i n) :=
  acts_ite (fun _ => acts_str (.refl _)) fun _ => acts_pre fun _ _ => acts_str (.refl _)

theorem strOp_acts (v : Vec Byte) (w : World Byte) (fx : Bool) (op : SOp) :
    Acts δ w (strOp ⟨⟨v, w⟩, fx⟩ op) (strOp ⟨⟨v, δ w⟩, fx⟩ op) := by
  unfold strOp
  cases op with
  | append x => exact strAppendSrc_acts hδ v w fx _ _
  | appendEx x j n => exact strAppendExSrc_acts hδ v w fx _ _ _ _
  | insert i x =>
    dsimp only
    unfold strInsert
    refine acts_ite (fun _ => acts_str (.refl _)) fun _ => acts_ite (fun _ => ?_) fun _ =>
      acts_ite (fun _ => acts_str (.refl _)) fun _ => ?_
    · exact strAppendSrc_acts hδ v w fx _ _
    · exact acts_check (vecInsertRange_acts hδ v w _ _ _) (fun _ _ _ h => acts_str h) fun _ _ _ h => acts_str h
  | insertEx i x j n =>
    dsimp only
    unfold strInsertEx
    refine acts_ite (fun _ => acts_str (.refl _)) fun _ => acts_ite (fun _ => ?_) fun _ =>
      acts_ite (fun _ => acts_str (.refl _)) fun _ => acts_ite (fun _ => acts_str (.refl _)) fun _ => ?_
    · exact strAppendExSrc_acts hδ v w fx _ _ _ _
    · exact acts_check (vecInsertRange_acts hδ v w _ _ _) (fun _ _ _ h => acts_str h) fun _ _ _ h => acts_str h
  | delete i n =>
    exact acts_ite (fun _ => acts_str (.refl _)) fun _ => checkTerminate_acts (vecDeleteRange_acts hδ v w _ _) _ _ _
  | truncate i =>
    exact acts_ite (fun _ => acts_str (.refl _)) fun _ => checkTerminate_acts (vecDeleteRange_acts hδ v w _ _) _ _ _
  | clear =>
    exact acts_check (vecResizeEx_acts hδ v w _ _) (fun _ _ _ h => acts_str h) fun _ _ _ h =>
      acts_pre fun _ _ => acts_str h
  | setChar i c =>
    exact acts_ite (fun _ => acts_str (.refl _)) fun _ => acts_bind (vecSet_acts hδ v w _ _) fun _ h => acts_str h
  | lower i n => exact strCaseEx_acts _ v w fx i n
  | upper i n => exact strCaseEx_acts _ v w fx i n
  | resize n => exact strResize_acts hδ v w fx n
  | reserve c => exact acts_bind (vecReserve_acts hδ v w _) fun _ h => acts_str h
  | shrinkToFit => exact acts_bind (reallocate_acts hδ v w _) fun _ h => acts_str h

theorem strDestroy_acts (v : Vec Byte) (w : World Byte) (fx : Bool) :
    Acts δ w (strDestroy ⟨⟨v, w⟩, fx⟩) (strDestroy ⟨⟨v, δ w⟩, fx⟩) :=
  acts_ite (fun _ => acts_str (.refl _)) fun _ => acts_bind (vecDestroy_acts hδ v w) fun _ h => acts_str h

end

/-! ## Bitsets -/

section
variable {δ : World Byte → World Byte}

theorem acts_bits {st : Status} {v : Vec Byte} {w w' : World Byte} {n : Nat} (h : Grows w' w) :
    Acts δ w' (.ret (st, (⟨n, ⟨v, w⟩⟩ : Bits))) (.ret (st, ⟨n, ⟨v, δ w⟩⟩)) :=
  acts_ret (r := (st, (⟨n, ⟨v, w⟩⟩ : Bits))) h

theorem vecStore_acts (v : Vec Byte) (w : World Byte) (k : Nat) (c : Cell Byte) :
    Acts δ w (vecStore ⟨v, w⟩ k c) (vecStore ⟨v, δ w⟩ k c) :=
  acts_withData fun b _ => acts_pre fun cs _ =>
    acts_ret (r := (⟨{ v with data := some { b with cells := cs } }, w⟩ : VS Byte)) (.refl _)

theorem withPointer_acts {σ : Type} [Located Byte σ] {w' : World Byte} (v : Vec Byte) (w w2 : World Byte) (i : Nat)
    {e e' : Status → σ} (he : ∀ st, Acts δ w' (.ret (e st)) (.ret (e' st)))
    {f f' : Nat → Out σ} (hf : ∀ p, Acts δ w' (f p) (f' p)) :
    Acts δ w' (withPointer ⟨v, w⟩ i e f) (withPointer ⟨v, w2⟩ i e' f') := by
  unfold withPointer
  have eq : vecGetPointer (⟨v, w2⟩ : VS Byte) i = vecGetPointer ⟨v, w⟩ i := rfl
  rw [eq]
  refine acts_ite (fun _ => he _) fun _ => ?_
  cases (vecGetPointer (⟨v, w⟩ : VS Byte) i).2 with
  | none => exact acts_ub
  | some p => exact hf p

theorem bsMapLoop_acts (f : VS Byte → Nat → Out Byte) (hf : ∀ v (w : World Byte) p, f ⟨v, δ w⟩ p = f ⟨v, w⟩ p) :
    ∀ (n : Nat) (v : Vec Byte) (w : World Byte) (i : Nat),
    Acts δ w (bsMapLoop f n ⟨v, w⟩ i) (bsMapLoop f n ⟨v, δ w⟩ i)
  | 0, _, _, _ => acts_same (.refl _)
  | n + 1, v, w, i => by
    unfold bsMapLoop
    refine withPointer_acts v w (δ w) i (fun st => acts_same (.refl _)) fun p => ?_
    rw [hf]
    refine acts_pre fun x _ => acts_bind (vecStore_acts v w _ _) fun r hr => ?_
    exact (bsMapLoop_acts f hf n r.v r.w (i + 1)).after hr

theorem bsOpLoop_acts (op : Byte → Byte → Status × Byte) (u : Vec Byte) (w1 w2 : World Byte) :
    ∀ (n : Nat) (v : Vec Byte) (w : World Byte) (i : Nat),
    Acts δ w (bsOpLoop op ⟨u, w1⟩ n ⟨v, w⟩ i) (bsOpLoop op ⟨u, w2⟩ n ⟨v, δ w⟩ i)
  | 0, _, _, _ => acts_same (.refl _)
  | n + 1, v, w, i => by
    unfold bsOpLoop
    refine withPointer_acts v w (δ w) i (fun st => acts_same (.refl _)) fun p => ?_
    refine withPointer_acts u w1 w2 i (fun st => acts_same (.refl _)) fun q => ?_
    have e1 : loadByte ⟨v, δ w⟩ p = loadByte ⟨v, w⟩ p := rfl
    have e2 : loadByte ⟨u, w2⟩ q = loadByte ⟨u, w1⟩ q := rfl
    rw [e1, e2]
    refine acts_pre fun x _ => acts_pre fun y _ => acts_bind (vecStore_acts v w _ _) fun r hr => ?_
    exact acts_ite (fun _ => acts_same hr) fun _ => (bsOpLoop_acts op u w1 w2 n r.v r.w (i + 1)).after hr

theorem bsMapAll_acts (f : VS Byte → Nat → Out Byte) (hf : ∀ v (w : World Byte) p, f ⟨v, δ w⟩ p = f ⟨v, w⟩ p)
    (n : Nat) (v : Vec Byte) (w : World Byte) :
    Acts δ w (bsMapAll f ⟨n, ⟨v, w⟩⟩) (bsMapAll f ⟨n, ⟨v, δ w⟩⟩) :=
  acts_bind (bsMapLoop_acts f hf _ v w 0) fun _ h => acts_bits h

theorem bsPerform_acts (op : Byte → Byte → Status × Byte) (n m : Nat) (v u : Vec Byte) (w w1 w2 : World Byte) :
    Acts δ w (bsPerform op ⟨n, ⟨v, w⟩⟩ ⟨m, ⟨u, w1⟩⟩) (bsPerform op ⟨n, ⟨v, δ w⟩⟩ ⟨m, ⟨u, w2⟩⟩) :=
  acts_bind (bsOpLoop_acts op u w1 w2 _ v w 0) fun _ h => acts_bits h

theorem bsModify_acts (f : Byte → Byte → Byte) (n : Nat) (v : Vec Byte) (w : World Byte) (i : Nat) :
    Acts δ w (bsModify f ⟨n, ⟨v, w⟩⟩ i) (bsModify f ⟨n, ⟨v, δ w⟩⟩ i) := by
  unfold bsModify
  refine acts_ite (fun _ => acts_bits (.refl _)) fun _ => ?_
  refine withPointer_acts v w (δ w) _ (fun st => acts_bits (.refl _)) fun p => ?_
  exact acts_pre fun x _ => acts_bind (vecStore_acts v w _ _) fun r hr => acts_bits hr

theorem bsAssign_acts (n : Nat) (v : Vec Byte) (w : World Byte) (i : Nat) (b : Bool) :
    Acts δ w (bsAssign ⟨n, ⟨v, w⟩⟩ i b) (bsAssign ⟨n, ⟨v, δ w⟩⟩ i b) :=
  acts_ite (fun _ => bsModify_acts _ n v w i) fun _ => bsModify_acts _ n v w i

variable (hδ : Moves δ)
include hδ

theorem bsOp_acts (n : Nat) (v : Vec Byte) (w : World Byte) (op : BOp) :
    Acts δ w (bsOp ⟨n, ⟨v, w⟩⟩ op) (bsOp ⟨n, ⟨v, δ w⟩⟩ op) := by
  unfold bsOp
  cases op with
  | push b =>
    dsimp only
    unfold bsPush
    refine acts_check (acts_ite (fun _ => vecPushBack_acts hδ v w _) fun _ => acts_same (.refl _))
      (fun _ _ _ h => acts_bits h) fun _ _ _ h => ?_
    exact (bsAssign_acts _ _ _ _ _).after h
  | pop =>
    dsimp only
    unfold bsPop
    exact acts_ite (fun _ => acts_bind (vecPopBack_acts hδ v w) fun _ h => acts_bits h) fun _ => acts_bits (.refl _)
  | set i => exact bsModify_acts _ n v w i
  | reset i => exact bsModify_acts _ n v w i
  | assign i b => exact bsAssign_acts n v w i b
  | toggle i => exact bsModify_acts _ n v w i
  | setAll =>
    dsimp only
    unfold bsSetAll
    refine bsMapAll_acts (δ := δ) _ ?_ n v w
    exact fun _ _ _ => rfl
  | resetAll =>
    dsimp only
    unfold bsResetAll
    refine bsMapAll_acts (δ := δ) _ ?_ n v w
    exact fun _ _ _ => rfl
  | flip =>
    dsimp only
    unfold bsFlip
    refine bsMapAll_acts (δ := δ) _ ?_ n v w
    exact fun _ _ _ => rfl
  | clear => exact acts_bind (vecResizeEx_acts hδ v w _ _) fun _ h => acts_bits h
  | reserve c => exact acts_bind (vecReserve_acts hδ v w _) fun _ h => acts_bits h
  | shrinkToFit => exact acts_bind (reallocate_acts hδ v w _) fun _ h => acts_bits h

theorem bsDestroy_acts (n : Nat) (v : Vec Byte) (w : World Byte) :
    Acts δ w (bsDestroy ⟨n, ⟨v, w⟩⟩) (bsDestroy ⟨n, ⟨v, δ w⟩⟩) :=
  acts_bind (vecDestroy_acts hδ v w) fun _ h => acts_bits h

end

end Zy
