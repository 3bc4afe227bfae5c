import Verif.Lemmas.VectorOracle
import Verif.Spec.AnyAllocator

/-!
# Lemmas: strings and bitsets with an arbitrary allocator

A call may ask the allocator several times. It does what it does with a granting allocator, or it returns
the first refusal.
-/

namespace Zy

open Spec

/-- Objects that live in a world with an allocator. -/
class Asks (σ : Type) where
  oracle : σ → Nat → Status
  calls : σ → Nat
  ans : (Nat → Status) → σ → σ
  own : ∀ s, ans (oracle s) s = s
  oracle_ans : ∀ o s, oracle (ans o s) = o

variable {σ τ β γ : Type} [Asks σ] [Asks τ]

open Asks

/-- If `y` is defined, `x` is its result with all requests granted, or the first refusal. -/
def Obeys (ρ o : Nat → Status) (k : Nat) (x y : Out (Status × σ)) : Prop :=
  ∀ r, y = .ret r → oracle r.2 = ρ ∧ k ≤ calls r.2 ∧
    ((x = .ret (r.1, ans o r.2) ∧ ∀ i, k ≤ i → i < calls r.2 → failed (o i) = false) ∨
      ∃ i s', k ≤ i ∧ i < calls r.2 ∧ (∀ j, k ≤ j → j < i → failed (o j) = false) ∧ failed (o i) = true ∧
        x = .ret (o i, s'))

section
variable {ρ o : Nat → Status} {k : Nat}

theorem obeys_ret {st : Status} {s : σ} (h : oracle s = ρ) (hk : calls s = k) :
    Obeys ρ o k (.ret (st, ans o s)) (.ret (st, s)) := by
  intro r hr
  injection hr with hr
  subst hr
  exact ⟨h, Nat.le_of_eq hk.symm, Or.inl ⟨rfl, fun i h1 h2 => by dsimp only at h2; omega⟩⟩

theorem obeys_ub {x : Out (Status × σ)} {u : UB} : Obeys ρ o k x (.ub u) := fun r hr => by cases hr

theorem obeys_ite {c : Prop} [Decidable c] {x x' y y' : Out (Status × σ)}
    (h : c → Obeys ρ o k x x') (h' : ¬ c → Obeys ρ o k y y') :
    Obeys ρ o k (if c then x else y) (if c then x' else y') := by
  split
  · exact h ‹_›
  · exact h' ‹_›

theorem obeys_pre {m : Out β} {g g' : β → Out (Status × σ)} (h : ∀ b, m = .ret b → Obeys ρ o k (g b) (g' b)) :
    Obeys ρ o k (m.bind g) (m.bind g') := by
  cases m with
  | ub u => exact obeys_ub
  | ret b => exact h b rfl

/-- A call, its status check, and what follows. -/
theorem obeys_check {x y : Out (Status × σ)} (h : Obeys ρ o k x y) {e : Status × σ → τ}
    (he : ∀ st s, ans o (e (st, s)) = e (st, ans o s)) (ho : ∀ st (s : σ), oracle (e (st, s)) = oracle s)
    (hc : ∀ st (s : σ), calls (e (st, s)) = calls s) {g g' : Status × σ → Out (Status × τ)}
    (hg : ∀ (st : Status) (s : σ), oracle s = ρ → Obeys ρ o (calls s) (g (st, ans o s)) (g' (st, s))) :
    Obeys ρ o k (x.bind fun r => if failed r.1 then .ret (r.1, e r) else g r)
      (y.bind fun r => if failed r.1 then .ret (r.1, e r) else g' r) := by
  cases y with
  | ub u => exact obeys_ub
  | ret q =>
    obtain ⟨h1, h2, h3⟩ := h q rfl
    intro r hr
    rw [Out.ret_bind'] at hr
    by_cases hf : failed q.1 = true
    · rw [if_pos hf] at hr
      injection hr with hr
      subst hr
      dsimp only
      rw [ho, hc]
      refine ⟨h1, h2, ?_⟩
      rcases h3 with ⟨hx, h4⟩ | ⟨i, s', h4, h5, h6, h7, hx⟩
      · left
        refine ⟨?_, h4⟩
        rw [hx, Out.ret_bind', if_pos hf, he]
      · right
        refine ⟨i, e (o i, s'), h4, h5, h6, h7, ?_⟩
        rw [hx, Out.ret_bind', if_pos h7]
    · rw [if_neg hf] at hr
      obtain ⟨g1, g2, g3⟩ := hg q.1 q.2 h1 r hr
      refine ⟨g1, Nat.le_trans h2 g2, ?_⟩
      rcases h3 with ⟨hx, h4⟩ | ⟨i, s', h4, h5, h6, h7, hx⟩
      · have hx' : (x.bind fun r => if failed r.1 then .ret (r.1, e r) else g r) = g (q.1, ans o q.2) := by
          rw [hx, Out.ret_bind', if_neg hf]
        rw [hx']
        rcases g3 with ⟨gx, g4⟩ | ⟨i, s', g4, g5, g6, g7, gx⟩
        · left
          refine ⟨gx, fun i a b => ?_⟩
          by_cases hi : i < calls q.2
          · exact h4 i a hi
          · exact g4 i (by omega) b
        · right
          refine ⟨i, s', by omega, g5, fun j a b => ?_, g7, gx⟩
          by_cases hj : j < calls q.2
          · exact h4 j a hj
          · exact g6 j (by omega) b
      · right
        refine ⟨i, e (o i, s'), h4, by omega, h6, h7, ?_⟩
        rw [hx, Out.ret_bind', if_pos h7]

/-- A check without a change of type. -/
theorem obeys_check' {x y : Out (Status × σ)} (h : Obeys ρ o k x y) {g g' : Status × σ → Out (Status × σ)}
    (hg : ∀ (st : Status) (s : σ), oracle s = ρ → Obeys ρ o (calls s) (g (st, ans o s)) (g' (st, s))) :
    Obeys ρ o k (x.bind fun r => if failed r.1 then .ret r else g r)
      (y.bind fun r => if failed r.1 then .ret r else g' r) :=
  obeys_check h (e := fun r => r.2) (fun _ _ => rfl) (fun _ _ => rfl) (fun _ _ => rfl) hg

theorem obeys_map {x y : Out (Status × σ)} (h : Obeys ρ o k x y) {e : σ → τ}
    (he : ∀ s, ans o (e s) = e (ans o s)) (ho : ∀ s : σ, oracle (e s) = oracle s)
    (hc : ∀ s : σ, calls (e s) = calls s) :
    Obeys ρ o k (x.bind fun r => .ret (r.1, e r.2)) (y.bind fun r => .ret (r.1, e r.2)) := by
  cases y with
  | ub u => exact obeys_ub
  | ret q =>
    obtain ⟨h1, h2, h3⟩ := h q rfl
    intro r hr
    injection hr with hr
    subst hr
    dsimp only
    rw [ho, hc]
    refine ⟨h1, h2, ?_⟩
    rcases h3 with ⟨hx, h4⟩ | ⟨i, s', h4, h5, h6, h7, hx⟩
    · left; exact ⟨by rw [hx, Out.ret_bind', he], h4⟩
    · right; exact ⟨i, e s', h4, h5, h6, h7, by rw [hx, Out.ret_bind']⟩

/-- Some calls, one after another. -/
def runSteps {Op : Type} (step : σ → Op → Out (Status × σ)) (s : σ) : List Op → Out (List Status × σ)
  | [] => .ret ([], s)
  | op :: ops => (step s op).bind fun r => (runSteps step r.2 ops).bind fun q => .ret (r.1 :: q.1, q.2)

theorem runSteps_until {Op : Type} {step : σ → Op → Out (Status × σ)}
    (hstep : ∀ (s : σ) op, oracle s = ρ → Obeys ρ o (calls s) (step (ans o s) op) (step s op))
    {s r : σ} (hs : oracle s = ρ) {ops : List Op} {sts : List Status}
    (hrun : runSteps step s ops = .ret (sts, r)) :
    calls s ≤ calls r ∧ ∃ n q, runSteps step s (ops.take n) = .ret (sts.take n, q) ∧
      runSteps step (ans o s) (ops.take n) = .ret (sts.take n, ans o q) ∧
      (n = ops.length ∨ ∃ op i s', ops[n]? = some op ∧ calls q ≤ i ∧
        (∀ j, calls q ≤ j → j < i → failed (o j) = false) ∧ failed (o i) = true ∧
        step (ans o q) op = .ret (o i, s')) ∧
      (n = ops.length ↔ ∀ i, calls s ≤ i → i < calls r → failed (o i) = false) := by
  induction ops generalizing s sts r with
  | nil =>
    simp only [runSteps, Out.ret.injEq, Prod.mk.injEq] at hrun
    obtain ⟨rfl, rfl⟩ := hrun
    refine ⟨Nat.le_refl _, 0, s, rfl, rfl, Or.inl rfl, fun _ k h1 h2 => ?_, fun _ => rfl⟩
    omega
  | cons op ops ih =>
    simp only [runSteps] at hrun
    cases hop : step s op with
    | ub u => rw [hop] at hrun; simp at hrun
    | ret a =>
      rw [hop, Out.ret_bind'] at hrun
      cases hrest : runSteps step a.2 ops with
      | ub u => rw [hrest] at hrun; simp at hrun
      | ret b =>
        rw [hrest, Out.ret_bind'] at hrun
        simp only [Out.ret.injEq, Prod.mk.injEq] at hrun
        obtain ⟨rfl, rfl⟩ := hrun
        obtain ⟨ho, hk, hx⟩ := hstep s op hs a hop
        obtain ⟨hm, n, q, h1, h2, h3, h4⟩ := ih ho hrest
        refine ⟨Nat.le_trans hk hm, ?_⟩
        rcases hx with ⟨hx, hgr⟩ | ⟨i, s', hi1, hi2, hi3, hi4, hx⟩
        · refine ⟨n + 1, q, ?_, ?_, ?_, ?_⟩
          · simp only [List.take_succ_cons, runSteps, hop, Out.ret_bind', h1]
          · simp only [List.take_succ_cons, runSteps, hx, Out.ret_bind', h2]
          · rcases h3 with h3 | ⟨op', i, s', h3, h5⟩
            · left; simp [h3]
            · right; exact ⟨op', i, s', by simpa using h3, h5⟩
          · rw [List.length_cons, Nat.add_right_cancel_iff, h4]
            constructor
            · intro h i h5 h6
              by_cases hi : i < calls a.2
              · exact hgr i h5 hi
              · exact h i (by omega) h6
            · intro h i h5 h6
              exact h i (by omega) h6
        · refine ⟨0, s, rfl, rfl, Or.inr ⟨op, i, s', rfl, hi1, hi3, hi4, hx⟩, ?_, ?_⟩
          · intro h; simp at h
          · intro h
            have := h i hi1 (by omega)
            rw [hi4] at this
            cases this

end

/-! ## Vectors -/

instance {α : Type} : Asks (VS α) where
  oracle s := s.w.oracle
  calls s := s.w.calls
  ans o s := setOracle o s
  own _ := rfl
  oracle_ans _ _ := rfl

theorem obeys_of_tracks {α : Type} {s : VS α} (hs : Granted s) {f : VS α → Out (Status × VS α)}
    (h : ∀ o, Tracks o s.w.calls (f (setOracle o s)) (f s)) (o : Nat → Status) :
    Obeys s.w.oracle o s.w.calls (f (setOracle o s)) (f s) := by
  intro r hr
  refine ⟨oracle_kept hs h hr, ?_⟩
  rcases (h o).cases hr with ⟨h1, h2⟩ | ⟨h1, ⟨s', h2⟩, h3⟩
  · refine ⟨by show s.w.calls ≤ r.2.w.calls; omega, Or.inl ⟨h1, fun i a b => ?_⟩⟩
    have b' : i < r.2.w.calls := b
    rcases h2 with h2 | ⟨h2, h4⟩
    · omega
    · have : i = s.w.calls := by omega
      rw [this]; exact h4
  · refine ⟨by show s.w.calls ≤ r.2.w.calls; omega, Or.inr ⟨s.w.calls, s', Nat.le_refl _, ?_, ?_, h1, h2⟩⟩
    · show s.w.calls < r.2.w.calls; omega
    · intro j a b; omega

/-! ## Strings -/

instance : Asks Str where
  oracle t := t.s.w.oracle
  calls t := t.s.w.calls
  ans o t := answeringStr o t
  own _ := rfl
  oracle_ans _ _ := rfl

instance {β : Type} : Asks (Str × β) where
  oracle p := p.1.s.w.oracle
  calls p := p.1.s.w.calls
  ans o p := (answeringStr o p.1, p.2)
  own _ := rfl
  oracle_ans _ _ := rfl

section
variable {ρ o : Nat → Status} (hρ : ∀ i, failed (ρ i) = false)
include hρ

theorem granted_str {s : VS Byte} (h : s.w.oracle = ρ) : Granted s := by
  show failed (s.w.oracle s.w.calls) = false
  rw [h]; exact hρ _

omit hρ in
/-- The string with another vector. -/
theorem obeys_setVec {t : Str} (h : t.s.w.oracle = ρ) {st : Status} {v : Vec Byte} :
    Obeys ρ o t.s.w.calls (.ret (st, ({ answeringStr o t with s := { (answeringStr o t).s with v := v } } : Str)))
      (.ret (st, { t with s := { t.s with v := v } })) :=
  obeys_ret (s := ({ t with s := { t.s with v := v } } : Str)) h rfl

omit hρ in
theorem nullTerminate_obeys {t : Str} (h : t.s.w.oracle = ρ) :
    Obeys ρ o t.s.w.calls ((nullTerminate (answeringStr o t)).bind fun t => .ret (stSuccess, t))
      ((nullTerminate t).bind fun t => .ret (stSuccess, t)) := by
  unfold nullTerminate
  have e : (answeringStr o t).s.v = t.s.v := rfl
  rw [e]
  cases strPoke t.s.v (sub64 t.s.v.size 1) (some 0#8) with
  | ub u => exact obeys_ub
  | ret v => exact obeys_setVec h

/-- A call on the vector of a string, its check, and what follows. -/
theorem obeys_checkStr {t : Str} (h : t.s.w.oracle = ρ) (f : VS Byte → Out (Status × VS Byte))
    (hf : ∀ o, Tracks o t.s.w.calls (f (setOracle o t.s)) (f t.s)) (g : VS Byte → Out (Status × Str))
    (hg : ∀ s, s.w.oracle = ρ → Obeys ρ o s.w.calls (g (setOracle o s)) (g s)) :
    Obeys ρ o t.s.w.calls
      ((f (setOracle o t.s)).bind fun r => if failed r.1 then .ret (r.1, ⟨r.2, t.fixed⟩) else g r.2)
      ((f t.s).bind fun r => if failed r.1 then .ret (r.1, ⟨r.2, t.fixed⟩) else g r.2) := by
  have hv := obeys_of_tracks (granted_str hρ h) hf o
  rw [h] at hv
  exact obeys_check hv (e := fun r => (⟨r.2, t.fixed⟩ : Str)) (fun _ _ => rfl) (fun _ _ => rfl) (fun _ _ => rfl)
    (g := fun r => g r.2) (g' := fun r => g r.2) fun _ => hg

/-- A call on the vector of a string. -/
theorem obeys_onStr {t : Str} (h : t.s.w.oracle = ρ) (f : VS Byte → Out (Status × VS Byte))
    (hf : ∀ o, Tracks o t.s.w.calls (f (setOracle o t.s)) (f t.s)) :
    Obeys ρ o t.s.w.calls ((f (setOracle o t.s)).bind fun r => .ret (r.1, (⟨r.2, t.fixed⟩ : Str)))
      ((f t.s).bind fun r => .ret (r.1, ⟨r.2, t.fixed⟩)) := by
  have hv := obeys_of_tracks (granted_str hρ h) hf o
  rw [h] at hv
  exact obeys_map hv (e := fun s => (⟨s, t.fixed⟩ : Str)) (fun _ => rfl) (fun _ => rfl) (fun _ => rfl)

theorem strResize_obeys {t : Str} (h : t.s.w.oracle = ρ) (n : Nat) :
    Obeys ρ o t.s.w.calls (strResize (answeringStr o t) n) (strResize t n) :=
  obeys_checkStr hρ h (fun s => vecResize s (add64 n 1)) (fun o => vecResizeEx_tracks (granted_str hρ h) o _ _)
    (fun s => (nullTerminate ⟨s, t.fixed⟩).bind fun t => .ret (stSuccess, t))
    fun s hs => nullTerminate_obeys (t := ⟨s, t.fixed⟩) hs

theorem strAppendSrc_obeys {t : Str} (h : t.s.w.oracle = ρ) (src : Src Byte) (size : Nat) :
    Obeys ρ o t.s.w.calls (strAppendSrc (answeringStr o t) src size) (strAppendSrc t src size) := by
  unfold strAppendSrc
  refine obeys_ite (fun _ => obeys_ret h rfl) fun _ => ?_
  exact obeys_checkStr hρ h (fun s => vecResize s (sub64 (add64 t.s.v.size size) 1))
    (fun o => vecResizeEx_tracks (granted_str hρ h) o _ _)
    (fun s => (vecMemcpy s.v (sub64 t.s.v.size 1) src (sub64 size 1)).bind fun v =>
      (nullTerminate ⟨⟨v, s.w⟩, t.fixed⟩).bind fun t => .ret (stSuccess, t))
    fun s hs => obeys_pre (m := vecMemcpy s.v (sub64 t.s.v.size 1) src (sub64 size 1))
      (g := fun v => (nullTerminate (answeringStr o ⟨⟨v, s.w⟩, t.fixed⟩)).bind fun t => .ret (stSuccess, t))
      (g' := fun v => (nullTerminate ⟨⟨v, s.w⟩, t.fixed⟩).bind fun t => .ret (stSuccess, t)) fun v _ =>
      nullTerminate_obeys (t := ⟨⟨v, s.w⟩, t.fixed⟩) hs

theorem strAppendExSrc_obeys {t : Str} (h : t.s.w.oracle = ρ) (src : Src Byte) (size i count : Nat) :
    Obeys ρ o t.s.w.calls (strAppendExSrc (answeringStr o t) src size i count)
      (strAppendExSrc t src size i count) := by
  unfold strAppendExSrc
  refine obeys_ite (fun _ => obeys_ret h rfl) fun _ => obeys_ite (fun _ => obeys_ret h rfl) fun _ => ?_
  exact obeys_checkStr hρ h (fun s => vecResize s (add64 t.s.v.size count))
    (fun o => vecResizeEx_tracks (granted_str hρ h) o _ _)
    (fun s => (vecMemcpy s.v (sub64 t.s.v.size 1) (src.offset i) count).bind fun v =>
      (nullTerminate ⟨⟨v, s.w⟩, t.fixed⟩).bind fun t => .ret (stSuccess, t))
    fun s hs => obeys_pre (m := vecMemcpy s.v (sub64 t.s.v.size 1) (src.offset i) count)
      (g := fun v => (nullTerminate (answeringStr o ⟨⟨v, s.w⟩, t.fixed⟩)).bind fun t => .ret (stSuccess, t))
      (g' := fun v => (nullTerminate ⟨⟨v, s.w⟩, t.fixed⟩).bind fun t => .ret (stSuccess, t)) fun v _ =>
      nullTerminate_obeys (t := ⟨⟨v, s.w⟩, t.fixed⟩) hs

theorem vecInsert_str_obeys {t : Str} (h : t.s.w.oracle = ρ) (index : Nat) (src : Src Byte) (n : Nat) :
    Obeys ρ o t.s.w.calls
      ((vecInsertRange (setOracle o t.s) index src n).bind fun r =>
        if failed r.1 then .ret (r.1, (⟨r.2, t.fixed⟩ : Str)) else .ret (stSuccess, ⟨r.2, t.fixed⟩))
      ((vecInsertRange t.s index src n).bind fun r =>
        if failed r.1 then .ret (r.1, ⟨r.2, t.fixed⟩) else .ret (stSuccess, ⟨r.2, t.fixed⟩)) :=
  obeys_checkStr hρ h (fun s => vecInsertRange s index src n)
    (fun o => vecInsertRange_tracks (granted_str hρ h) o _ _ _)
    (fun s => .ret (stSuccess, ⟨s, t.fixed⟩)) fun s hs => obeys_ret (s := (⟨s, t.fixed⟩ : Str)) hs rfl

theorem vecDelete_str_obeys {t : Str} (h : t.s.w.oracle = ρ) (index n : Nat) :
    Obeys ρ o t.s.w.calls
      ((vecDeleteRange (setOracle o t.s) index n).bind fun r => checkTerminate (answeringStr o t) r)
      ((vecDeleteRange t.s index n).bind fun r => checkTerminate t r) :=
  obeys_checkStr hρ h (fun s => vecDeleteRange s index n)
    (fun o => vecDeleteRange_tracks (granted_str hρ h) o _ _)
    (fun s => (nullTerminate ⟨s, t.fixed⟩).bind fun t => .ret (stSuccess, t))
    fun s hs => nullTerminate_obeys (t := ⟨s, t.fixed⟩) hs

omit hρ in
theorem strCaseEx_obeys {t : Str} (h : t.s.w.oracle = ρ) (f : Byte → Byte) (i n : Nat) :
    Obeys ρ o t.s.w.calls (strCaseEx f (answeringStr o t) i n) (strCaseEx f t i n) := by
  unfold strCaseEx
  refine obeys_ite (fun _ => obeys_ret h rfl) fun _ => ?_
  have e : (answeringStr o t).s.v = t.s.v := rfl
  rw [e]
  cases caseLoop f t.s.v i (add64 i n - i) with
  | ub u => exact obeys_ub
  | ret v => exact obeys_setVec h

theorem strOp_obeys {t : Str} (h : t.s.w.oracle = ρ) (op : SOp) :
    Obeys ρ o t.s.w.calls (strOp (answeringStr o t) op) (strOp t op) := by
  have hg := granted_str hρ h
  unfold strOp
  cases op with
  | append x => exact strAppendSrc_obeys hρ h _ _
  | appendEx x j n => exact strAppendExSrc_obeys hρ h _ _ _ _
  | insert i x =>
    dsimp only
    unfold strInsert
    refine obeys_ite (fun _ => obeys_ret h rfl) fun _ => obeys_ite (fun _ => ?_) fun _ =>
      obeys_ite (fun _ => obeys_ret h rfl) fun _ => ?_
    · exact strAppendSrc_obeys hρ h _ _
    · exact vecInsert_str_obeys hρ h _ _ _
  | insertEx i x j n =>
    dsimp only
    unfold strInsertEx
    refine obeys_ite (fun _ => obeys_ret h rfl) fun _ => obeys_ite (fun _ => ?_) fun _ =>
      obeys_ite (fun _ => obeys_ret h rfl) fun _ => obeys_ite (fun _ => obeys_ret h rfl) fun _ => ?_
    · exact strAppendExSrc_obeys hρ h _ _ _ _
    · exact vecInsert_str_obeys hρ h _ _ _
  | delete i n =>
    dsimp only
    unfold strDelete
    exact obeys_ite (fun _ => obeys_ret h rfl) fun _ => vecDelete_str_obeys hρ h _ _
  | truncate i =>
    dsimp only
    unfold strTruncate
    exact obeys_ite (fun _ => obeys_ret h rfl) fun _ => vecDelete_str_obeys hρ h _ _
  | clear =>
    exact obeys_checkStr hρ h (fun s => vecClear s) (fun o => vecResizeEx_tracks hg o _ _)
      (fun s => (strStart s.v).bind fun v => .ret (stSuccess, ⟨⟨v, s.w⟩, t.fixed⟩))
      fun s hs => obeys_pre (m := strStart s.v)
        (g := fun v => .ret (stSuccess, answeringStr o ⟨⟨v, s.w⟩, t.fixed⟩))
        (g' := fun v => .ret (stSuccess, ⟨⟨v, s.w⟩, t.fixed⟩))
        fun v _ => obeys_ret (s := (⟨⟨v, s.w⟩, t.fixed⟩ : Str)) hs rfl
  | setChar i c =>
    dsimp only
    unfold strSetChar
    refine obeys_ite (fun _ => obeys_ret h rfl) fun _ => ?_
    exact obeys_onStr hρ h (fun s => vecSet s i (.ext [some c])) (fun o => (vecSet_blind _ _).tracks o _)
  | lower i n => exact strCaseEx_obeys h _ i n
  | upper i n => exact strCaseEx_obeys h _ i n
  | resize n => exact strResize_obeys hρ h n
  | reserve c => exact obeys_onStr hρ h (fun s => vecReserve s c) (fun o => vecReserve_tracks hg o _)
  | shrinkToFit => exact obeys_onStr hρ h (fun s => vecShrinkToFit s) (fun o => reallocate_tracks hg o _)

/-- A resize that is made only if there is not enough room. -/
theorem maybeResize_obeys {t : Str} (h : t.s.w.oracle = ρ) {c : Prop} [Decidable c] (n : Nat) :
    Obeys ρ o t.s.w.calls (if c then strResize (answeringStr o t) n else .ret (stSuccess, answeringStr o t))
      (if c then strResize t n else .ret (stSuccess, t)) :=
  obeys_ite (fun _ => strResize_obeys hρ h n) fun _ => obeys_ret h rfl

theorem strAppendDecWith_obeys {t : Str} (h : t.s.w.oracle = ρ) (m v p : Nat) :
    Obeys ρ o t.s.w.calls (strAppendDecWith m (answeringStr o t) v p) (strAppendDecWith m t v p) := by
  unfold strAppendDecWith
  refine obeys_pre fun r _ => ?_
  refine obeys_pre fun q _ => ?_
  dsimp only
  refine obeys_check' ?_ fun _ t' ht' => ?_
  · exact maybeResize_obeys hρ h _
  refine obeys_pre fun v1 _ => ?_
  refine obeys_pre fun v2 _ => ?_
  exact nullTerminate_obeys (t := ⟨⟨{ v2 with size := _ }, t'.s.w⟩, t'.fixed⟩) ht'

omit hρ in
theorem putHex_obeys {t : Str} (h : t.s.w.oracle = ρ) {upper : Bool} {buffer : Option Nat} {n v : Nat}
    {g g' : Str × Nat → Out (Status × (Str × Nat))}
    (hg : ∀ (q : Str × Nat), q.1.s.w.oracle = ρ → q.1.s.w.calls = t.s.w.calls →
      Obeys ρ o t.s.w.calls (g (answeringStr o q.1, q.2)) (g' q)) :
    Obeys ρ o t.s.w.calls ((putHex upper (answeringStr o t) buffer n v).bind g)
      ((putHex upper t buffer n v).bind g') := by
  unfold putHex
  cases buffer with
  | none => exact obeys_ub
  | some b =>
    dsimp only
    cases (hexTable upper)[v]? with
    | none => exact obeys_ub
    | some c =>
      dsimp only
      have e : (answeringStr o t).s.v = t.s.v := rfl
      rw [e]
      cases strPoke t.s.v (b + n) (some c) with
      | ub u => exact obeys_ub
      | ret vec => exact hg (⟨⟨vec, t.s.w⟩, t.fixed⟩, _) h rfl

theorem hexLoop_obeys (upper : Bool) (value len padding remaining : Nat) (i : Nat) :
    ∀ {t : Str}, t.s.w.oracle = ρ → ∀ (n : Nat) (buffer : Option Nat),
    Obeys ρ o t.s.w.calls (hexLoop upper value len padding remaining i (answeringStr o t) n buffer)
      (hexLoop upper value len padding remaining i t n buffer) := by
  induction i with
  | zero => intro t h n buffer; exact obeys_ret (s := (t, n)) h rfl
  | succ i ih =>
    intro t h n buffer
    unfold hexLoop
    refine obeys_ite (fun _ => obeys_ite (fun _ => ih h n buffer) fun _ => ?_) fun _ => ?_
    · refine obeys_check (σ := Str) (τ := Str × Nat) ?_ (e := fun r => (r.2, n)) (fun _ _ => rfl) (fun _ _ => rfl)
        (fun _ _ => rfl) fun _ t' ht' => ?_
      · exact maybeResize_obeys hρ h _
      refine obeys_pre fun vec _ => ?_
      refine putHex_obeys (t := ⟨⟨vec, t'.s.w⟩, t'.fixed⟩) ht' fun q hq hc => ?_
      rw [← hc]
      exact ih hq _ _
    · refine putHex_obeys h fun q hq hc => ?_
      rw [← hc]
      exact ih hq _ _

omit hρ in
theorem hexFinish_obeys {t : Str} (h : t.s.w.oracle = ρ) (len n : Nat) :
    Obeys ρ o t.s.w.calls (hexFinish (answeringStr o t) len n) (hexFinish t len n) := by
  unfold hexFinish
  exact nullTerminate_obeys (t := ⟨⟨{ t.s.v with size := add64 len n }, t.s.w⟩, t.fixed⟩) h

theorem strAppendHexWith_obeys {t : Str} (h : t.s.w.oracle = ρ) (m v p : Nat) (upper : Bool) :
    Obeys ρ o t.s.w.calls (strAppendHexWith m (answeringStr o t) v p upper) (strAppendHexWith m t v p upper) := by
  unfold strAppendHexWith
  dsimp only
  refine obeys_check' ?_ fun _ t' ht' => ?_
  · exact maybeResize_obeys hρ h _
  refine obeys_ite (fun _ => ?_) fun _ => ?_
  · refine obeys_check' ?_ fun _ t'' ht'' => ?_
    · exact maybeResize_obeys hρ ht' _
    exact obeys_pre fun v _ => hexFinish_obeys (t := ⟨⟨v, t''.s.w⟩, t''.fixed⟩) ht'' _ _
  · exact obeys_check (hexLoop_obeys hρ upper _ _ _ _ _ ht' 0 none) (e := fun r : Status × (Str × Nat) => r.2.1) (fun _ _ => rfl)
      (fun _ _ => rfl) (fun _ _ => rfl) fun _ q hq => hexFinish_obeys hq _ _

theorem checkAppend_obeys {t : Str} (h : t.s.w.oracle = ρ) (v : View) {f f' : Str → Out (Status × Str)}
    (hf : ∀ t : Str, t.s.w.oracle = ρ → Obeys ρ o t.s.w.calls (f (answeringStr o t)) (f' t)) :
    Obeys ρ o t.s.w.calls (checkAppend (answeringStr o t) v f) (checkAppend t v f') :=
  obeys_check' (strAppendSrc_obeys hρ h _ _) (g := fun r => f r.2) (g' := fun r => f' r.2) fun _ => hf

theorem checkPrefix_obeys {t : Str} (h : t.s.w.oracle = ρ) (pre : Option View) {f f' : Str → Out (Status × Str)}
    (hf : ∀ t : Str, t.s.w.oracle = ρ → Obeys ρ o t.s.w.calls (f (answeringStr o t)) (f' t)) :
    Obeys ρ o t.s.w.calls (checkPrefix (answeringStr o t) pre f) (checkPrefix t pre f') := by
  cases pre with
  | none => exact hf t h
  | some v => exact checkAppend_obeys hρ h v hf

theorem strAppendSigned_obeys {t : Str} (h : t.s.w.oracle = ρ) {number : Str → Nat → Out (Status × Str)}
    (hn : ∀ (t : Str) m, t.s.w.oracle = ρ → Obeys ρ o t.s.w.calls (number (answeringStr o t) m) (number t m))
    (value : BitVec 64) (force : Bool) (pre : Option View) :
    Obeys ρ o t.s.w.calls (strAppendSigned number (answeringStr o t) value force pre)
      (strAppendSigned number t value force pre) :=
  obeys_ite (fun _ => checkAppend_obeys hρ h _ fun _ h => checkPrefix_obeys hρ h _ fun _ h => obeys_pre fun _ _ => hn _ _ h)
    fun _ => obeys_ite (fun _ => checkAppend_obeys hρ h _ fun _ h => checkPrefix_obeys hρ h _ fun _ h => hn _ _ h)
    fun _ => checkPrefix_obeys hρ h _ fun _ h => hn _ _ h

theorem strAppendFormat_obeys {t : Str} (h : t.s.w.oracle = ρ) (f : Fmt) :
    Obeys ρ o t.s.w.calls (strAppendFormat (answeringStr o t) f) (strAppendFormat t f) := by
  unfold strAppendFormat
  dsimp only
  refine obeys_pre fun r _ => ?_
  refine obeys_ite (fun _ => ?_) fun _ => obeys_ite (fun _ => ?_) fun _ => ?_
  · exact obeys_setVec h
  · exact obeys_setVec h
  refine obeys_check' ?_ fun _ t' ht' => ?_
  · exact strResize_obeys hρ (t := ⟨⟨r.2, t.s.w⟩, t.fixed⟩) h _
  refine obeys_pre fun q _ => obeys_ite (fun _ => ?_) fun _ => ?_
  · exact obeys_setVec ht'
  · exact obeys_setVec ht'

theorem stringCall_obeys {t : Str} (h : t.s.w.oracle = ρ) (c : SCall) :
    Obeys ρ o t.s.w.calls (stringCall (answeringStr o t) c) (stringCall t c) := by
  unfold stringCall
  cases c with
  | op op => exact strOp_obeys hρ h op
  | decU v p => exact strAppendDecWith_obeys hρ h _ _ _
  | hexU v p u => exact strAppendHexWith_obeys hρ h _ _ _ _
  | decS v p f pre =>
    exact strAppendSigned_obeys hρ h (number := fun t m => strAppendDecU t m p)
      (fun _ _ h => strAppendDecWith_obeys hρ h _ _ _) v f pre
  | hexS v p u f pre =>
    exact strAppendSigned_obeys hρ h (number := fun t m => strAppendHexU t m p u)
      (fun _ _ h => strAppendHexWith_obeys hρ h _ _ _ _) v f pre
  | format f => exact strAppendFormat_obeys hρ h f

end

theorem runCalls_eq (t : Str) (cs : List SCall) : runCalls t cs = runSteps stringCall t cs := by
  induction cs generalizing t with
  | nil => rfl
  | cons c cs ih => simp only [runCalls, runSteps, ih]

/-! ## Bitsets -/

instance : Asks Bits where
  oracle t := t.s.w.oracle
  calls t := t.s.w.calls
  ans o t := answeringBits o t
  own _ := rfl
  oracle_ans _ _ := rfl

section
variable {ρ o : Nat → Status}

theorem vecStore_obeys {s : VS Byte} (h : s.w.oracle = ρ) (p : Nat) (c : Cell Byte)
    {τ : Type} [Asks τ] {g g' : VS Byte → Out (Status × τ)}
    (hg : ∀ q : VS Byte, q.w.oracle = ρ → q.w.calls = s.w.calls → Obeys ρ o s.w.calls (g (setOracle o q)) (g' q)) :
    Obeys ρ o s.w.calls ((vecStore (setOracle o s) p c).bind g) ((vecStore s p c).bind g') := by
  unfold vecStore
  have e : (setOracle o s).v = s.v := rfl
  rw [e]
  cases s.v.data with
  | none => exact obeys_ub
  | some b =>
    dsimp only [withData]
    cases writeRange b.cells p [c] with
    | ub u => exact obeys_ub
    | ret cs => exact hg ⟨_, s.w⟩ h rfl

theorem loadByte_ans (s : VS Byte) (p : Nat) : loadByte (setOracle o s) p = loadByte s p := rfl

theorem withPointer_obeys {k : Nat} {s : VS Byte} {τ : Type} [Asks τ] {i : Nat} {e : Status → Status × τ}
    {e' : Status → Status × τ} (he : ∀ st, Obeys ρ o k (.ret (e st)) (.ret (e' st)))
    {f f' : Nat → Out (Status × τ)} (hf : ∀ p, Obeys ρ o k (f p) (f' p)) :
    Obeys ρ o k (withPointer (setOracle o s) i e f) (withPointer s i e' f') := by
  unfold withPointer
  have eq : vecGetPointer (setOracle o s) i = vecGetPointer s i := rfl
  rw [eq]
  dsimp only
  refine obeys_ite (fun _ => he _) fun _ => ?_
  cases (vecGetPointer s i).2 with
  | none => exact obeys_ub
  | some p => exact hf p

theorem bsMapLoop_obeys (f : VS Byte → Nat → Out Byte) (hf : ∀ s p, f (setOracle o s) p = f s p) (n : Nat) :
    ∀ {s : VS Byte}, s.w.oracle = ρ → ∀ i,
    Obeys ρ o s.w.calls (bsMapLoop f n (setOracle o s) i) (bsMapLoop f n s i) := by
  induction n with
  | zero => intro s h i; exact obeys_ret h rfl
  | succ n ih =>
    intro s h i
    unfold bsMapLoop
    refine withPointer_obeys (fun st => obeys_ret h rfl) fun p => ?_
    rw [hf]
    refine obeys_pre fun x _ => ?_
    refine vecStore_obeys h p _ fun q hq hc => ?_
    rw [← hc]
    exact ih hq _

theorem bsOpLoop_obeys (op : Byte → Byte → Status × Byte) (src : VS Byte) (n : Nat) :
    ∀ {s : VS Byte}, s.w.oracle = ρ → ∀ i,
    Obeys ρ o s.w.calls (bsOpLoop op src n (setOracle o s) i) (bsOpLoop op src n s i) := by
  induction n with
  | zero => intro s h i; exact obeys_ret h rfl
  | succ n ih =>
    intro s h i
    unfold bsOpLoop
    refine withPointer_obeys (fun st => obeys_ret h rfl) fun p => ?_
    refine withPointer_obeys (s := src) (fun st => obeys_ret h rfl) fun p2 => ?_
    rw [loadByte_ans]
    refine obeys_pre fun x _ => ?_
    refine obeys_pre fun y _ => ?_
    dsimp only
    refine vecStore_obeys h p _ fun q hq hc => ?_
    rw [← hc]
    exact obeys_ite (fun _ => obeys_ret hq rfl) fun _ => ih hq _

/-- A loop on the bytes of a bitset. -/
theorem obeys_onBits {k : Nat} {x y : Out (Status × VS Byte)} (h : Obeys ρ o k x y) (n : Nat) :
    Obeys ρ o k (x.bind fun r => .ret (r.1, (⟨n, r.2⟩ : Bits))) (y.bind fun r => .ret (r.1, ⟨n, r.2⟩)) :=
  obeys_map h (e := fun s => (⟨n, s⟩ : Bits)) (fun _ => rfl) (fun _ => rfl) (fun _ => rfl)

theorem bsMapAll_obeys {t : Bits} (h : t.s.w.oracle = ρ) (f : VS Byte → Nat → Out Byte)
    (hf : ∀ s p, f (setOracle o s) p = f s p) :
    Obeys ρ o t.s.w.calls (bsMapAll f (answeringBits o t)) (bsMapAll f t) :=
  obeys_onBits (bsMapLoop_obeys f hf (vecGetSize t.s) h 0) t.size

theorem bsPerform_obeys {t : Bits} (h : t.s.w.oracle = ρ) (f : Byte → Byte → Status × Byte) (u : Bits) :
    Obeys ρ o t.s.w.calls (bsPerform f (answeringBits o t) u) (bsPerform f t u) :=
  obeys_onBits (bsOpLoop_obeys f u.s _ h 0) t.size

theorem bsModify_obeys {t : Bits} (h : t.s.w.oracle = ρ) (f : Byte → Byte → Byte) (i : Nat) :
    Obeys ρ o t.s.w.calls (bsModify f (answeringBits o t) i) (bsModify f t i) := by
  unfold bsModify
  refine obeys_ite (fun _ => obeys_ret h rfl) fun _ => ?_
  refine withPointer_obeys (s := t.s) (fun st => obeys_ret h rfl) fun p => ?_
  refine obeys_pre fun x _ => ?_
  refine vecStore_obeys (s := t.s) h p _ fun q hq hc => ?_
  exact obeys_ret (s := (⟨t.size, q⟩ : Bits)) hq hc

theorem bsAssign_obeys {t : Bits} (h : t.s.w.oracle = ρ) (i : Nat) (v : Bool) :
    Obeys ρ o t.s.w.calls (bsAssign (answeringBits o t) i v) (bsAssign t i v) :=
  obeys_ite (fun _ => bsModify_obeys h _ _) fun _ => bsModify_obeys h _ _

variable (hρ : ∀ i, failed (ρ i) = false)
include hρ

/-- A call on the vector of a bitset. -/
theorem obeys_vecBits {t : Bits} (h : t.s.w.oracle = ρ) (f : VS Byte → Out (Status × VS Byte))
    (hf : ∀ o, Tracks o t.s.w.calls (f (setOracle o t.s)) (f t.s)) (n : Nat) :
    Obeys ρ o t.s.w.calls ((f (setOracle o t.s)).bind fun r => .ret (r.1, (⟨n, r.2⟩ : Bits)))
      ((f t.s).bind fun r => .ret (r.1, ⟨n, r.2⟩)) := by
  have hv := obeys_of_tracks (granted_str hρ h) hf o
  rw [h] at hv
  exact obeys_onBits hv n

theorem bsPush_obeys {t : Bits} (h : t.s.w.oracle = ρ) (v : Bool) :
    Obeys ρ o t.s.w.calls (bsPush (answeringBits o t) v) (bsPush t v) := by
  have hg := granted_str hρ h
  unfold bsPush
  dsimp only
  refine obeys_check (σ := VS Byte) (τ := Bits) ?_ (e := fun r => ⟨add64 t.size 1, r.2⟩) (fun _ _ => rfl) (fun _ _ => rfl)
    (fun _ _ => rfl) fun _ s hs => ?_
  · refine obeys_ite (fun _ => ?_) fun _ => obeys_ret h rfl
    have hv := obeys_of_tracks hg (f := fun s => vecPushBack s (.ext [some 0#8])) (fun o => vecPushBack_tracks hg o _) o
    rw [h] at hv
    exact hv
  · exact bsAssign_obeys (t := ⟨add64 t.size 1, s⟩) hs _ _

theorem bsPop_obeys {t : Bits} (h : t.s.w.oracle = ρ) :
    Obeys ρ o t.s.w.calls (bsPop (answeringBits o t)) (bsPop t) := by
  have hg := granted_str hρ h
  unfold bsPop
  refine obeys_ite (fun _ => ?_) fun _ => ?_
  · exact obeys_vecBits hρ h vecPopBack (fun o => vecPopBack_tracks hg o) _
  · exact obeys_ret (s := (⟨sub64 t.size 1, t.s⟩ : Bits)) h rfl

theorem bitsCall_obeys {t : Bits} (h : t.s.w.oracle = ρ) (c : BCall) :
    Obeys ρ o t.s.w.calls (bitsCall (answeringBits o t) c) (bitsCall t c) := by
  have hg := granted_str hρ h
  unfold bitsCall
  cases c with
  | logic f u => exact bsPerform_obeys h f u
  | op op =>
    dsimp only
    unfold bsOp
    cases op with
    | push v => exact bsPush_obeys hρ h v
    | pop => exact bsPop_obeys hρ h
    | set i => exact bsModify_obeys h _ i
    | reset i => exact bsModify_obeys h _ i
    | assign i v => exact bsAssign_obeys h i v
    | toggle i => exact bsModify_obeys h _ i
    | setAll => exact bsMapAll_obeys h _ fun _ _ => rfl
    | resetAll => exact bsMapAll_obeys h _ fun _ _ => rfl
    | flip => exact bsMapAll_obeys h _ fun _ _ => rfl
    | clear => exact obeys_vecBits hρ h vecClear (fun o => vecResizeEx_tracks hg o _ _) 0
    | reserve n =>
      exact obeys_vecBits hρ h (fun s => vecReserve s (bitsToBytes n)) (fun o => vecReserve_tracks hg o _) _
    | shrinkToFit => exact obeys_vecBits hρ h vecShrinkToFit (fun o => reallocate_tracks hg o _) _

end

theorem runBitsCalls_eq (t : Bits) (cs : List BCall) : runBitsCalls t cs = runSteps bitsCall t cs := by
  induction cs generalizing t with
  | nil => rfl
  | cons c cs ih => simp only [runBitsCalls, runSteps, ih]

end Zy
