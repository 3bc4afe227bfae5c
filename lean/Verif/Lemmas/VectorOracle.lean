import Verif.Lemmas.VectorShrink
import Verif.Lemmas.Requests

/-!
# Lemmas: vectors with an arbitrary allocator

Every request makes at most one call of the allocator. So it either does what it does with an allocator
that grants the call, or returns the refusal.
-/

namespace Zy

open Spec

variable {α β : Type}

/-- The result with the answers `o` of the allocator afterwards. -/
def withOracle (o : Nat → Status) (y : Out (Status × VS α)) : Out (Status × VS α) :=
  y.bind fun r => .ret (r.1, setOracle o r.2)

/-- `x` is the result `y`, which needed no call of the allocator or one that was granted, or the refusal of
call `k`, which `y` needed. -/
def Tracks (o : Nat → Status) (k : Nat) (x y : Out (Status × VS α)) : Prop :=
  (x = withOracle o y ∧
    ∀ r, y = .ret r → r.2.w.calls = k ∨ (r.2.w.calls = k + 1 ∧ failed (o k) = false)) ∨
  (failed (o k) = true ∧ (∃ s', x = .ret (o k, s')) ∧ ∀ r, y = .ret r → r.2.w.calls = k + 1)

/-- `g` does not ask the allocator. -/
def Blind (g : VS α → Out (Status × VS α)) : Prop :=
  ∀ s, (∀ o, g (setOracle o s) = withOracle o (g s)) ∧ ∀ r, g s = .ret r → r.2.w.calls = s.w.calls

/-- `g` does not ask the allocator. -/
def Blind' (g : VS α → Out (VS α)) : Prop :=
  ∀ s, (∀ o, g (setOracle o s) = (g s).bind fun r => .ret (setOracle o r)) ∧
    ∀ r, g s = .ret r → r.w.calls = s.w.calls

theorem Blind.tracks {g : VS α → Out (Status × VS α)} (h : Blind g) (o : Nat → Status) (s : VS α) :
    Tracks o s.w.calls (g (setOracle o s)) (g s) := Or.inl ⟨(h s).1 o, fun r hr => Or.inl ((h s).2 r hr)⟩

theorem tracks_ret (o : Nat → Status) (st : Status) (s : VS α) :
    Tracks o s.w.calls (.ret (st, setOracle o s)) (.ret (st, s)) :=
  Or.inl ⟨rfl, fun r hr => by injection hr with hr; rw [← hr]; exact Or.inl rfl⟩

theorem tracks_ub (o : Nat → Status) (k : Nat) (u : UB) : Tracks (α := α) o k (.ub u) (.ub u) :=
  Or.inl ⟨rfl, fun r hr => by cases hr⟩

theorem blind_ret (st : Status) : Blind fun s : VS α => .ret (st, s) :=
  fun s => ⟨fun _ => rfl, fun r hr => by injection hr with hr; rw [← hr]⟩

theorem blind_ub (u : UB) : Blind fun _ : VS α => .ub u :=
  fun s => ⟨fun _ => rfl, fun r hr => by cases hr⟩

theorem blind_update (st : Status) (f : Vec α → Vec α) :
    Blind fun s : VS α => .ret (st, { s with v := f s.v }) :=
  fun s => ⟨fun _ => rfl, fun r hr => by injection hr with hr; rw [← hr]⟩

theorem blind'_ret : Blind' fun s : VS α => .ret s :=
  fun s => ⟨fun _ => rfl, fun r hr => by injection hr with hr; rw [← hr]⟩

theorem blind_ite {c : VS α → Prop} [∀ s, Decidable (c s)] {f g : VS α → Out (Status × VS α)}
    (hc : ∀ o s, c (setOracle o s) ↔ c s) (hf : Blind f) (hg : Blind g) :
    Blind fun s => if c s then f s else g s := by
  intro s
  dsimp only
  by_cases h : c s
  · refine ⟨fun o => ?_, fun r => ?_⟩
    · rw [if_pos h, if_pos ((hc o s).2 h)]; exact (hf s).1 o
    · rw [if_pos h]; exact (hf s).2 r
  · refine ⟨fun o => ?_, fun r => ?_⟩
    · rw [if_neg h, if_neg (fun h' => h ((hc o s).1 h'))]; exact (hg s).1 o
    · rw [if_neg h]; exact (hg s).2 r

theorem blind'_ite {c : VS α → Prop} [∀ s, Decidable (c s)] {f g : VS α → Out (VS α)}
    (hc : ∀ o s, c (setOracle o s) ↔ c s) (hf : Blind' f) (hg : Blind' g) :
    Blind' fun s => if c s then f s else g s := by
  intro s
  dsimp only
  by_cases h : c s
  · refine ⟨fun o => ?_, fun r => ?_⟩
    · rw [if_pos h, if_pos ((hc o s).2 h)]; exact (hf s).1 o
    · rw [if_pos h]; exact (hf s).2 r
  · refine ⟨fun o => ?_, fun r => ?_⟩
    · rw [if_neg h, if_neg (fun h' => h ((hc o s).1 h'))]; exact (hg s).1 o
    · rw [if_neg h]; exact (hg s).2 r

theorem blind_bind {f : VS α → Out (VS α)} {g : VS α → Out (Status × VS α)} (hf : Blind' f) (hg : Blind g) :
    Blind fun s => (f s).bind g := by
  intro s
  dsimp only
  cases e : f s with
  | ret q =>
    refine ⟨fun o => ?_, fun r hr => ?_⟩
    · rw [(hf s).1 o, e]; exact (hg q).1 o
    · rw [Out.ret_bind'] at hr
      rw [(hg q).2 r hr, (hf s).2 q e]
  | ub u =>
    refine ⟨fun o => ?_, fun r hr => ?_⟩
    · rw [(hf s).1 o, e]; rfl
    · cases hr

theorem tracks_ite {c : Prop} [Decidable c] {o : Nat → Status} {k : Nat} {x x' y y' : Out (Status × VS α)}
    (h : c → Tracks o k x x') (h' : ¬ c → Tracks o k y y') :
    Tracks o k (if c then x else y) (if c then x' else y') := by
  split
  · exact h ‹_›
  · exact h' ‹_›

theorem Tracks.bind {o : Nat → Status} {k : Nat} {x y : Out (Status × VS α)}
    {g : VS α → Out (Status × VS α)} (h : Tracks o k x y) (hg : Blind g) :
    Tracks o k (x.bind fun r => if failed r.1 then .ret r else g r.2)
      (y.bind fun r => if failed r.1 then .ret r else g r.2) := by
  have hcalls : ∀ r', (y.bind fun r => if failed r.1 then .ret r else g r.2) = .ret r' →
      ∃ r, y = .ret r ∧ r'.2.w.calls = r.2.w.calls := by
    intro r' hr'
    cases y with
    | ub u => cases hr'
    | ret r =>
      refine ⟨r, rfl, ?_⟩
      rw [Out.ret_bind'] at hr'
      split at hr'
      · injection hr' with hr'; rw [hr']
      · exact (hg r.2).2 r' hr'
  rcases h with ⟨h, hk⟩ | ⟨hf, ⟨s', h⟩, hk⟩
  · left
    constructor
    · rw [h]
      cases y with
      | ub u => rfl
      | ret r =>
        show (if failed r.1 = true then Out.ret (r.1, setOracle o r.2) else g (setOracle o r.2)) =
          withOracle o (if failed r.1 = true then Out.ret r else g r.2)
        split
        · rfl
        · exact (hg r.2).1 o
    · intro r' hr'
      obtain ⟨r, hr, hc⟩ := hcalls r' hr'
      rw [hc]; exact hk r hr
  · right
    refine ⟨hf, ⟨s', ?_⟩, ?_⟩
    · rw [h, Out.ret_bind', if_pos hf]
    · intro r' hr'
      obtain ⟨r, hr, hc⟩ := hcalls r' hr'
      rw [hc]; exact hk r hr

theorem tracks_pre {o : Nat → Status} {k : Nat} {f : VS α → Out (VS α)} {g : VS α → Out (Status × VS α)}
    (hf : Blind' f) {s : VS α} (hg : ∀ r, f s = .ret r → Tracks o k (g (setOracle o r)) (g r)) :
    Tracks o k ((f (setOracle o s)).bind g) ((f s).bind g) := by
  rw [(hf s).1 o]
  cases e : f s with
  | ub u => exact tracks_ub o k u
  | ret r => exact hg r e

/-- The next call of the allocator succeeds. -/
def Granted (s : VS α) : Prop := failed (s.w.oracle s.w.calls) = false

theorem reallocBlock_calls (w : World α) (a : Nat) (b : Block α) (e n : Nat) :
    (reallocBlock w a b e n).2.2.calls = w.calls + 1 := by
  by_cases h : failed (w.oracle w.calls) <;> simp [reallocBlock, h, World.log]

theorem deallocate_calls (w : World α) (a : Nat) (b : Block α) (e n : Nat) :
    (deallocate w a b e n).2.calls = w.calls + 1 := by
  by_cases h : failed (w.oracle w.calls) <;> simp [deallocate, h, World.log]

theorem reallocTo_tracks {s : VS α} (hs : Granted s) (o : Nat → Status) (a c : Nat) :
    Tracks o s.w.calls (reallocTo (setOracle o s) a c) (reallocTo s a c) := by
  have hd : (setOracle o s).v = s.v := rfl
  have hs' : failed (s.w.oracle s.w.calls) = false := hs
  unfold reallocTo
  rw [hd]
  cases s.v.data with
  | none => exact tracks_ub _ _ _
  | some b =>
    have hcalls : ∀ r : Status × VS α, (withData (some b) fun b =>
        let r := reallocBlock s.w a b s.v.esz c
        let s' : VS α := { v := { s.v with cap := c, data := some r.2.1 }, w := r.2.2 }
        if failed r.1 then .ret (r.1, s') else .ret (stSuccess, s')) = .ret r →
        r.2.w.calls = s.w.calls + 1 := by
      intro r hr
      dsimp only [withData] at hr
      split at hr <;> (injection hr with hr; rw [← hr]; exact reallocBlock_calls ..)
    by_cases hf : failed (o s.w.calls)
    · right
      refine ⟨hf, ?_, hcalls⟩
      have h1 : (reallocBlock (setOracle o s).w a b s.v.esz c).1 = o s.w.calls := by
        simp only [reallocBlock, setOracle, hf, if_true]
      simp only [withData, h1, hf, if_true]
      exact ⟨_, rfl⟩
    · left
      have hf' : failed (o s.w.calls) = false := by simpa using hf
      refine ⟨?_, fun r hr => Or.inr ⟨hcalls r hr, hf'⟩⟩
      simp [withData, withOracle, reallocBlock, setOracle, hf', hs', World.log]

theorem reallocate_tracks {s : VS α} (hs : Granted s) (o : Nat → Status) (c : Nat) :
    Tracks o s.w.calls (reallocate (setOracle o s) c) (reallocate s c) := by
  have hd : (setOracle o s).v = s.v := rfl
  unfold reallocate
  rw [hd]
  cases s.v.allocator with
  | none => exact tracks_ite (fun _ => tracks_ret o _ _) fun _ => tracks_ret o _ _
  | some a =>
    refine tracks_ite (fun _ => tracks_ite (fun _ => ?_) fun _ => tracks_ret o _ _) fun _ => ?_
    · exact reallocTo_tracks hs o a 1
    · exact reallocTo_tracks hs o a c

theorem growFor_tracks {s : VS α} (hs : Granted s) (o : Nat → Status) (n : Nat) :
    Tracks o s.w.calls (growFor (setOracle o s) n) (growFor s n) :=
  tracks_ite (fun _ => reallocate_tracks hs o _) fun _ => tracks_ret o _ _

theorem shrinkAfter_tracks {s : VS α} (hs : Granted s) (o : Nat → Status) :
    Tracks o s.w.calls (shrinkAfter (setOracle o s)) (shrinkAfter s) :=
  tracks_ite (fun _ => reallocate_tracks hs o _) fun _ => tracks_ret o _ _

theorem blind_withData {g : VS α → Block α → Out (Status × VS α)} (h : ∀ b, Blind fun s => g s b) :
    Blind fun s => withData s.v.data (g s) := by
  intro s
  have hd : ∀ o, (setOracle o s).v.data = s.v.data := fun _ => rfl
  cases e : s.v.data with
  | none => exact ⟨fun o => by dsimp only; rw [hd, e]; rfl, fun r hr => by dsimp only at hr; rw [e] at hr; cases hr⟩
  | some b => exact ⟨fun o => by dsimp only; rw [hd, e]; exact (h b s).1 o, fun r hr =>
      (h b s).2 r (by dsimp only at hr; rw [e] at hr; exact hr)⟩

/-- Computing something from the vector and then storing it. -/
theorem blind_pure {x : VS α → Out β} (hx : ∀ o s, x (setOracle o s) = x s) {f : β → Vec α → Vec α} (st : Status) :
    Blind fun s => (x s).bind fun b => .ret (st, ({ s with v := f b s.v } : VS α)) := by
  intro s
  dsimp only
  cases e : x s with
  | ub u => exact ⟨fun o => by rw [hx, e]; rfl, fun r hr => by cases hr⟩
  | ret q =>
    refine ⟨fun o => by rw [hx, e]; rfl, fun r hr => ?_⟩
    injection hr with hr
    rw [← hr]

theorem blind'_pure {x : VS α → Out β} (hx : ∀ o s, x (setOracle o s) = x s) {f : β → Vec α → Vec α} :
    Blind' fun s => (x s).bind fun b => .ret ({ s with v := f b s.v } : VS α) := by
  intro s
  dsimp only
  cases e : x s with
  | ub u => exact ⟨fun o => by rw [hx, e]; rfl, fun r hr => by cases hr⟩
  | ret q =>
    refine ⟨fun o => by rw [hx, e]; rfl, fun r hr => ?_⟩
    injection hr with hr
    rw [← hr]

theorem blind'_withData {g : VS α → Block α → Out (VS α)} (h : ∀ b, Blind' fun s => g s b) :
    Blind' fun s => withData s.v.data (g s) := by
  intro s
  have hd : ∀ o, (setOracle o s).v.data = s.v.data := fun _ => rfl
  cases e : s.v.data with
  | none => exact ⟨fun o => by dsimp only; rw [hd, e]; rfl, fun r hr => by dsimp only at hr; rw [e] at hr; cases hr⟩
  | some b => exact ⟨fun o => by dsimp only; rw [hd, e]; exact (h b s).1 o, fun r hr =>
      (h b s).2 r (by dsimp only at hr; rw [e] at hr; exact hr)⟩

theorem shiftRight_blind (i n : Nat) : Blind' fun s : VS α => shiftRight s i n :=
  blind'_withData fun b => blind'_pure (x := fun s => memmoveCells b.cells (add64 i n) i (sub64 s.v.size i))
    (fun _ _ => rfl) (f := fun cs v => { v with data := some { b with cells := cs } })

theorem shiftLeft_blind (i n : Nat) : Blind' fun s : VS α => shiftLeft s i n :=
  blind'_withData fun b => blind'_pure
    (x := fun s => memmoveCells b.cells i (add64 i n) (sub64 (sub64 s.v.size i) n))
    (fun _ _ => rfl) (f := fun cs v => { v with data := some { b with cells := cs } })

theorem blind_copyIn (i : VS α → Nat) (x : Src α) (n : Nat) (m : Vec α → Nat) (st : Status)
    (hi : ∀ o s, i (setOracle o s) = i s) :
    Blind fun s : VS α => withData s.v.data fun b => (memcpyIn b (i s) x n).bind fun b' =>
      .ret (st, ({ s with v := { s.v with data := some b', size := m s.v } } : VS α)) :=
  blind_withData fun b => blind_pure (x := fun s => memcpyIn b (i s) x n) (fun o s => by rw [hi])
    (f := fun b' v => { v with data := some b', size := m v }) st

theorem vecPushBack_tracks {s : VS α} (hs : Granted s) (o : Nat → Status) (x : Src α) :
    Tracks o s.w.calls (vecPushBack (setOracle o s) x) (vecPushBack s x) := by
  refine tracks_ite (fun _ => tracks_ret o _ _) fun _ => ?_
  exact (growFor_tracks hs o _).bind (g := fun s => withData s.v.data fun b =>
    (memcpyIn b s.v.size x 1).bind fun b' =>
      .ret (stSuccess, { s with v := { s.v with data := some b', size := add64 s.v.size 1 } }))
    (blind_copyIn (fun s => s.v.size) x 1 (fun v => add64 v.size 1) stSuccess fun _ _ => rfl)

theorem vecInsertRange_tracks {s : VS α} (hs : Granted s) (o : Nat → Status) (i : Nat) (x : Src α) (n : Nat) :
    Tracks o s.w.calls (vecInsertRange (setOracle o s) i x n) (vecInsertRange s i x n) := by
  refine tracks_ite (fun _ => tracks_ret o _ _) fun _ => tracks_ite (fun _ => tracks_ret o _ _) fun _ => ?_
  exact (growFor_tracks hs o _).bind (g := fun s =>
      (if i < s.v.size then shiftRight s i n else .ret s).bind fun s =>
      withData s.v.data fun b =>
      (memcpyIn b i x n).bind fun b' =>
      .ret (stSuccess, { s with v := { s.v with data := some b', size := add64 s.v.size n } }))
    (blind_bind (blind'_ite (c := fun s => i < s.v.size) (fun _ _ => Iff.rfl) (shiftRight_blind i n) blind'_ret)
      (blind_copyIn (fun _ => i) x n (fun v => add64 v.size n) stSuccess fun _ _ => rfl))

theorem vecEmplaceEx_tracks {s : VS α} (hs : Granted s) (o : Nat → Status) (i : Nat) (c : Ctor α) :
    Tracks o s.w.calls (vecEmplaceEx (setOracle o s) i c) (vecEmplaceEx s i c) := by
  have hsh := blind'_ite (c := fun s : VS α => i < s.v.size) (fun _ _ => Iff.rfl) (shiftRight_blind i 1) blind'_ret
  refine tracks_ite (fun _ => tracks_ret o _ _) fun _ => ?_
  cases c with
  | none =>
    exact (growFor_tracks hs o _).bind (g := fun s =>
      (if i < s.v.size then shiftRight s i 1 else .ret s).bind fun s =>
      .ret (stSuccess, { s with v := { s.v with size := add64 s.v.size 1 } })) (blind_bind hsh
        (blind_update stSuccess fun v => { v with size := add64 v.size 1 }))
  | some c =>
    refine (growFor_tracks hs o _).bind (g := fun s =>
      (if i < s.v.size then shiftRight s i 1 else .ret s).bind fun s =>
        withData s.v.data fun b =>
        match b.cells[i]? with
        | none => .ub .oob
        | some x =>
          let r := c x
          let b' : Block α := { b with cells := b.cells.set i r.2 }
          if failed r.1 then .ret (r.1, { s with v := { s.v with data := some b' } })
          else .ret (stSuccess,
            { s with v := { s.v with data := some b', size := add64 s.v.size 1 } })) (blind_bind hsh ?_)
    refine blind_withData fun b => ?_
    cases b.cells[i]? with
    | none => exact blind_ub _
    | some x =>
      exact blind_ite (c := fun _ => failed (c x).1 = true) (fun _ _ => Iff.rfl)
        (blind_update _ fun v => { v with data := some { b with cells := b.cells.set i (c x).2 } })
        (blind_update _ fun v =>
          { v with data := some { b with cells := b.cells.set i (c x).2 }, size := add64 v.size 1 })

theorem runDtors_blind (lo hi : Nat) : Blind' fun s : VS α => runDtors s lo hi :=
  fun s => ⟨fun o => runDtors_setOracle o s lo hi, fun _ hr => (runDtors_calls hr).1⟩

theorem vecSet_blind (i : Nat) (x : Src α) : Blind fun s : VS α => vecSet s i x := by
  refine blind_ite (c := fun _ => x.isNull = true) (fun _ _ => Iff.rfl) (blind_ret _) ?_
  refine blind_ite (c := fun s => i ≥ s.v.size) (fun _ _ => Iff.rfl) (blind_ret _) ?_
  refine blind_bind (runDtors_blind _ _) ?_
  exact blind_copyIn (fun _ => i) x 1 (fun v => v.size) stSuccess fun _ _ => rfl

theorem vecSwap_blind (i j : Nat) : Blind fun s : VS α => vecSwap s i j := by
  refine blind_ite (c := fun s => i ≥ s.v.size ∨ j ≥ s.v.size) (fun _ _ => Iff.rfl) (blind_ret _) ?_
  refine blind_ite (c := fun s => s.v.size = s.v.cap) (fun _ _ => Iff.rfl) (blind_ret _) ?_
  refine blind_withData fun b => ?_
  have hb : (fun s : VS α => (memmoveCells b.cells s.v.size i 1).bind fun cs =>
      (memmoveCells cs i j 1).bind fun cs => (memmoveCells cs j s.v.size 1).bind fun cs =>
      .ret (stSuccess, ({ s with v := { s.v with data := some { b with cells := cs } } } : VS α))) =
      fun s => ((memmoveCells b.cells s.v.size i 1).bind fun cs => (memmoveCells cs i j 1).bind fun cs =>
        memmoveCells cs j s.v.size 1).bind fun cs =>
        .ret (stSuccess, { s with v := { s.v with data := some { b with cells := cs } } }) := by
    funext s
    cases memmoveCells b.cells s.v.size i 1 with
    | ub u => rfl
    | ret cs =>
      simp only [Out.ret_bind']
      cases memmoveCells cs i j 1 with
      | ub u => rfl
      | ret cs => rfl
  rw [hb]
  exact blind_pure (x := fun s => (memmoveCells b.cells s.v.size i 1).bind fun cs =>
    (memmoveCells cs i j 1).bind fun cs => memmoveCells cs j s.v.size 1) (fun _ _ => rfl)
    (f := fun cs v => { v with data := some { b with cells := cs } }) stSuccess

theorem granted_of {s r : VS α} (hs : Granted s) (hc : r.w.calls = s.w.calls) (ho : r.w.oracle = s.w.oracle) :
    Granted r := by
  unfold Granted
  rw [hc, ho]
  exact hs

theorem shiftLeft_world {s r : VS α} {i n : Nat} (h : shiftLeft s i n = .ret r) : r.w = s.w := by
  unfold shiftLeft at h
  cases hd : s.v.data with
  | none => rw [hd] at h; simp [withData] at h
  | some b =>
    rw [hd] at h
    simp only [withData] at h
    cases hm : memmoveCells b.cells i (add64 i n) (sub64 (sub64 s.v.size i) n) with
    | ub u => rw [hm] at h; simp at h
    | ret cs => rw [hm] at h; simp only [Out.ret_bind', Out.ret.injEq] at h; rw [← h]

theorem vecDeleteRange_tracks {s : VS α} (hs : Granted s) (o : Nat → Status) (i n : Nat) :
    Tracks o s.w.calls (vecDeleteRange (setOracle o s) i n) (vecDeleteRange s i n) := by
  refine tracks_ite (fun _ => tracks_ret o _ _) fun _ => tracks_ite (fun _ => tracks_ret o _ _) fun _ => ?_
  refine tracks_pre (runDtors_blind i (add64 i n)) fun r hr => ?_
  refine tracks_pre (f := fun s => if add64 i n < s.v.size then shiftLeft s i n else .ret s)
    (blind'_ite (c := fun s => add64 i n < s.v.size) (fun _ _ => Iff.rfl) (shiftLeft_blind i n) blind'_ret)
    fun q hq => ?_
  have hw : q.w = r.w := by
    split at hq
    · exact shiftLeft_world hq
    · simp only [Out.ret.injEq] at hq; rw [hq]
  have hcr := runDtors_calls hr
  have hc : q.w.calls = s.w.calls := by rw [hw]; exact hcr.1
  rw [← hc]
  exact shrinkAfter_tracks (s := { q with v := { q.v with size := sub64 q.v.size n } })
    (granted_of hs hc (by show q.w.oracle = _; rw [hw]; exact hcr.2)) o

theorem vecPopBack_tracks {s : VS α} (hs : Granted s) (o : Nat → Status) :
    Tracks o s.w.calls (vecPopBack (setOracle o s)) (vecPopBack s) := by
  refine tracks_ite (fun _ => tracks_ret o _ _) fun _ => ?_
  refine tracks_pre (runDtors_blind (s.v.size - 1) s.v.size) fun r hr => ?_
  have hcr := runDtors_calls hr
  rw [← hcr.1]
  exact shrinkAfter_tracks (s := { r with v := { r.v with size := r.v.size - 1 } })
    (granted_of hs hcr.1 hcr.2) o

theorem vecResizeEx_tracks {s : VS α} (hs : Granted s) (o : Nat → Status) (n : Nat) (x : Src α) :
    Tracks o s.w.calls (vecResizeEx (setOracle o s) n x) (vecResizeEx s n x) := by
  refine tracks_ite (fun _ => tracks_ret o _ _) fun _ => ?_
  refine tracks_pre (f := fun t => if n < t.v.size then runDtors t n t.v.size else .ret t) ?_ fun r hr => ?_
  · exact fun t => blind'_ite (c := fun t => n < t.v.size) (f := fun s => runDtors s n t.v.size)
      (fun _ _ => Iff.rfl) (runDtors_blind n t.v.size) blind'_ret t
  · have hcr : r.w.calls = s.w.calls ∧ r.w.oracle = s.w.oracle := by
      split at hr
      · exact runDtors_calls hr
      · simp only [Out.ret.injEq] at hr; rw [hr]; exact ⟨rfl, rfl⟩
    have hg := granted_of hs hcr.1 hcr.2
    rw [← hcr.1]
    refine (tracks_ite (fun _ => reallocate_tracks hg o _) fun _ => tracks_ret o _ _ :
      Tracks o r.w.calls
        (if shouldGrow n r.v.cap || shouldShrink n r.v.cap r.v.shrink then
          reallocate (setOracle o r) (mul64 n r.v.growth) else .ret (stSuccess, setOracle o r))
        (if shouldGrow n r.v.cap || shouldShrink n r.v.cap r.v.shrink then
          reallocate r (mul64 n r.v.growth) else .ret (stSuccess, r))).bind (g := fun s =>
      if ¬ x.isNull ∧ n > s.v.size then
        withData s.v.data fun b =>
        (fillLoop b x s.v.size (n - s.v.size)).bind fun b' =>
        .ret (stSuccess, { s with v := { s.v with data := some b', size := n } })
      else .ret (stSuccess, { s with v := { s.v with size := n } })) ?_
    refine blind_ite (c := fun s => ¬ x.isNull ∧ n > s.v.size) (fun _ _ => Iff.rfl) ?_
      (blind_update stSuccess fun v => { v with size := n })
    exact blind_withData fun b => blind_pure (x := fun s => fillLoop b x s.v.size (n - s.v.size)) (fun _ _ => rfl)
      (f := fun b' v => { v with data := some b', size := n }) stSuccess

theorem vecReserve_tracks {s : VS α} (hs : Granted s) (o : Nat → Status) (c : Nat) :
    Tracks o s.w.calls (vecReserve (setOracle o s) c) (vecReserve s c) := by
  refine tracks_ite (fun _ => ?_) fun _ => tracks_ret o _ _
  exact (reallocate_tracks hs o c).bind (g := fun s => .ret (stSuccess, s)) (blind_ret _)

theorem vecDestroy_tracks {s : VS α} (hs : Granted s) (o : Nat → Status) :
    Tracks o s.w.calls (vecDestroy (setOracle o s)) (vecDestroy s) := by
  refine tracks_pre (runDtors_blind 0 s.v.size) fun r hr => ?_
  have hcr := runDtors_calls hr
  have hg : failed (r.w.oracle r.w.calls) = false := granted_of hs hcr.1 hcr.2
  rw [← hcr.1]
  have hd : (setOracle o r).v = r.v := rfl
  dsimp only
  rw [hd]
  cases r.v.allocator with
  | none => exact (blind_update stSuccess fun v => { v with allocator := none, data := none }).tracks o r
  | some a =>
    refine tracks_ite (fun _ => ?_) fun _ =>
      (blind_update stSuccess fun v => { v with allocator := some a, data := none }).tracks o r
    cases r.v.data with
    | none => exact tracks_ub _ _ _
    | some b =>
      have hcalls : ∀ q : Status × VS α, (withData (some b) fun b =>
          let q := deallocate r.w a b r.v.esz r.v.cap
          if failed q.1 then .ret (q.1, ({ r with w := q.2 } : VS α))
          else .ret (stSuccess, { v := { r.v with allocator := some a, data := none }, w := q.2 })) = .ret q →
          q.2.w.calls = r.w.calls + 1 := by
        intro q hq
        dsimp only [withData] at hq
        split at hq <;> (injection hq with hq; rw [← hq]; exact deallocate_calls ..)
      by_cases hf : failed (o r.w.calls)
      · right
        refine ⟨hf, ?_, hcalls⟩
        simp only [withData, deallocate, setOracle, hf, if_true]
        exact ⟨_, rfl⟩
      · left
        have hf' : failed (o r.w.calls) = false := by simpa using hf
        refine ⟨?_, fun q hq => Or.inr ⟨hcalls q hq, hf'⟩⟩
        simp [withData, withOracle, deallocate, setOracle, hf', hg, World.log]

/-- Every request does what it does with a granting allocator, or returns the refusal. -/
theorem vecOp_tracks {s : VS α} (hs : Granted s) (o : Nat → Status) (op : VOp α) :
    Tracks o s.w.calls (vecOp (setOracle o s) op) (vecOp s op) := by
  cases op with
  | push x => exact vecPushBack_tracks hs o _
  | insertRange i xs => exact vecInsertRange_tracks hs o i _ _
  | emplace i c => exact vecEmplaceEx_tracks hs o i c
  | set i x => exact (vecSet_blind i _).tracks o s
  | swap i j => exact (vecSwap_blind i j).tracks o s
  | deleteRange i n => exact vecDeleteRange_tracks hs o i n
  | pop => exact vecPopBack_tracks hs o
  | clear => exact vecResizeEx_tracks hs o 0 _
  | resize n init => exact vecResizeEx_tracks hs o n _
  | reserve c => exact vecReserve_tracks hs o c
  | shrinkToFit => exact reallocate_tracks hs o _

/-- A result that is defined with a granting allocator is followed or refused. -/
theorem Tracks.cases {o : Nat → Status} {k : Nat} {x y : Out (Status × VS α)} (h : Tracks o k x y)
    {r : Status × VS α} (hy : y = .ret r) :
    (x = .ret (r.1, setOracle o r.2) ∧ (r.2.w.calls = k ∨ (r.2.w.calls = k + 1 ∧ failed (o k) = false))) ∨
      (failed (o k) = true ∧ (∃ s', x = .ret (o k, s')) ∧ r.2.w.calls = k + 1) := by
  rcases h with ⟨h, hk⟩ | ⟨hf, h, hk⟩
  · left; exact ⟨by rw [h, hy]; rfl, hk r hy⟩
  · exact Or.inr ⟨hf, h, hk r hy⟩

/-- What follows every oracle leaves its own. -/
theorem oracle_kept {x : VS α → Out (Status × VS α)} {s : VS α} (hs : Granted s)
    (h : ∀ o, Tracks o s.w.calls (x (setOracle o s)) (x s)) {r : Status × VS α} (hr : x s = .ret r) :
    r.2.w.oracle = s.w.oracle := by
  rcases (h s.w.oracle).cases hr with ⟨h1, _⟩ | ⟨h1, _⟩
  · have h2 : x s = .ret (r.1, setOracle s.w.oracle r.2) := h1
    rw [hr, Out.ret.injEq] at h2
    rw [h2]
    rfl
  · have hs' : failed (s.w.oracle s.w.calls) = false := hs
    rw [hs'] at h1
    cases h1

theorem vecOp_oracle {s : VS α} (hs : Granted s) {op : VOp α} {r : Status × VS α} (hr : vecOp s op = .ret r) :
    r.2.w.oracle = s.w.oracle :=
  oracle_kept (x := fun s => vecOp s op) hs (fun o => vecOp_tracks hs o op) hr

theorem vecOp_reliable {s : VS α} (hs : Reliable s.w) {op : VOp α} {r : Status × VS α}
    (hr : vecOp s op = .ret r) : Reliable r.2.w := by
  intro k
  rw [vecOp_oracle (hs _) hr]
  exact hs k

theorem vecOp_calls {s : VS α} (hs : Granted s) {op : VOp α} {r : Status × VS α}
    (hr : vecOp s op = .ret r) : s.w.calls ≤ r.2.w.calls := by
  rcases (vecOp_tracks hs s.w.oracle op).cases hr with ⟨_, h | h⟩ | ⟨_, _, h⟩ <;> omega

theorem runVec_calls {s r : VS α} (hs : Reliable s.w) {ops : List (VOp α)} {sts : List Status}
    (hrun : runVec s ops = .ret (sts, r)) : s.w.calls ≤ r.w.calls := by
  induction ops generalizing s sts with
  | nil =>
    simp only [runVec, Out.ret.injEq, Prod.mk.injEq] at hrun
    rw [hrun.2]
    exact Nat.le_refl _
  | cons op ops ih =>
    simp only [runVec] at hrun
    cases hop : vecOp s op with
    | ub u => rw [hop] at hrun; simp at hrun
    | ret a =>
      rw [hop, Out.ret_bind'] at hrun
      cases hrest : runVec a.2 ops with
      | ub u => rw [hrest] at hrun; simp at hrun
      | ret b =>
        rw [hrest, Out.ret_bind'] at hrun
        simp only [Out.ret.injEq, Prod.mk.injEq] at hrun
        obtain ⟨_, rfl⟩ := hrun
        have h1 := vecOp_calls (hs _) hop
        have h2 := ih (vecOp_reliable hs hop) hrest
        omega

end Zy
