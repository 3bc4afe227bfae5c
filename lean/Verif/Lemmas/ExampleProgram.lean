import Verif.Lemmas.Examples
import Verif.Lemmas.VectorOracle
import Verif.Spec.ExampleProgram

/-!
# Lemmas: the whole example program

First: with an arbitrary allocator, a function of the program does what it does with one that grants
everything, or returns the first refusal.
-/

namespace Zy

open Spec

/-- The state with the answers `o` of the allocator. -/
def ExSt.setO (o : Nat → Status) (t : ExSt) : ExSt := { t with s := setOracle o t.s }

/-- `x` does what `y` does, or returns the refusal of one of the requests that `y` makes. -/
def Follows (o : Nat → Status) (t : ExSt) (x y : Out (Status × ExSt)) : Prop :=
  ∀ r, y = .ret r →
    (t.s.w.calls ≤ r.2.s.w.calls ∧ t.out <+: r.2.out ∧ Reliable r.2.s.w) ∧
    ((x = .ret (r.1, r.2.setO o) ∧
        ∀ k, t.s.w.calls ≤ k → k < r.2.s.w.calls → failed (o k) = false) ∨
      ∃ k t', t.s.w.calls ≤ k ∧ k < r.2.s.w.calls ∧
        (∀ j, t.s.w.calls ≤ j → j < k → failed (o j) = false) ∧ failed (o k) = true ∧
        x = .ret (o k, t') ∧ t'.out <+: r.2.out)

/-- A call on the vector, as a function of the program. -/
def ExSt.lift (t : ExSt) (x : Out (Status × VS TestStruct)) : Out (Status × ExSt) :=
  x.bind fun r => .ret (r.1, { t with s := r.2 })

theorem ExSt.check_eq (t : ExSt) (x : Out (Status × VS TestStruct)) (k : ExSt → Out (Status × ExSt)) :
    t.check x k = exCheck (t.lift x) k := by
  cases x <;> rfl

theorem follows_ret (o : Nat → Status) (st : Status) {t : ExSt} (ht : Reliable t.s.w) :
    Follows o t (.ret (st, t.setO o)) (.ret (st, t)) := by
  intro r hr
  injection hr with hr
  subst hr
  exact ⟨⟨Nat.le_refl _, List.prefix_refl _, ht⟩, Or.inl ⟨rfl, fun k h1 h2 => absurd h1 (by
    dsimp only at h2; omega)⟩⟩

theorem follows_mono {o : Nat → Status} {t t₀ : ExSt} {x y : Out (Status × ExSt)} (h : Follows o t x y)
    (hw : t₀.s.w.calls = t.s.w.calls) (ho : t₀.out <+: t.out) : Follows o t₀ x y := by
  intro r hr
  obtain ⟨⟨h1, h2, h3⟩, h4⟩ := h r hr
  exact ⟨⟨by rw [hw]; exact h1, ho.trans h2, h3⟩, by rw [hw]; exact h4⟩

theorem Tracks.follows {o : Nat → Status} {t : ExSt} (ht : Reliable t.s.w)
    {f : VS TestStruct → Out (Status × VS TestStruct)}
    (h : ∀ o, Tracks o t.s.w.calls (f (setOracle o t.s)) (f t.s)) :
    Follows o t ((t.setO o).lift (f (setOracle o t.s))) (t.lift (f t.s)) := by
  intro r hr
  cases hy : f t.s with
  | ub u => rw [hy] at hr; cases hr
  | ret q =>
    rw [hy] at hr
    injection hr with hr
    subst hr
    have hor := oracle_kept (ht _) h hy
    have hrel : Reliable q.2.w := by intro k; rw [hor]; exact ht k
    rcases (h o).cases hy with ⟨hx, hk⟩ | ⟨hf, ⟨s', hx⟩, hk⟩
    · refine ⟨⟨?_, List.prefix_refl _, hrel⟩, Or.inl ⟨by rw [hx]; rfl, ?_⟩⟩
      · dsimp only; omega
      · intro k h1 h2
        dsimp only at h2
        rcases hk with hk | ⟨hk, hg⟩
        · omega
        · have : k = t.s.w.calls := by omega
          rw [this]; exact hg
    · refine ⟨⟨?_, List.prefix_refl _, hrel⟩, Or.inr ⟨t.s.w.calls, { t.setO o with s := s' }, Nat.le_refl _, ?_, ?_, hf, ?_,
        List.prefix_refl _⟩⟩
      · dsimp only; omega
      · dsimp only; omega
      · intro j h1 h2; omega
      · rw [hx]; rfl

theorem Follows.andThen {o : Nat → Status} {t : ExSt} {x y : Out (Status × ExSt)} (h : Follows o t x y)
    {g : ExSt → Out (Status × ExSt)} (hg : ∀ t', Reliable t'.s.w → Follows o t' (g (t'.setO o)) (g t')) :
    Follows o t (exCheck x g) (exCheck y g) := by
  intro r hr
  cases hy : y with
  | ub u => rw [hy] at hr; cases hr
  | ret q =>
    rw [hy] at hr
    obtain ⟨⟨h1, h2, h3⟩, h4⟩ := h q hy
    simp only [exCheck, Out.ret_bind'] at hr
    by_cases hf : failed q.1 = true
    · rw [if_pos hf] at hr
      injection hr with hr
      subst hr
      refine ⟨⟨h1, h2, h3⟩, ?_⟩
      rcases h4 with ⟨hx, hk⟩ | ⟨k, t', a1, a2, a3, a4, hx, a5⟩
      · left
        refine ⟨?_, hk⟩
        rw [hx]
        simp only [exCheck, Out.ret_bind']
        rw [if_pos hf]
      · right
        refine ⟨k, t', a1, a2, a3, a4, ?_, a5⟩
        rw [hx]
        simp only [exCheck, Out.ret_bind']
        rw [if_pos a4]
    · rw [if_neg hf] at hr
      obtain ⟨⟨b1, b2, b3⟩, b4⟩ := hg q.2 h3 r hr
      refine ⟨⟨by omega, h2.trans b2, b3⟩, ?_⟩
      rcases h4 with ⟨hx, hk⟩ | ⟨k, t', a1, a2, a3, a4, hx, a5⟩
      · have hx' : exCheck x g = g (q.2.setO o) := by
          rw [hx]
          simp only [exCheck, Out.ret_bind']
          rw [if_neg hf]
        rw [hx']
        rcases b4 with ⟨hx, hk'⟩ | ⟨k, t', a1, a2, a3, a4, hx, a5⟩
        · left
          refine ⟨hx, fun k c1 c2 => ?_⟩
          by_cases hlt : k < q.2.s.w.calls
          · exact hk k c1 hlt
          · exact hk' k (by omega) c2
        · right
          refine ⟨k, t', by omega, a2, fun j c1 c2 => ?_, a4, hx, a5⟩
          by_cases hlt : j < q.2.s.w.calls
          · exact hk j c1 hlt
          · exact a3 j (by omega) c2
      · right
        refine ⟨k, t', a1, by omega, a3, a4, ?_, a5.trans b2⟩
        rw [hx]
        simp only [exCheck, Out.ret_bind']
        rw [if_pos a4]

/-- A call on the vector and what follows. -/
theorem follows_check {o : Nat → Status} {t : ExSt} (ht : Reliable t.s.w)
    {f : VS TestStruct → Out (Status × VS TestStruct)}
    (h : ∀ o, Tracks o t.s.w.calls (f (setOracle o t.s)) (f t.s))
    {g : ExSt → Out (Status × ExSt)} (hg : ∀ t', Reliable t'.s.w → Follows o t' (g (t'.setO o)) (g t')) :
    Follows o t ((t.setO o).check (f (setOracle o t.s)) g) (t.check (f t.s) g) := by
  rw [ExSt.check_eq, ExSt.check_eq]
  exact (Tracks.follows ht h).andThen hg

theorem follows_print {o : Nat → Status} {t : ExSt} {l : Line} {x y : Out (Status × ExSt)}
    (h : Follows o (t.print l) x y) : Follows o t x y :=
  follows_mono h rfl ⟨[l], rfl⟩

theorem exPushes_follows (o : Nat → Status) (n : Nat) : ∀ (i : Nat) {t : ExSt}, Reliable t.s.w →
    Follows o t (exPushes (t.setO o) i n) (exPushes t i n) := by
  induction n with
  | zero => intro i t ht; exact follows_ret o _ ht
  | succ n ih =>
    intro i t ht
    exact follows_check (f := fun s => vecPushBack s _) ht (fun o => vecPushBack_tracks (ht _) o _)
      (g := fun t => exPushes (t.print (.pushed i t.s.v.cap)) (i + 1) n)
      fun t' ht' => follows_print (ih (i + 1) (t := t'.print (.pushed i t'.s.v.cap)) ht')

theorem exQuietPushes_follows (o : Nat → Status) (n : Nat) : ∀ (i : Nat) {t : ExSt}, Reliable t.s.w →
    Follows o t (exQuietPushes (t.setO o) i n) (exQuietPushes t i n) := by
  induction n with
  | zero => intro i t ht; exact follows_ret o _ ht
  | succ n ih =>
    intro i t ht
    exact follows_check (f := fun s => vecPushBack s _) ht (fun o => vecPushBack_tracks (ht _) o _)
      (g := fun t => exQuietPushes t (i + 1) n) fun t' ht' => ih (i + 1) ht'

theorem follows_ub (o : Nat → Status) (t : ExSt) (x : Out (Status × ExSt)) (u : UB) : Follows o t x (.ub u) :=
  fun r hr => by cases hr

theorem exPrints_follows (f : TestStruct → Nat) (o : Nat → Status) (n : Nat) : ∀ (i : Nat) {t : ExSt},
    Reliable t.s.w → Follows o t (exPrints f (t.setO o) i n) (exPrints f t i n) := by
  induction n with
  | zero => intro i t ht; exact follows_ret o _ ht
  | succ n ih =>
    intro i t ht
    have hp : vecGetPointer (t.setO o).s i = vecGetPointer t.s i := rfl
    have hd : ∀ j, vecDeref (t.setO o).s j = vecDeref t.s j := fun _ => rfl
    unfold exPrints
    rw [hp]
    simp only [hd]
    by_cases hf : failed (vecGetPointer t.s i).1 = true
    · rw [if_pos hf, if_pos hf]; exact follows_ret o _ ht
    · rw [if_neg hf, if_neg hf]
      cases (vecGetPointer t.s i).2 with
      | none => exact follows_ub _ _ _ _
      | some j =>
        dsimp only
        cases vecDeref t.s j with
        | ub u => exact follows_ub _ _ _ _
        | ret c =>
          cases c with
          | none => exact follows_ub _ _ _ _
          | some e => exact follows_print (ih (i + 1) (t := t.print (.element i (f e))) ht)

theorem exCompare_follows (buffer : List (Cell TestStruct)) (o : Nat → Status) (n : Nat) : ∀ (i : Nat) {t : ExSt},
    Reliable t.s.w → Follows o t (exCompare buffer (t.setO o) i n) (exCompare buffer t i n) := by
  induction n with
  | zero => intro i t ht; exact follows_ret o _ ht
  | succ n ih =>
    intro i t ht
    have hp : vecGetPointer (t.setO o).s i = vecGetPointer t.s i := rfl
    have hd : ∀ j, vecDeref (t.setO o).s j = vecDeref t.s j := fun _ => rfl
    unfold exCompare
    rw [hp]
    simp only [hd]
    by_cases hf : failed (vecGetPointer t.s i).1 = true
    · rw [if_pos hf, if_pos hf]; exact follows_ret o _ ht
    · rw [if_neg hf, if_neg hf]
      cases (vecGetPointer t.s i).2 with
      | none => exact follows_ub _ _ _ _
      | some j =>
        dsimp only
        cases vecDeref t.s j with
        | ub u => exact follows_ub _ _ _ _
        | ret c =>
          simp only [Out.ret_bind']
          split
          · split
            · exact follows_ret o _ ht
            · exact ih (i + 1) ht
          · exact follows_ub _ _ _ _
          · exact follows_ub _ _ _ _

theorem exBasicTests_follows (o : Nat → Status) {t : ExSt} (ht : Reliable t.s.w) :
    Follows o t (exBasicTests (t.setO o)) (exBasicTests t) := by
  unfold exBasicTests
  refine (exPushes_follows o 20 0 ht).andThen fun t ht => ?_
  refine follows_check (f := fun s => vecDeleteRange s 5 5) ht (fun o => vecDeleteRange_tracks (ht _) o 5 5)
    fun t ht => ?_
  refine follows_check (f := fun s => vecInsert s 5 _) ht (fun o => vecInsertRange_tracks (ht _) o 5 _ 1)
    fun t ht => ?_
  refine follows_check (f := fun s => vecSet s 10 _) ht (fun o => (vecSet_blind 10 _).tracks o t.s)
    fun t ht => ?_
  refine follows_print (l := .elements) ((exPrints_follows TestStruct.u64 o _ 0 (t := t.print .elements) ht).andThen
    fun t' ht => ?_)
  refine follows_print (l := .info) (follows_print (l := .size (vecGetSize t.s)) (follows_print
    (l := .capacity (vecGetCapacity t'.s)) ?_))
  exact follows_ret o _ (t := ((t'.print .info).print (.size (vecGetSize t.s))).print
    (.capacity (vecGetCapacity t'.s))) ht

theorem sortedFill_follows (o : Nat → Status) (cmp : Cell TestStruct → Cell TestStruct → Int)
    (xs : List (Cell TestStruct)) : ∀ {t : ExSt}, Reliable t.s.w →
    Follows o t ((t.setO o).lift (sortedFill cmp (setOracle o t.s) xs)) (t.lift (sortedFill cmp t.s xs)) := by
  induction xs with
  | nil => intro t ht; exact follows_ret o _ ht
  | cons x xs ih =>
    intro t ht
    have hb : (vecBinarySearch (setOracle o t.s) fun y => cmp y x) = vecBinarySearch t.s fun y => cmp y x := rfl
    unfold sortedFill
    rw [hb]
    cases vecBinarySearch t.s fun y => cmp y x with
    | ub u => exact follows_ub _ _ _ _
    | ret r =>
      simp only [Out.ret_bind']
      by_cases hf : failed r.1 = true
      · rw [if_pos hf, if_pos hf]; exact follows_ret o _ ht
      · rw [if_neg hf, if_neg hf]
        cases r.2.1 with
        | none => exact follows_ub _ _ _ _
        | some p =>
          dsimp only
          have he : ∀ (t : ExSt) (z : Out (Status × VS TestStruct)),
              t.lift (z.bind fun q => if failed q.1 = true then .ret q else sortedFill cmp q.2 xs) =
                exCheck (t.lift z) fun t' => t'.lift (sortedFill cmp t'.s xs) := by
            intro t z
            cases z with
            | ub u => rfl
            | ret q =>
              simp only [Out.ret_bind', ExSt.lift, exCheck]
              split <;> rfl
          rw [he, he]
          exact (Tracks.follows (f := fun s => vecInsert s p (.ext [x])) ht
            (fun o => vecInsertRange_tracks (ht _) o p _ 1)).andThen fun t ht => ih ht

theorem exSearchTest_follows (rand : Nat → Nat) (o : Nat → Status) {t : ExSt} (ht : Reliable t.s.w) :
    Follows o t (exSearchTest rand (t.setO o)) (exSearchTest rand t) := by
  unfold exSearchTest
  rw [ExSt.check_eq, ExSt.check_eq]
  refine (sortedFill_follows o testDataComparison _ ht).andThen fun t' ht' => ?_
  have h := exPrints_follows TestStruct.u32 o (vecGetSize t'.s) 0
    (t := ({ t' with rands := t'.rands + vecGetCapacity t.s }).print .elements) ht'
  exact follows_mono h rfl ⟨[.elements], rfl⟩

theorem exDestroy_follows (o : Nat → Status) {t : ExSt} (ht : Reliable t.s.w) :
    Follows o t (exDestroy (t.setO o)) (exDestroy t) :=
  Tracks.follows (f := vecDestroy) ht fun o => vecDestroy_tracks (ht _) o

/-- The part of `TestDynamic` after the initialisation. -/
def exDynamicBody (rand : Nat → Nat) (t : ExSt) : Out (Status × ExSt) :=
  exCheck (exBasicTests t) fun t =>
  t.check (vecClear t.s) fun t =>
  t.check (vecReserve t.s 20) fun t =>
  exCheck (exSearchTest rand t) exDestroy

theorem exDynamicBody_follows (rand : Nat → Nat) (o : Nat → Status) {t : ExSt} (ht : Reliable t.s.w) :
    Follows o t (exDynamicBody rand (t.setO o)) (exDynamicBody rand t) := by
  unfold exDynamicBody
  refine (exBasicTests_follows o ht).andThen fun t ht => ?_
  refine follows_check (f := vecClear) ht (fun o => vecResizeEx_tracks (ht _) o 0 _) fun t ht => ?_
  refine follows_check (f := fun s => vecReserve s 20) ht (fun o => vecReserve_tracks (ht _) o 20) fun t ht => ?_
  exact (exSearchTest_follows rand o ht).andThen fun t ht => exDestroy_follows o ht

/-- The part of `TestStatic` after the initialisation. -/
def exStaticBody (rand : Nat → Nat) (t : ExSt) : Out (Status × ExSt) :=
  exCheck (exCompare exBuffer t 0 (vecGetSize t.s)) fun t =>
  exCheck (exBasicTests t) fun t =>
  t.check (vecClear t.s) fun t =>
  exCheck (exSearchTest rand t) exDestroy

theorem exStaticBody_follows (rand : Nat → Nat) (o : Nat → Status) {t : ExSt} (ht : Reliable t.s.w) :
    Follows o t (exStaticBody rand (t.setO o)) (exStaticBody rand t) := by
  unfold exStaticBody
  refine (exCompare_follows exBuffer o _ 0 ht).andThen fun t ht => ?_
  refine (exBasicTests_follows o ht).andThen fun t ht => ?_
  refine follows_check (f := vecClear) ht (fun o => vecResizeEx_tracks (ht _) o 0 _) fun t ht => ?_
  exact (exSearchTest_follows rand o ht).andThen fun t ht => exDestroy_follows o ht

/-- The part of `TestAllocator` after the initialisation. -/
def exAllocatorBody (t : ExSt) : Out (Status × ExSt) :=
  exCheck (exQuietPushes t 0 10) fun t =>
  if vecGetCapacity t.s ≠ 60 then .ret (stInvalidOperation, t)
  else
    t.check (vecClear t.s) fun t =>
    exDestroy (((t.print .info).print (.size (vecGetSize t.s))).print (.capacity (vecGetCapacity t.s)))

theorem exAllocatorBody_follows (o : Nat → Status) {t : ExSt} (ht : Reliable t.s.w) :
    Follows o t (exAllocatorBody (t.setO o)) (exAllocatorBody t) := by
  unfold exAllocatorBody
  refine (exQuietPushes_follows o 10 0 ht).andThen fun t ht => ?_
  have hcap : vecGetCapacity (t.setO o).s = vecGetCapacity t.s := rfl
  rw [hcap]
  split
  · exact follows_ret o _ ht
  · refine follows_check (f := vecClear) ht (fun o => vecResizeEx_tracks (ht _) o 0 _) fun t ht => ?_
    refine follows_print (l := .info) (follows_print (l := .size (vecGetSize t.s)) (follows_print
      (l := .capacity (vecGetCapacity t.s)) ?_))
    exact exDestroy_follows o (t := ((t.print .info).print (.size (vecGetSize t.s))).print
      (.capacity (vecGetCapacity t.s))) ht

/-! ## Insertions without a request -/

/-- The world is the same, and the vector uses the same block. -/
structure InPlace {α : Type} (s s' : VS α) : Prop where
  world : s'.w = s.w
  cap : s'.v.cap = s.v.cap
  block : s'.v.data.map Block.id = s.v.data.map Block.id
  allocator : s'.v.allocator = s.v.allocator
  esz : s'.v.esz = s.v.esz
  dtor : s'.v.hasDtor = s.v.hasDtor

theorem InPlace.refl {α : Type} (s : VS α) : InPlace s s := ⟨rfl, rfl, rfl, rfl, rfl, rfl⟩

theorem InPlace.trans {α : Type} {s t u : VS α} (h : InPlace s t) (h' : InPlace t u) : InPlace s u :=
  ⟨h'.world.trans h.world, h'.cap.trans h.cap, h'.block.trans h.block, h'.allocator.trans h.allocator,
    h'.esz.trans h.esz, h'.dtor.trans h.dtor⟩

theorem memcpyIn_ext_id {α : Type} {b b' : Block α} {i n : Nat} {cs : List (Cell α)}
    (h : memcpyIn b i (.ext cs) n = .ret b') : b'.id = b.id := by
  simp only [memcpyIn] at h
  cases hr : readRange cs 0 n with
  | ub u => rw [hr] at h; cases h
  | ret xs =>
    rw [hr, Out.ret_bind'] at h
    cases hw : writeRange b.cells i xs with
    | ub u => rw [hw] at h; cases h
    | ret cs => rw [hw] at h; injection h with h; rw [← h]

theorem shiftRight_inPlace {α : Type} {s s' : VS α} {i n : Nat} (h : shiftRight s i n = .ret s') :
    InPlace s s' ∧ s'.v.size = s.v.size := by
  unfold shiftRight at h
  cases hd : s.v.data with
  | none => rw [hd] at h; cases h
  | some b =>
    rw [hd] at h
    simp only [withData] at h
    cases hm : memmoveCells b.cells (add64 i n) i (sub64 s.v.size i) with
    | ub u => rw [hm] at h; cases h
    | ret cs =>
      rw [hm] at h
      injection h with h
      subst h
      exact ⟨⟨rfl, rfl, by rw [hd]; rfl, rfl, rfl, rfl⟩, rfl⟩

theorem vecInsert_inPlace {α : Type} {s s' : VS α} {st : Status} {p : Nat} {x : Cell α}
    (hc : s.v.size + 1 ≤ s.v.cap) (hb : s.v.cap < 2 ^ 64) (h : vecInsert s p (.ext [x]) = .ret (st, s')) :
    InPlace s s' ∧ (s'.v.size = s.v.size ∨ s'.v.size = s.v.size + 1) := by
  unfold vecInsert vecInsertRange at h
  split at h
  · injection h with h; injection h with h1 h2; rw [← h2]; exact ⟨InPlace.refl _, Or.inl rfl⟩
  split at h
  · injection h with h; injection h with h1 h2; rw [← h2]; exact ⟨InPlace.refl _, Or.inl rfl⟩
  have hadd : add64 s.v.size 1 = s.v.size + 1 := add64_eq (by omega)
  have hg : growFor s (s.v.size + 1) = .ret (stSuccess, s) := by
    unfold growFor shouldGrow
    rw [if_neg (by simp; omega)]
  rw [hadd, hg, Out.ret_bind', if_neg (show ¬ failed stSuccess = true by decide)] at h
  dsimp only at h
  have hmid : ∀ q, (if p < s.v.size then shiftRight s p 1 else .ret s) = .ret q →
      InPlace s q ∧ q.v.size = s.v.size := by
    intro q hq
    split at hq
    · exact shiftRight_inPlace hq
    · injection hq with hq; rw [← hq]; exact ⟨InPlace.refl _, rfl⟩
  cases hm : (if p < s.v.size then shiftRight s p 1 else .ret s) with
  | ub u => rw [hm] at h; cases h
  | ret q =>
    rw [hm, Out.ret_bind'] at h
    obtain ⟨hq, hsz⟩ := hmid q hm
    cases hd : q.v.data with
    | none => rw [hd] at h; cases h
    | some b =>
      rw [hd] at h
      simp only [withData] at h
      cases hcp : memcpyIn b p (.ext [x]) 1 with
      | ub u => rw [hcp] at h; cases h
      | ret b' =>
        rw [hcp] at h
        injection h with h
        injection h with h1 h2
        subst h2
        refine ⟨hq.trans ⟨rfl, rfl, ?_, rfl, rfl, rfl⟩, Or.inr ?_⟩
        · rw [hd]; show some b'.id = some b.id; rw [memcpyIn_ext_id hcp]
        · show add64 q.v.size 1 = _; rw [hsz, hadd]

theorem sortedFill_inPlace {α : Type} (cmp : Cell α → Cell α → Int) (xs : List (Cell α)) :
    ∀ {s s' : VS α} {st : Status}, s.v.size + xs.length ≤ s.v.cap → s.v.cap < 2 ^ 64 →
    sortedFill cmp s xs = .ret (st, s') → InPlace s s' := by
  induction xs with
  | nil =>
    intro s s' st _ _ h
    injection h with h; injection h with h1 h2; rw [← h2]; exact InPlace.refl _
  | cons x xs ih =>
    intro s s' st hc hb h
    rw [List.length_cons] at hc
    unfold sortedFill at h
    cases hr : vecBinarySearch s fun y => cmp y x with
    | ub u => rw [hr] at h; cases h
    | ret r =>
      rw [hr, Out.ret_bind'] at h
      split at h
      · injection h with h; injection h with h1 h2; rw [← h2]; exact InPlace.refl _
      · cases hp : r.2.1 with
        | none => rw [hp] at h; cases h
        | some p =>
          rw [hp] at h
          dsimp only at h
          cases hi : vecInsert s p (.ext [x]) with
          | ub u => rw [hi] at h; cases h
          | ret q =>
            rw [hi, Out.ret_bind'] at h
            obtain ⟨h1, h2⟩ := vecInsert_inPlace (st := q.1) (s' := q.2) (by omega) hb hi
            split at h
            · injection h with h; rw [h] at h1; exact h1
            · exact h1.trans (ih (by rw [h1.cap]; omega) (by rw [h1.cap]; exact hb) h)

/-! ## Printing -/

theorem exPrints_ok (f : TestStruct → Nat) {s : VS TestStruct} {es : List TestStruct}
    (hc : contents s = .ret (es.map some)) (hsz : s.v.size = es.length) (n : Nat) :
    ∀ (i : Nat) (t : ExSt), t.s = s → i + n = es.length →
    exPrints f t i n = .ret (stSuccess,
      { t with out := t.out ++ (es.drop i).mapIdx fun j e => .element (i + j) (f e) }) := by
  induction n with
  | zero =>
    intro i t _ hi
    have : es.drop i = [] := List.drop_eq_nil_of_le (by omega)
    rw [this]
    simp [exPrints]
  | succ n ih =>
    intro i t ht hi
    have hlt : i < es.length := by omega
    have hget : vecGetPointer t.s i = (stSuccess, some i) := by
      unfold vecGetPointer; rw [ht, hsz, if_neg (by omega)]
    have hder : vecDeref t.s i = .ret (some es[i]) := by
      rw [ht]
      unfold contents at hc
      unfold vecDeref
      cases hd : s.v.data with
      | none => rw [hd] at hc; cases hc
      | some b =>
        rw [hd] at hc
        simp only [withData, readRange] at hc ⊢
        split at hc
        · injection hc with hc
          have hi' : ((b.cells.drop 0).take s.v.size)[i]? = some (some es[i]) := by
            rw [hc]; simp [hlt]
          rw [List.drop_zero, List.getElem?_take_of_lt (by omega)] at hi'
          rw [hi']
        · cases hc
    unfold exPrints
    rw [hget]
    dsimp only
    rw [if_neg (show ¬ failed stSuccess = true by decide), hder, Out.ret_bind']
    dsimp only
    rw [ih (i + 1) (t.print (.element i (f es[i]))) ht (by omega)]
    rw [List.drop_eq_getElem_cons hlt, List.mapIdx_cons]
    simp [ExSt.print, Nat.add_assoc, Nat.add_comm 1]

/-! ## The drawn values -/

theorem testDataComparison_ok : Comparator testDataComparison := by
  constructor
  · intro x y; unfold testDataComparison; dsimp only; split <;> split <;> simp <;> omega
  · intro x y z; unfold testDataComparison; dsimp only; split <;> split <;> split <;> simp <;> omega

/-- The sorted draws as numbers. -/
theorem sortedDraw_of {rand : Nat → Nat} {k n : Nat} {l : List (Cell TestStruct)}
    (h : SortedInto testDataComparison [] (exDrawn rand k n) l) :
    ∃ vs, SortedDraw rand k n vs ∧ l = vs.map initTestdata := by
  let key : Cell TestStruct → Nat := fun c => match c with | none => 0 | some e => e.u32
  have hmem : ∀ c ∈ l, c = initTestdata (key c) := by
    intro c hc
    have : c ∈ exDrawn rand k n := by simpa using h.same.mem_iff.1 hc
    obtain ⟨i, _, rfl⟩ := List.mem_map.1 this
    rfl
  have hl : l = (l.map key).map initTestdata := by
    rw [List.map_map]
    conv => lhs; rw [← List.map_id l]
    exact List.map_congr_left fun c hc => hmem c hc
  refine ⟨l.map key, ⟨?_, ?_⟩, hl⟩
  · rw [List.pairwise_map]
    refine List.Pairwise.imp_of_mem ?_ h.ascending
    intro a b ha hb hab
    rw [hmem a ha, hmem b hb] at hab
    have hab' : (if key a + 1 < key b + 1 then (-1 : Int) else if key a + 1 > key b + 1 then 1 else 0) ≤ 0 := hab
    show key a ≤ key b
    refine Nat.le_of_not_lt fun hlt => ?_
    rw [if_neg (by omega), if_pos (by omega)] at hab'
    omega
  · have := h.same.map key
    simp only [List.nil_append, exDrawn, List.map_map] at this
    exact this

/-! ## The runs with an allocator that grants everything -/

/-- An allocator that grants everything. -/
def exGood : Nat → Status := fun _ => stSuccess

theorem exGood_reliable : ∀ k, failed (exGood k) = false := fun _ => failed_success

/-- What the binary-search test does with an empty vector of capacity 20. -/
theorem exSearchTest_ok {P : Params} {t : ExSt} (h : Reach P t.s) (hsz : t.s.v.size = 0) (hcap : t.s.v.cap = 20)
    (hesz : P.esz = 24) (rand : Nat → Nat) :
    ∃ vs s', SortedDraw rand t.rands 20 vs ∧ InPlace t.s s' ∧ s'.v.size = 20 ∧
      exSearchTest rand t = .ret (stSuccess, ⟨s', t.out ++ searchLines vs, t.rands + 20⟩) := by
  obtain ⟨b, slack, R⟩ := h.rep
  have hel : (absOf t.s).elems = [] := by
    have h1 := R.size
    rw [hsz] at h1
    exact List.length_eq_zero_iff.1 h1.symm
  have hc : contents t.s = .ret [] := by rw [R.contents, hel]
  have hlen : (exDrawn rand t.rands 20).length = 20 := by simp [exDrawn]
  obtain ⟨st, s', n, l, hrun, hr', hc', hl, hn, hst, hshort, hfix⟩ :=
    sortedFill_ok testDataComparison_ok (exDrawn rand t.rands 20) h hc List.Pairwise.nil
      (by show _ < _; rw [hlen, hesz]; decide)
  have hnn : n = 20 := by
    rcases Nat.lt_or_eq_of_le hn with hlt | heq
    · obtain ⟨hnone, _⟩ := hshort hlt
      have := (hfix hnone).1
      rw [hlen, hcap] at this
      simpa using this
    · rw [heq, hlen]
  have hstt := hst (by rw [hnn, hlen])
  subst hstt
  have hin := sortedFill_inPlace testDataComparison (exDrawn rand t.rands 20) (s := t.s)
    (by rw [hsz, hlen, hcap]; decide) (by rw [hcap]; decide) hrun
  rw [hnn, List.take_of_length_le (by rw [hlen]; decide)] at hl
  obtain ⟨vs, hvs, rfl⟩ := sortedDraw_of hl
  have hvl : vs.length = 20 := by rw [hvs.2.length_eq]; simp
  obtain ⟨b', slack', R'⟩ := hr'.rep
  have hc2 := R'.contents
  rw [hc'] at hc2
  injection hc2 with hc2
  have hsz' : s'.v.size = 20 := by rw [R'.size, ← hc2]; simp [hvl]
  refine ⟨vs, s', hvs, hin, hsz', ?_⟩
  unfold exSearchTest
  rw [vecGetCapacity, hcap]
  dsimp only
  rw [hrun]
  simp only [ExSt.check, Out.ret_bind']
  rw [if_neg (show ¬ failed stSuccess = true by decide)]
  have hmap : vs.map initTestdata = (vs.map fun n => (⟨n, n⟩ : TestStruct)).map some := by
    rw [List.map_map]; rfl
  rw [hmap] at hc'
  rw [vecGetSize]
  have := exPrints_ok TestStruct.u32 hc' (by rw [hsz']; simp [hvl]) 20 0
    (ExSt.print ⟨s', t.out, t.rands + 20⟩ .elements) rfl (by simp [hvl])
  rw [hsz', this]
  simp [ExSt.print, searchLines, List.mapIdx_eq_zipIdx_map, List.zipIdx_map]

/-- Destroying a vector without destructor. -/
theorem vecDestroy_plain {s : VS TestStruct} {a : Nat} {b : Block TestStruct} (hd : s.v.hasDtor = false)
    (ha : s.v.allocator = some a) (hc : s.v.cap ≠ 0) (hb : s.v.data = some b) (hw : s.w.oracle = exGood) :
    vecDestroy s = .ret (stSuccess, ⟨{ s.v with data := none },
      { s.w with calls := s.w.calls + 1, trace := s.w.trace ++ [.dealloc a b.id s.v.esz s.v.cap] }⟩) := by
  simp [vecDestroy, runDtors, hd, ha, hc, hb, withData, deallocate, hw, exGood, World.log, failed_success]

/-- `TestDynamic` after the initialisation. -/
def exDyn0 : ExSt :=
  ⟨⟨{ allocator := some 0, growth := 2, shrink := 4, size := 0, cap := 10, esz := 24, hasDtor := false,
      data := some ⟨0, List.replicate 10 none⟩ }, ⟨exGood, 1, 1, [.alloc 0 0 24 10]⟩⟩, [], 0⟩

/-- `TestDynamic` before the binary-search test. -/
def exDyn1 : ExSt :=
  ⟨⟨{ allocator := some 0, growth := 2, shrink := 4, size := 0, cap := 20, esz := 24, hasDtor := false,
      data := some ⟨3, some ⟨0, 0⟩ :: List.replicate 19 none⟩ },
    ⟨exGood, 4, 4, [.alloc 0 0 24 10, .realloc 0 0 1 24 22, .realloc 0 1 2 24 1, .realloc 0 2 3 24 20]⟩⟩,
    basicLines (fun i => if i < 10 then 10 else 22) 22, 0⟩

set_option maxRecDepth 100000 in
theorem exDynamicBody_eq (rand : Nat → Nat) :
    exDynamicBody rand exDyn0 = exCheck (exSearchTest rand exDyn1) exDestroy := by
  have h : ∀ (f : ExSt → Out (Status × ExSt)), (exCheck (exBasicTests exDyn0) fun t =>
      t.check (vecClear t.s) fun t => t.check (vecReserve t.s 20) f) = f exDyn1 := fun f => rfl
  exact h _

/-- The calls on the vector in the basic tests. -/
def exBasicOps : List (VOp TestStruct) :=
  (List.range 20).map (fun i => .push (initTestdata i)) ++
    [.deleteRange 5 5, .insertRange 5 [initTestdata 12345678], .set 10 (initTestdata 87654321), .clear]

def exDynP : Params := ⟨some 0, 2, 4, 24, false⟩

set_option maxRecDepth 100000 in
theorem exDyn1_reach : Reach exDynP exDyn1.s := by
  have h0 : Reach exDynP exDyn0.s :=
    Reach.init (w := exWorld exGood) (cap := 10) (a := 0) ⟨rfl, rfl⟩ exGood_reliable
      ⟨rfl, by decide, by decide⟩ (by decide) rfl
  refine Reach.run (exBasicOps ++ [.reserve 20]) (sts := List.replicate 25 stSuccess) h0 ?_ rfl
  repeat'
    refine .cons (by first | exact trivial | (show _ < _; decide)) fun j hj => ?_
    obtain rfl := List.eq_nil_of_length_eq_zero hj
  exact .nil _

/-- `TestStatic` after the initialisation. -/
def exSta0 : ExSt :=
  ⟨⟨{ allocator := none, growth := 1, shrink := 0, size := 0, cap := 20, esz := 24, hasDtor := false,
      data := some ⟨0, exBuffer⟩ }, ⟨exGood, 0, 0, []⟩⟩, [], 20⟩

/-- `TestStatic` before the binary-search test. -/
def exSta1 : ExSt :=
  ⟨⟨{ allocator := none, growth := 1, shrink := 0, size := 0, cap := 20, esz := 24, hasDtor := false,
      data := some ⟨0, [0, 1, 2, 3, 4, 12345678, 10, 11, 12, 13, 87654321, 15, 16, 17, 18, 19, 16, 17, 18, 19].map
        initTestdata⟩ }, ⟨exGood, 0, 0, []⟩⟩, basicLines (fun _ => 20) 20, 20⟩

set_option maxRecDepth 100000 in
theorem exStaticBody_eq (rand : Nat → Nat) :
    exStaticBody rand exSta0 = exCheck (exSearchTest rand exSta1) exDestroy := by
  have h : ∀ (f : ExSt → Out (Status × ExSt)), (exCheck (exCompare exBuffer exSta0 0 (vecGetSize exSta0.s)) fun t =>
      exCheck (exBasicTests t) fun t => t.check (vecClear t.s) f) = f exSta1 := fun f => rfl
  exact h _

def exStaP : Params := ⟨none, 1, 0, 24, false⟩

set_option maxRecDepth 100000 in
theorem exSta1_reach : Reach exStaP exSta1.s := by
  have h0 : Reach exStaP exSta0.s :=
    Reach.initBuffer (w := exWorld exGood) (cap := 20) (b := ⟨0, exBuffer⟩) ⟨rfl, rfl⟩ exGood_reliable
      ⟨rfl, rfl, rfl⟩ (by decide) (by decide) rfl
  refine Reach.run exBasicOps (sts := List.replicate 24 stSuccess) h0 ?_ rfl
  repeat'
    refine .cons (by first | exact trivial | (show _ < _; decide)) fun j hj => ?_
    obtain rfl := List.eq_nil_of_length_eq_zero hj
  exact .nil _

/-- `TestAllocator` after the initialisation. -/
def exAll0 : ExSt :=
  ⟨⟨{ allocator := some 1, growth := 10, shrink := 0, size := 0, cap := 5, esz := 24, hasDtor := false,
      data := some ⟨0, List.replicate 5 none⟩ }, ⟨exGood, 1, 1, [.alloc 1 0 24 5]⟩⟩, [], 40⟩

/-- `TestAllocator` at its end. -/
def exAll1 : ExSt :=
  ⟨⟨{ allocator := some 1, growth := 10, shrink := 0, size := 0, cap := 60, esz := 24, hasDtor := false,
      data := none }, ⟨exGood, 3, 2, [.alloc 1 0 24 5, .realloc 1 0 1 24 60, .dealloc 1 1 24 60]⟩⟩,
    [.info, .size 0, .capacity 60], 40⟩

set_option maxRecDepth 100000 in
theorem exAllocatorBody_eq : exAllocatorBody exAll0 = .ret (stSuccess, exAll1) := rfl

/-! ## The test functions -/

/-- How a test function ends that makes `n` requests: all are granted and it is successful, or one is refused
and it fails. -/
def TestEnds (o : Nat → Status) (n : Nat) (lines : List Line) (trace : List (Event TestStruct)) (rands : Nat)
    (x : Out (Status × ExSt)) : Prop :=
  ((∀ k, k < n → failed (o k) = false) ∧ ∃ t, x = .ret (stSuccess, t) ∧ t.out = lines ∧
    t.s.w.trace = trace ∧ t.s.w.calls = n ∧ t.rands = rands) ∨
  ((∃ k, k < n ∧ failed (o k) = true) ∧ ∃ st t, x = .ret (st, t) ∧ failed st = true ∧ t.out <+: lines)

theorem Follows.ends {o : Nat → Status} {t : ExSt} {x y : Out (Status × ExSt)} (h : Follows o t x y)
    (h0 : ∀ k, k < t.s.w.calls → failed (o k) = false) {r : ExSt} (hy : y = .ret (stSuccess, r)) :
    TestEnds o r.s.w.calls r.out r.s.w.trace r.rands x := by
  obtain ⟨_, h1⟩ := h _ hy
  rcases h1 with ⟨hx, hk⟩ | ⟨k, t', _, h2, _, h4, hx, h5⟩
  · left
    refine ⟨fun k hlt => ?_, r.setO o, hx, rfl, rfl, rfl, rfl⟩
    by_cases hs : k < t.s.w.calls
    · exact h0 k hs
    · exact hk k (by omega) hlt
  · right
    exact ⟨⟨k, h2, h4⟩, _, t', hx, h4, h5⟩

/-- A test function that begins with a request. -/
theorem exInit_ends {o : Nat → Status} {t₀ : ExSt} {esz cap a g thr n rands rands' : Nat}
    {lines : List Line} {trace : List (Event TestStruct)} {k : ExSt → Out (Status × ExSt)} (he : esz ≠ 0) (hg : 1 ≤ g) (hn : 0 < n)
    (ht : t₀ = ⟨⟨⟨some a, g, thr, 0, max 1 cap, esz, false,
      some ⟨0, List.replicate (grantedCells esz (max 1 cap)) none⟩⟩,
      ⟨exGood, 1, 1, [.alloc a 0 esz (max 1 cap)]⟩⟩, [], rands⟩)
    (h : failed (o 0) = false → TestEnds o n lines trace rands' (k (t₀.setO o))) :
    TestEnds o n lines trace rands' (exInit (vecInitEx (exWorld o) esz cap false (some a) g thr) rands k) := by
  have hcond : ¬ (esz = 0 ∨ g < 1) := by omega
  by_cases hf : failed (o 0) = true
  · right
    refine ⟨⟨0, hn, hf⟩, o 0, ?_⟩
    simp only [vecInitEx, hcond, if_false, allocate, exWorld, hf, if_true, exInit, World.log]
    exact ⟨_, rfl, trivial, List.nil_prefix⟩
  · have hf' : failed (o 0) = false := by simpa using hf
    have := h hf'
    have hx : exInit (vecInitEx (exWorld o) esz cap false (some a) g thr) rands k = k (t₀.setO o) := by
      have hg0 : ¬ g = 0 := by omega
      rw [ht]
      simp [vecInitEx, he, hg0, allocate, exWorld, hf', exInit, World.log, ExSt.setO, setOracle]
    rw [hx]
    exact this

theorem exTestDynamic_ends (rand : Nat → Nat) (o : Nat → Status) :
    ∃ vs, SortedDraw rand 0 20 vs ∧
      TestEnds o 5 (basicLines (fun i => if i < 10 then 10 else 22) 22 ++ searchLines vs)
        [.alloc 0 0 24 10, .realloc 0 0 1 24 22, .realloc 0 1 2 24 1, .realloc 0 2 3 24 20, .dealloc 0 3 24 20]
        20 (exTestDynamic rand o 0) := by
  obtain ⟨vs, s', hvs, hin, hsz, hrun⟩ := exSearchTest_ok exDyn1_reach rfl rfl rfl rand
  refine ⟨vs, hvs, ?_⟩
  obtain ⟨b, hb, hid⟩ : ∃ b, s'.v.data = some b ∧ b.id = 3 := by
    have h1 := hin.block
    cases hd : s'.v.data with
    | none => rw [hd] at h1; cases h1
    | some b => rw [hd] at h1; exact ⟨b, rfl, by injection h1⟩
  have hdes := vecDestroy_plain (s := s') (a := 0) (b := b) hin.dtor hin.allocator
    (by rw [hin.cap]; decide) hb (by rw [hin.world]; rfl)
  rw [hid, hin.esz, hin.cap, hin.world] at hdes
  have hbody : exDynamicBody rand exDyn0 = .ret (stSuccess, ⟨⟨{ s'.v with data := none },
      ⟨exGood, 5, 4, [.alloc 0 0 24 10, .realloc 0 0 1 24 22, .realloc 0 1 2 24 1, .realloc 0 2 3 24 20,
        .dealloc 0 3 24 20]⟩⟩, exDyn1.out ++ searchLines vs, 20⟩) := by
    rw [exDynamicBody_eq, hrun]
    simp only [exCheck, Out.ret_bind']
    rw [if_neg (show ¬ failed stSuccess = true by decide)]
    unfold exDestroy
    rw [hdes]
    rfl
  exact exInit_ends (t₀ := exDyn0) (esz := 24) (cap := 10) (g := 2) (n := 5) (by decide) (by decide) (by decide) rfl fun hf =>
    (exDynamicBody_follows rand o (t := exDyn0) exGood_reliable).ends
      (fun k hk => by
        have hk' : k < 1 := hk
        have : k = 0 := by omega
        rw [this]; exact hf) hbody

theorem exTestStatic_ends (rand : Nat → Nat) (o : Nat → Status) :
    ∃ vs, SortedDraw rand 20 20 vs ∧
      TestEnds o 0 (basicLines (fun _ => 20) 20 ++ searchLines vs) [] 40 (exTestStatic rand o 20) := by
  obtain ⟨vs, s', hvs, hin, hsz, hrun⟩ := exSearchTest_ok exSta1_reach rfl rfl rfl rand
  refine ⟨vs, hvs, ?_⟩
  have hdes : vecDestroy s' = .ret (stSuccess, ⟨{ s'.v with data := none }, exSta1.s.w⟩) := by
    have h1 := hin.dtor
    have h2 := hin.allocator
    have h3 := hin.world
    simp [exSta1] at h1 h2 h3
    simp [vecDestroy, runDtors, h1, h2, h3, exSta1]
  have hbody : exStaticBody rand exSta0 = .ret (stSuccess, ⟨⟨{ s'.v with data := none }, exSta1.s.w⟩,
      exSta1.out ++ searchLines vs, 40⟩) := by
    rw [exStaticBody_eq, hrun]
    simp only [exCheck, Out.ret_bind']
    rw [if_neg (show ¬ failed stSuccess = true by decide)]
    unfold exDestroy
    rw [hdes]
    rfl
  have hstart : exTestStatic rand o 20 = exStaticBody rand (exSta0.setO o) := by
    have hr : vecInitBuffer testStructSize (some ⟨0, exBuffer⟩) 20 false = (stSuccess, some exSta0.s.v) := rfl
    unfold exTestStatic exInit
    rw [hr]
    dsimp only
    rw [if_neg (show ¬ failed stSuccess = true by decide)]
    rfl
  rw [hstart]
  exact (exStaticBody_follows rand o (t := exSta0) exGood_reliable).ends
    (fun k hk => absurd hk (Nat.not_lt_zero k)) hbody

theorem exTestAllocator_ends (o : Nat → Status) :
    TestEnds o 3 [.info, .size 0, .capacity 60] [.alloc 1 0 24 5, .realloc 1 0 1 24 60, .dealloc 1 1 24 60] 40
      (exTestAllocator o 40) :=
  exInit_ends (t₀ := exAll0) (esz := 24) (cap := 5) (g := 10) (n := 3) (by decide) (by decide) (by decide) rfl fun hf =>
    (exAllocatorBody_follows o (t := exAll0) exGood_reliable).ends
      (fun k hk => by
        have hk' : k < 1 := hk
        have : k = 0 := by omega
        rw [this]; exact hf) exAllocatorBody_eq

end Zy
