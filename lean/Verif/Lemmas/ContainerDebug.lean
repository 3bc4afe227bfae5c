import Verif.Spec.ContainerDebug
import Verif.Lemmas.VectorDebug

/-!
# Lemmas: the bitset and list functions with assertions
-/

namespace Zy

open Spec

variable {α β : Type}

/-! ## Vectors of any length -/

theorem growFor_used {s : VS α} (h : Usable s) {n : Nat} {r : Status × VS α} (e : growFor s n = .ret r) :
    Usable r.2 := by
  unfold growFor at e
  split at e
  · exact (reallocate_usable h e).1
  · cases e; exact h

theorem vecPushBack_used {s : VS α} (h : Usable s) {x : Src α} {r : Status × VS α}
    (e : vecPushBack s x = .ret r) : Usable r.2 := by
  unfold vecPushBack at e
  split at e
  · cases e; exact h
  obtain ⟨q, e1, e⟩ := bind_ret e
  have h1 := growFor_used h e1
  split at e
  · cases e; exact h1
  simp only [withData] at e
  split at e
  · cases e
  obtain ⟨b', _, e⟩ := bind_ret e
  cases e
  exact h1.stored _ _

theorem vecReserve_used {s : VS α} (h : Usable s) {c : Nat} {r : Status × VS α}
    (e : vecReserve s c = .ret r) : Usable r.2 := by
  unfold vecReserve at e
  split at e
  · obtain ⟨q, e1, e⟩ := bind_ret e
    have h1 := (reallocate_usable h e1).1
    split at e <;> (cases e; exact h1)
  · cases e; exact h

theorem vecReserveD_eq' {s : VS α} (h : Usable s) (c : Nat) : vecReserveD s c = vecReserve s c := by
  unfold vecReserveD vecReserve
  rw [reallocateD_eq h]

/-! ## Bitsets -/

theorem withPointerD_eq {s : VS Byte} (h : Usable s) (i : Nat) (err : Status → β) (k : Nat → Out β) :
    withPointerD s i err k = withPointer s i err k := by
  unfold withPointerD withPointer
  rw [vecGetPointerD_eq h, Out.ret_bind']
  rfl

theorem vecStore_used {s s' : VS Byte} (h : Usable s) {k : Nat} {c : Cell Byte}
    (e : vecStore s k c = .ret s') : Usable s' := by
  simp only [vecStore, withData] at e
  split at e
  · cases e
  obtain ⟨cs, _, e⟩ := bind_ret e
  cases e
  exact h.stored _ _

theorem withPointer_ret {s : VS Byte} {i : Nat} {err : Status → β} {k : Nat → Out β} {r : β}
    (e : withPointer s i err k = .ret r) : (∃ st, r = err st) ∨ ∃ p, k p = .ret r := by
  simp only [withPointer] at e
  split at e
  · cases e; exact Or.inl ⟨_, rfl⟩
  · split at e
    · cases e
    · exact Or.inr ⟨_, e⟩

theorem bsInitElementsD_eq : ∀ (n : Nat) {s : VS Byte}, Usable s → bsInitElementsD s n = bsInitElements s n
  | 0, _, _ => rfl
  | n + 1, s, h => by
    unfold bsInitElementsD bsInitElements
    rw [vecPushBackD_eq h]
    refine bind_same fun r e => ?_
    rw [bsInitElementsD_eq n (vecPushBack_used h e)]

theorem bsInitElements_used : ∀ (n : Nat) {s : VS Byte} {r : Status × VS Byte}, Usable s →
    bsInitElements s n = .ret r → Usable r.2
  | 0, _, _, h, e => by cases e; exact h
  | n + 1, s, r, h, e => by
    unfold bsInitElements at e
    obtain ⟨q, e1, e⟩ := bind_ret e
    have h1 := vecPushBack_used h e1
    split at e
    · cases e; exact h1
    · exact bsInitElements_used n h1 e

theorem init_none_used {w w' : World α} {esz cap g th : Nat} {dt : Bool} {st : Status} {v : Vec α} :
    vecInitEx w esz cap dt none g th ≠ (st, some v, w') := by
  unfold vecInitEx
  intro h
  cases h

theorem bsInitExD_eq (w : World Byte) (n : Nat) (al : Option Nat) {g : Nat} (th : Nat) (hg : g ≤ 255) :
    bsInitExD w n al g th = bsInitEx w n al g th := by
  unfold bsInitExD bsInitEx
  dsimp only
  split
  · rfl
  rename_i hf
  generalize hr : vecInitEx w 1 (bitsToBytes n) false al g th = r at hf
  obtain ⟨st, ov, w'⟩ := r
  cases ov with
  | none => rfl
  | some v =>
    cases al with
    | none => exact absurd hr init_none_used
    | some a =>
      have := (init_usable hg hr (by simpa using hf)).1
      simp only [bsInitElementsD_eq _ this]

theorem bsInitBufferD_eq (w : World Byte) (n : Nat) (b : Option (Block Byte)) (cap : Nat) :
    bsInitBufferD w n b cap = bsInitBuffer w n b cap := by
  unfold bsInitBufferD bsInitBuffer
  dsimp only
  split
  · rfl
  split
  · rfl
  rename_i hf
  generalize hr : vecInitBuffer 1 b cap false = r at hf
  obtain ⟨st, ov⟩ := r
  cases ov with
  | none => rfl
  | some v => simp only [bsInitElementsD_eq _ (initBuffer_usable (w := w) hr).1]

theorem bsInitEx_used {w w' : World Byte} {n a g th : Nat} {st : Status} {t : Bits} (hg : g ≤ 255)
    (h : bsInitEx w n (some a) g th = .ret (st, some t, w')) : Usable t.s := by
  unfold bsInitEx at h
  dsimp only at h
  split at h
  · cases h
  rename_i hf
  generalize hr : vecInitEx w 1 (bitsToBytes n) false (some a) g th = r at hf h
  obtain ⟨st1, ov, w1⟩ := r
  cases ov with
  | none => cases h
  | some v =>
    have hu := (init_usable hg hr (by simpa using hf)).1
    obtain ⟨q, e1, h⟩ := bind_ret h
    have := bsInitElements_used _ hu e1
    split at h <;> cases h
    exact this

theorem bsInitBuffer_used {w : World Byte} {n cap : Nat} {b : Option (Block Byte)} {st : Status} {t : Bits}
    (h : bsInitBuffer w n b cap = .ret (st, some t)) : Usable t.s := by
  unfold bsInitBuffer at h
  dsimp only at h
  split at h
  · cases h
  split at h
  · cases h
  rename_i hf
  generalize hr : vecInitBuffer 1 b cap false = r at hf h
  obtain ⟨st1, ov⟩ := r
  cases ov with
  | none => cases h
  | some v =>
    have hu := (initBuffer_usable (w := w) hr).1
    obtain ⟨q, e1, h⟩ := bind_ret h
    have := bsInitElements_used _ hu e1
    split at h <;> cases h
    exact this

theorem bsOpLoopD_eq (op : Byte → Byte → Status × Byte) {src : VS Byte} (hs : Usable src) :
    ∀ (n : Nat) {dst : VS Byte} (i : Nat), Usable dst →
      bsOpLoopD op src n dst i = bsOpLoop op src n dst i
  | 0, _, _, _ => rfl
  | n + 1, dst, i, h => by
    unfold bsOpLoopD bsOpLoop
    rw [vecGetPointerD_eq h, vecGetPointerD_eq hs]
    simp only [Out.ret_bind', withPointer, vecGetPointer]
    by_cases h1 : i ≥ dst.v.size
    · simp only [h1, if_true]; rfl
    by_cases h2 : i ≥ src.v.size
    · simp only [h1, h2, if_true, if_false]; rfl
    simp only [h1, h2, if_false, assertThat, Option.isSome_some, if_true, failed_success,
      Bool.false_eq_true]
    refine bind_same fun x _ => bind_same fun y _ => bind_same fun d ed => ?_
    rw [bsOpLoopD_eq op hs n (i + 1) (vecStore_used h ed)]

theorem bsOpLoop_used (op : Byte → Byte → Status × Byte) {src : VS Byte} :
    ∀ (n : Nat) {dst : VS Byte} {i : Nat} {r : Status × VS Byte}, Usable dst →
      bsOpLoop op src n dst i = .ret r → Usable r.2
  | 0, _, _, _, h, e => by cases e; exact h
  | n + 1, dst, i, r, h, e => by
    unfold bsOpLoop at e
    rcases withPointer_ret e with ⟨st, rfl⟩ | ⟨p, e⟩
    · exact h
    rcases withPointer_ret e with ⟨st, rfl⟩ | ⟨p2, e⟩
    · exact h
    obtain ⟨x, _, e⟩ := bind_ret e
    obtain ⟨y, _, e⟩ := bind_ret e
    obtain ⟨d, ed, e⟩ := bind_ret e
    have hd := vecStore_used h ed
    split at e
    · cases e; exact hd
    · exact bsOpLoop_used op n hd e

theorem bsMapLoopD_eq (f : VS Byte → Nat → Out Byte) : ∀ (n : Nat) {s : VS Byte} (i : Nat), Usable s →
    bsMapLoopD f n s i = bsMapLoop f n s i
  | 0, _, _, _ => rfl
  | n + 1, s, i, h => by
    unfold bsMapLoopD bsMapLoop
    rw [withPointerD_eq h]
    have : (fun p => (f s p).bind fun x => (vecStore s p (some x)).bind fun s => bsMapLoopD f n s (i + 1)) =
        fun p => (f s p).bind fun x => (vecStore s p (some x)).bind fun s => bsMapLoop f n s (i + 1) := by
      funext p
      exact bind_same fun x _ => bind_same fun d ed => bsMapLoopD_eq f n (i + 1) (vecStore_used h ed)
    rw [this]

theorem bsMapLoop_used (f : VS Byte → Nat → Out Byte) : ∀ (n : Nat) {s : VS Byte} {i : Nat}
    {r : Status × VS Byte}, Usable s → bsMapLoop f n s i = .ret r → Usable r.2
  | 0, _, _, _, h, e => by cases e; exact h
  | n + 1, s, i, r, h, e => by
    unfold bsMapLoop at e
    rcases withPointer_ret e with ⟨st, rfl⟩ | ⟨p, e⟩
    · exact h
    obtain ⟨x, _, e⟩ := bind_ret e
    obtain ⟨d, ed, e⟩ := bind_ret e
    exact bsMapLoop_used f n (vecStore_used h ed) e

theorem bsMapAllD_eq (f : VS Byte → Nat → Out Byte) {t : Bits} (h : Usable t.s) :
    bsMapAllD f t = bsMapAll f t := by
  unfold bsMapAllD bsMapAll
  rw [bsMapLoopD_eq f _ 0 h]

theorem bsMapAll_used {f : VS Byte → Nat → Out Byte} {t : Bits} (h : Usable t.s) {r : Status × Bits}
    (e : bsMapAll f t = .ret r) : Usable r.2.s := by
  obtain ⟨q, e1, e⟩ := bind_ret e
  cases e
  exact bsMapLoop_used f _ h e1

theorem bsModifyD_eq (f : Byte → Byte → Byte) {t : Bits} (h : Usable t.s) (i : Nat) :
    bsModifyD f t i = bsModify f t i := by
  unfold bsModifyD bsModify
  rw [withPointerD_eq h]

theorem bsModify_used {f : Byte → Byte → Byte} {t : Bits} (h : Usable t.s) {i : Nat} {r : Status × Bits}
    (e : bsModify f t i = .ret r) : Usable r.2.s := by
  unfold bsModify at e
  split at e
  · cases e; exact h
  rcases withPointer_ret e with ⟨st, rfl⟩ | ⟨p, e⟩
  · exact h
  obtain ⟨x, _, e⟩ := bind_ret e
  obtain ⟨d, ed, e⟩ := bind_ret e
  cases e
  exact vecStore_used h ed

theorem bsAssignD_eq {t : Bits} (h : Usable t.s) (i : Nat) (v : Bool) : bsAssignD t i v = bsAssign t i v := by
  unfold bsAssignD bsAssign
  rw [bsModifyD_eq _ h, bsModifyD_eq _ h]
  rfl

theorem bsAssign_used {t : Bits} (h : Usable t.s) {i : Nat} {v : Bool} {r : Status × Bits}
    (e : bsAssign t i v = .ret r) : Usable r.2.s := by
  unfold bsAssign at e
  split at e
  · exact bsModify_used h e
  · exact bsModify_used h e

theorem pushPart_used {t : Bits} (h : Usable t.s) {r : Status × VS Byte}
    (e : (if t.size % 8 = 0 then vecPushBack t.s (.ext [some 0#8]) else .ret (stSuccess, t.s)) = .ret r) :
    Usable r.2 := by
  split at e
  · exact vecPushBack_used h e
  · cases e; exact h

theorem bsOpD_eq {t : Bits} (h : Usable t.s) (op : BOp) : bsOpD t op = bsOp t op := by
  cases op with
  | push v =>
    show bsPushD t v = bsPush t v
    unfold bsPushD bsPush
    dsimp only
    rw [vecPushBackD_eq h]
    refine bind_same fun r e => ?_
    have hr : Usable r.2 := pushPart_used h e
    have ha := bsAssignD_eq (t := ⟨add64 t.size 1, r.2⟩) hr
    rw [ha]
  | pop =>
    show bsPopD t = bsPop t
    unfold bsPopD bsPop
    dsimp only
    rw [vecPopBackD_eq h]
  | set i =>
    simp only [bsOpD, bsOp, bsSet]
    exact bsModifyD_eq _ h i
  | reset i =>
    simp only [bsOpD, bsOp, bsReset]
    exact bsModifyD_eq _ h i
  | assign i v => exact bsAssignD_eq h i v
  | toggle i =>
    simp only [bsOpD, bsOp, bsToggle]
    exact bsModifyD_eq _ h i
  | setAll =>
    simp only [bsOpD, bsOp, bsSetAll]
    exact bsMapAllD_eq _ h
  | resetAll =>
    simp only [bsOpD, bsOp, bsResetAll]
    exact bsMapAllD_eq _ h
  | flip =>
    simp only [bsOpD, bsOp, bsFlip]
    exact bsMapAllD_eq _ h
  | clear =>
    show bsClearD t = bsClear t
    unfold bsClearD bsClear
    rw [vecResizeExD_eq h]
    rfl
  | reserve n =>
    show bsReserveD t n = bsReserve t n
    unfold bsReserveD bsReserve
    rw [vecReserveD_eq' h]
  | shrinkToFit =>
    show bsShrinkToFitD t = bsShrinkToFit t
    unfold bsShrinkToFitD bsShrinkToFit vecShrinkToFitD
    rw [reallocateD_eq h]
    rfl

theorem popPart_used {t : Bits} (h : Usable t.s) (m : Nat) {r : Status × Bits}
    (e : (if m % 8 = 0 then (vecPopBack t.s).bind fun r => .ret (r.1, (⟨m, r.2⟩ : Bits))
      else .ret (stSuccess, ⟨m, t.s⟩)) = .ret r) : Usable r.2.s := by
  obtain ⟨n, s⟩ := t
  split at e
  · obtain ⟨q, e1, e⟩ := bind_ret e
    cases e
    exact (vecPopBack_usable h e1).1
  · cases e; exact h

theorem bsOp_used {t : Bits} (h : Usable t.s) (op : BOp) {r : Status × Bits} (e : bsOp t op = .ret r) :
    Usable r.2.s := by
  cases op with
  | push v =>
    simp only [bsOp, bsPush] at e
    obtain ⟨q, e1, e⟩ := bind_ret e
    have h1 : Usable q.2 := pushPart_used h e1
    split at e
    · cases e; exact h1
    · exact bsAssign_used h1 e
  | pop =>
    simp only [bsOp, bsPop] at e
    exact popPart_used h (sub64 t.size 1) e
  | set i =>
    simp only [bsOp, bsSet] at e
    exact bsModify_used h e
  | reset i =>
    simp only [bsOp, bsReset] at e
    exact bsModify_used h e
  | assign i v => exact bsAssign_used h e
  | toggle i =>
    simp only [bsOp, bsToggle] at e
    exact bsModify_used h e
  | setAll =>
    simp only [bsOp, bsSetAll] at e
    exact bsMapAll_used h e
  | resetAll =>
    simp only [bsOp, bsResetAll] at e
    exact bsMapAll_used h e
  | flip =>
    simp only [bsOp, bsFlip] at e
    exact bsMapAll_used h e
  | clear =>
    simp only [bsOp, bsClear] at e
    obtain ⟨q, e1, e⟩ := bind_ret e
    cases e
    exact (vecResizeEx_usable h e1).1
  | reserve n =>
    simp only [bsOp, bsReserve] at e
    obtain ⟨q, e1, e⟩ := bind_ret e
    cases e
    exact vecReserve_used h e1
  | shrinkToFit =>
    simp only [bsOp, bsShrinkToFit] at e
    obtain ⟨q, e1, e⟩ := bind_ret e
    cases e
    exact (reallocate_usable h e1).1

theorem bsPerformD_eq (f : Byte → Byte → Status × Byte) {t u : Bits} (h : Usable t.s) (hu : Usable u.s) :
    bsPerformD f t u = bsPerform f t u := by
  unfold bsPerformD bsPerform
  dsimp only
  rw [bsOpLoopD_eq f hu _ 0 h]

theorem bsPerform_used {f : Byte → Byte → Status × Byte} {t u : Bits} (h : Usable t.s) {r : Status × Bits}
    (e : bsPerform f t u = .ret r) : Usable r.2.s := by
  obtain ⟨q, e1, e⟩ := bind_ret e
  cases e
  exact bsOpLoop_used f _ h e1

theorem BUsed.usable {t : Bits} (h : BUsed t) : Usable t.s := by
  induction h with
  | init hg h => exact bsInitEx_used hg h
  | initBuffer h => exact bsInitBuffer_used h
  | step _ hs ih => exact bsOp_used ih _ hs
  | logic f _ _ hs ih _ => exact bsPerform_used ih hs

theorem bsTestD_eq {t : Bits} (h : Usable t.s) (i : Nat) : bsTestD t i = bsTest t i := by
  unfold bsTestD bsTest
  rw [withPointerD_eq h]

theorem bsCountLoopD_eq {s : VS Byte} (h : Usable s) : ∀ (n i acc : Nat),
    bsCountLoopD s n i acc = bsCountLoop s n i acc
  | 0, _, _ => rfl
  | n + 1, i, acc => by
    unfold bsCountLoopD bsCountLoop
    rw [withPointerD_eq h]
    simp only [bsCountLoopD_eq h n]

theorem bsCountD_eq {t : Bits} (h : Usable t.s) : bsCountD t = bsCount t := by
  unfold bsCountD bsCount
  rw [bsCountLoopD_eq h]

theorem bsScanD_eq {t : Bits} (h : Usable t.s) (whole : Byte → Bool) (last : Byte → Byte → Bool)
    (hit miss : Status) : ∀ (n i : Nat), bsScanD t whole last hit miss n i = bsScan t whole last hit miss n i
  | 0, _ => rfl
  | n + 1, i => by
    unfold bsScanD bsScan
    rw [withPointerD_eq h]
    simp only [bsScanD_eq h whole last hit miss n]

theorem bsDestroyD_eq {t : Bits} (h : Usable t.s) : bsDestroyD t = bsDestroy t := by
  unfold bsDestroyD bsDestroy
  rw [vecDestroyD_eq h]

/-! ## The bitset functions without assertions have no failing assertion -/

theorem quiet_withPointer {s : VS Byte} {i : Nat} {err : Status → β} {k : Nat → Out β}
    (h : ∀ p, Quiet (k p)) : Quiet (withPointer s i err k) := by
  simp only [withPointer]
  refine quiet_ite (quiet_ret _) ?_
  split
  · exact fun h => by cases h
  · exact h _

theorem quiet_loadByte (s : VS Byte) (p : Nat) : Quiet (loadByte s p) := by
  refine Quiet.bind (quiet_withData fun b => ?_) fun c => ?_
  · split
    · exact fun h => by cases h
    · exact quiet_ret _
  · split
    · exact fun h => by cases h
    · exact quiet_ret _

theorem quiet_vecStore (s : VS Byte) (k : Nat) (c : Cell Byte) : Quiet (vecStore s k c) :=
  quiet_withData fun _ => (quiet_writeRange _ _ _).bind fun _ => quiet_ret _

theorem quiet_pushBack (s : VS α) (x : Src α) : Quiet (vecPushBack s x) := by
  unfold vecPushBack
  refine quiet_ite (quiet_ret _) ((quiet_growFor _ _).bind fun r => quiet_ite (quiet_ret _) ?_)
  exact quiet_withData fun _ => (quiet_memcpyIn _ _ _ _).bind fun _ => quiet_ret _

theorem quiet_bsInitElements : ∀ (n : Nat) (s : VS Byte), Quiet (bsInitElements s n)
  | 0, _ => quiet_ret _
  | n + 1, _ => (quiet_pushBack _ _).bind fun _ => quiet_ite (quiet_ret _) (quiet_bsInitElements n _)

theorem quiet_bsInitEx (w : World Byte) (n : Nat) (al : Option Nat) (g th : Nat) :
    Quiet (bsInitEx w n al g th) := by
  unfold bsInitEx
  refine quiet_ite (quiet_ret _) ?_
  split
  · exact quiet_ret _
  · exact (quiet_bsInitElements _ _).bind fun _ => quiet_ite (quiet_ret _) (quiet_ret _)

theorem quiet_bsInitBuffer (w : World Byte) (n : Nat) (b : Option (Block Byte)) (c : Nat) :
    Quiet (bsInitBuffer w n b c) := by
  unfold bsInitBuffer
  refine quiet_ite (quiet_ret _) (quiet_ite (quiet_ret _) ?_)
  split
  · exact quiet_ret _
  · exact (quiet_bsInitElements _ _).bind fun _ => quiet_ite (quiet_ret _) (quiet_ret _)

theorem quiet_bsOpLoop (op : Byte → Byte → Status × Byte) (src : VS Byte) : ∀ (n : Nat) (dst : VS Byte)
    (i : Nat), Quiet (bsOpLoop op src n dst i)
  | 0, _, _ => quiet_ret _
  | n + 1, _, _ => quiet_withPointer fun _ => quiet_withPointer fun _ => (quiet_loadByte _ _).bind fun _ =>
      (quiet_loadByte _ _).bind fun _ => (quiet_vecStore _ _ _).bind fun _ =>
        quiet_ite (quiet_ret _) (quiet_bsOpLoop op src n _ _)

theorem quiet_bsPerform (op : Byte → Byte → Status × Byte) (t u : Bits) : Quiet (bsPerform op t u) :=
  (quiet_bsOpLoop _ _ _ _ _).bind fun _ => quiet_ret _

theorem quiet_bsMapLoop {f : VS Byte → Nat → Out Byte} (hf : ∀ s p, Quiet (f s p)) : ∀ (n : Nat)
    (s : VS Byte) (i : Nat), Quiet (bsMapLoop f n s i)
  | 0, _, _ => quiet_ret _
  | n + 1, _, _ => quiet_withPointer fun _ => (hf _ _).bind fun _ => (quiet_vecStore _ _ _).bind fun _ =>
      quiet_bsMapLoop hf n _ _

theorem quiet_bsMapAll {f : VS Byte → Nat → Out Byte} (hf : ∀ s p, Quiet (f s p)) (t : Bits) :
    Quiet (bsMapAll f t) := (quiet_bsMapLoop hf _ _ _).bind fun _ => quiet_ret _

theorem quiet_bsModify (f : Byte → Byte → Byte) (t : Bits) (i : Nat) : Quiet (bsModify f t i) :=
  quiet_ite (quiet_ret _) (quiet_withPointer fun _ => (quiet_loadByte _ _).bind fun _ =>
    (quiet_vecStore _ _ _).bind fun _ => quiet_ret _)

theorem quiet_bsAssign (t : Bits) (i : Nat) (v : Bool) : Quiet (bsAssign t i v) :=
  quiet_ite (quiet_bsModify _ _ _) (quiet_bsModify _ _ _)

theorem quiet_bsOp (t : Bits) (op : BOp) : Quiet (bsOp t op) := by
  cases op with
  | push v =>
    simp only [bsOp, bsPush]
    refine Quiet.bind (quiet_ite (quiet_pushBack _ _) (quiet_ret _)) fun r => ?_
    exact quiet_ite (quiet_ret _) (quiet_bsAssign _ _ _)
  | pop =>
    simp only [bsOp, bsPop]
    exact quiet_ite ((quiet_vecOp _ .pop).bind fun _ => quiet_ret _) (quiet_ret _)
  | set i =>
    simp only [bsOp, bsSet]
    exact quiet_bsModify _ t i
  | reset i =>
    simp only [bsOp, bsReset]
    exact quiet_bsModify _ t i
  | assign i v => exact quiet_bsAssign t i v
  | toggle i =>
    simp only [bsOp, bsToggle]
    exact quiet_bsModify _ t i
  | setAll =>
    simp only [bsOp, bsSetAll]
    exact quiet_bsMapAll (fun _ _ => quiet_ret _) t
  | resetAll =>
    simp only [bsOp, bsResetAll]
    exact quiet_bsMapAll (fun _ _ => quiet_ret _) t
  | flip =>
    simp only [bsOp, bsFlip]
    exact quiet_bsMapAll (fun _ _ => (quiet_loadByte _ _).bind fun _ => quiet_ret _) t
  | clear => exact (quiet_vecOp _ .clear).bind fun _ => quiet_ret _
  | reserve n => exact (quiet_vecOp _ (.reserve (bitsToBytes n))).bind fun _ => quiet_ret _
  | shrinkToFit => exact (quiet_vecOp _ .shrinkToFit).bind fun _ => quiet_ret _

theorem quiet_bsTest (t : Bits) (i : Nat) : Quiet (bsTest t i) :=
  quiet_ite (quiet_ret _) (quiet_withPointer fun _ => (quiet_loadByte _ _).bind fun _ =>
    quiet_ite (quiet_ret _) (quiet_ret _))

theorem quiet_bsCountLoop (s : VS Byte) : ∀ (n i acc : Nat), Quiet (bsCountLoop s n i acc)
  | 0, _, _ => quiet_ret _
  | n + 1, _, _ => quiet_withPointer fun _ => (quiet_loadByte _ _).bind fun _ => quiet_bsCountLoop s n _ _

theorem quiet_bsCount (t : Bits) : Quiet (bsCount t) :=
  (quiet_bsCountLoop _ _ _ _).bind fun _ => quiet_ite (quiet_ret _) (quiet_ret _)

theorem quiet_bsScan (t : Bits) (whole : Byte → Bool) (last : Byte → Byte → Bool) (hit miss : Status) :
    ∀ (n i : Nat), Quiet (bsScan t whole last hit miss n i)
  | 0, _ => quiet_ret _
  | n + 1, _ => quiet_withPointer fun _ => (quiet_loadByte _ _).bind fun _ =>
      quiet_ite (quiet_ite (quiet_ret _) (quiet_bsScan t whole last hit miss n _))
        (quiet_ite (quiet_ret _) (quiet_bsScan t whole last hit miss n _))

theorem quiet_destroy (s : VS α) : Quiet (vecDestroy s) := by
  refine (quiet_runDtors _ _ _).bind fun s' => ?_
  dsimp only
  split
  · exact quiet_ite (quiet_withData fun _ => quiet_ite (quiet_ret _) (quiet_ret _)) (quiet_ret _)
  · exact quiet_ret _

theorem quiet_bsDestroy (t : Bits) : Quiet (bsDestroy t) := (quiet_destroy _).bind fun _ => quiet_ret _

/-! ## Lists -/

theorem listDeallocateNodeD_eq {s : LS α} {p : Option Nat} (h : p.isSome = true) :
    listDeallocateNodeD s p = listDeallocateNode s p := by
  unfold listDeallocateNodeD
  rw [assertThat, if_pos h]
  rfl

theorem listPopBackD_eq (s : LS α) : listPopBackD s = listPopBack s := by
  unfold listPopBackD listPopBack
  split
  · rfl
  rename_i h
  refine bind_same fun s1 _ => bind_same fun s2 _ => ?_
  exact listDeallocateNodeD_eq (by simpa [Option.isSome_iff_ne_none] using h)

theorem listPopFrontD_eq (s : LS α) : listPopFrontD s = listPopFront s := by
  unfold listPopFrontD listPopFront
  split
  · rfl
  rename_i h
  refine bind_same fun s1 _ => bind_same fun s2 _ => ?_
  exact listDeallocateNodeD_eq (by simpa [Option.isSome_iff_ne_none] using h)

theorem deref_nonnull {s : LS α} {p : Option Nat} {r : Nat × LNode α} (e : deref s p = .ret r) :
    p.isSome = true := by
  cases p with
  | none => cases e
  | some a => rfl

/-- The node is used before it is given back. -/
theorem unlinkTail_some {s s' : LS α} {p : Option Nat} (e : unlinkTail s p = .ret s') :
    p.isSome = true := by
  obtain ⟨q, e1, _⟩ := bind_ret e
  obtain ⟨r, e2, _⟩ := bind_ret e1
  exact deref_nonnull e2

theorem shrinkLoopD_eq : ∀ (k : Nat) (s : LS α), shrinkLoopD s k = shrinkLoop s k
  | 0, _ => rfl
  | k + 1, s => by
    unfold shrinkLoopD shrinkLoop
    refine bind_same fun s1 _ => bind_same fun s2 e2 => ?_
    rw [listDeallocateNodeD_eq (unlinkTail_some e2)]
    simp only [shrinkLoopD_eq k]

theorem listResizeExD_eq (s : LS α) (n : Nat) (x : LSrc α) : listResizeExD s n x = listResizeEx s n x := by
  unfold listResizeExD listResizeEx
  rw [shrinkLoopD_eq]
  rfl

theorem listDestroyD_eq {s : LS α} (h : s.l.esz ≠ 0) : listDestroyD s = listDestroy s := by
  unfold listDestroyD
  rw [assertThat, if_pos (by simpa using h)]
  rfl

theorem destroyData_l {s s' : LS α} {p : Option Nat} (e : destroyData s p = .ret s') : s'.l = s.l := by
  unfold destroyData at e
  split at e
  · obtain ⟨r, _, e⟩ := bind_ret e
    cases e; rfl
  · cases e; rfl

theorem listSetNodeDataD_eq {s : LS α} (h : s.l.esz ≠ 0) (p : Option Nat) (x : LSrc α) :
    listSetNodeDataD s p x = listSetNodeData s p x := by
  unfold listSetNodeDataD listSetNodeData
  split
  · rfl
  refine bind_same fun s1 e1 => ?_
  rw [assertThat, if_pos (by simpa [destroyData_l e1] using h)]

theorem listOpD_eq {s : LS α} (h : s.l.esz ≠ 0) (op : LOp α) : listOpD s op = listOp s op := by
  cases op with
  | popBack => exact listPopBackD_eq s
  | popFront => exact listPopFrontD_eq s
  | set i x => exact bind_same fun p _ => listSetNodeDataD_eq h p _
  | clear => exact listResizeExD_eq s 0 _
  | resize n x => exact listResizeExD_eq s n _
  | _ => rfl

/-! The element size never changes. -/

theorem storeNext_esz {s s' : LS α} {p v : Option Nat} (e : storeNext s p v = .ret s') :
    s'.l = s.l := by
  obtain ⟨r, _, e⟩ := bind_ret e
  cases e; rfl

theorem storePrev_esz {s s' : LS α} {p v : Option Nat} (e : storePrev s p v = .ret s') :
    s'.l = s.l := by
  obtain ⟨r, _, e⟩ := bind_ret e
  cases e; rfl

theorem copyData_esz {s s' : LS α} {p : Option Nat} {x : LSrc α} (e : copyData s p x = .ret s') :
    s'.l = s.l := by
  obtain ⟨y, _, e⟩ := bind_ret e
  obtain ⟨r, _, e⟩ := bind_ret e
  cases e; rfl

theorem construct_esz {s s' : LS α} {p : Option Nat} {c : Ctor α} (e : construct s p c = .ret s') :
    s'.l = s.l := by
  unfold construct at e
  split at e
  · cases e; rfl
  · obtain ⟨r, _, e⟩ := bind_ret e
    cases e; rfl

theorem initBack_esz {s s' : LS α} {p : Option Nat} (e : initBack s p = .ret s') : s'.l = s.l := by
  obtain ⟨s1, e1, e⟩ := bind_ret e
  rw [storeNext_esz e, storePrev_esz e1]

theorem initFront_esz {s s' : LS α} {p : Option Nat} (e : initFront s p = .ret s') : s'.l = s.l := by
  obtain ⟨s1, e1, e⟩ := bind_ret e
  rw [storeNext_esz e, storePrev_esz e1]

theorem linkBack_esz {s s' : LS α} {p : Option Nat} (e : linkBack s p = .ret s') :
    s'.l.esz = s.l.esz := by
  obtain ⟨s1, e1, e⟩ := bind_ret e
  cases e
  show s1.l.esz = _
  split at e1
  · cases e1; rfl
  · obtain ⟨s2, e2, e1⟩ := bind_ret e1
    cases e1
    show s2.l.esz = _
    rw [storeNext_esz e2]

theorem linkFront_esz {s s' : LS α} {p : Option Nat} (e : linkFront s p = .ret s') :
    s'.l.esz = s.l.esz := by
  obtain ⟨s1, e1, e⟩ := bind_ret e
  cases e
  show s1.l.esz = _
  split at e1
  · cases e1; rfl
  · obtain ⟨s2, e2, e1⟩ := bind_ret e1
    cases e1
    show s2.l.esz = _
    rw [storePrev_esz e2]

theorem nodeAllocate_esz (s : LS α) (a : Nat) : (nodeAllocate s a).2.2.l = s.l := by
  simp only [nodeAllocate]
  split <;> rfl

theorem allocateNode_esz {s : LS α} {r : Status × Option Nat × LS α} (e : listAllocateNode s = .ret r) :
    r.2.2.l.esz = s.l.esz := by
  unfold listAllocateNode at e
  split at e
  · rename_i a _
    dsimp only at e
    split at e <;> (cases e; show (nodeAllocate s a).2.2.l.esz = _; rw [nodeAllocate_esz])
  · split at e
    · obtain ⟨n, _, e⟩ := bind_ret e
      cases e; rfl
    · dsimp only at e
      split at e <;> (cases e; rfl)

theorem deallocateNode_esz {s : LS α} {p : Option Nat} {r : Status × LS α}
    (e : listDeallocateNode s p = .ret r) : r.2.l.esz = s.l.esz := by
  unfold listDeallocateNode at e
  split at e
  · obtain ⟨q, e1, e⟩ := bind_ret e
    obtain ⟨d, _, e1⟩ := bind_ret e1
    have hq : q.2.l = s.l := by
      dsimp only at e1
      split at e1 <;> (cases e1; rfl)
    split at e <;> (cases e; exact congrArg _ hq)
  · obtain ⟨q, e1, e⟩ := bind_ret e
    cases e
    show q.l.esz = _
    rw [storeNext_esz e1]

theorem freeLoop_esz : ∀ (n : Nat) {s : LS α} {p : Option Nat} {r : Option Status × LS α},
    freeLoop s p n = .ret r → r.2.l.esz = s.l.esz
  | 0, s, p, r, e => by
    unfold freeLoop at e
    split at e <;> cases e
    rfl
  | n + 1, s, p, r, e => by
    unfold freeLoop at e
    split at e
    · obtain ⟨s1, e1, e⟩ := bind_ret e
      obtain ⟨nx, _, e⟩ := bind_ret e
      have h1 := destroyData_l e1
      split at e
      · obtain ⟨q, e2, e⟩ := bind_ret e
        obtain ⟨d, _, e2⟩ := bind_ret e2
        have hq : q.2.l = s1.l := by
          dsimp only at e2
          split at e2 <;> (cases e2; rfl)
        split at e
        · cases e
          show q.2.l.esz = _
          rw [hq, h1]
        · rw [freeLoop_esz n e, hq, h1]
      · rw [freeLoop_esz n e, h1]
    · cases e; rfl

theorem unlinkTail_esz {s s' : LS α} {p : Option Nat} (e : unlinkTail s p = .ret s') :
    s'.l.esz = s.l.esz := by
  obtain ⟨q, _, e⟩ := bind_ret e
  dsimp only at e
  split at e
  · rw [storeNext_esz e]
  · cases e; rfl

theorem unlinkHead_esz {s s' : LS α} {p : Option Nat} (e : unlinkHead s p = .ret s') :
    s'.l.esz = s.l.esz := by
  obtain ⟨q, _, e⟩ := bind_ret e
  dsimp only at e
  split at e
  · rw [storePrev_esz e]
  · cases e; rfl

theorem growLoop_esz (x : LSrc α) : ∀ (n : Nat) {s : LS α} {r : Status × LS α},
    growLoop x s n = .ret r → r.2.l.esz = s.l.esz
  | 0, _, _, e => by cases e; rfl
  | n + 1, s, r, e => by
    unfold growLoop at e
    obtain ⟨q, e1, e⟩ := bind_ret e
    have h1 := allocateNode_esz e1
    split at e
    · cases e; exact h1
    obtain ⟨s2, e2, e⟩ := bind_ret e
    obtain ⟨s3, e3, e⟩ := bind_ret e
    obtain ⟨s4, e4, e⟩ := bind_ret e
    have h3 : s3.l = s2.l := by
      split at e3
      · cases e3; rfl
      · exact copyData_esz e3
    rw [growLoop_esz x n e, linkBack_esz e4, h3, initBack_esz e2, h1]

theorem shrinkLoop_esz : ∀ (n : Nat) {s : LS α} {r : Option Status × LS α},
    shrinkLoop s n = .ret r → r.2.l.esz = s.l.esz
  | 0, _, _, e => by cases e; rfl
  | n + 1, s, r, e => by
    unfold shrinkLoop at e
    obtain ⟨s1, e1, e⟩ := bind_ret e
    obtain ⟨s2, e2, e⟩ := bind_ret e
    obtain ⟨q, e3, e⟩ := bind_ret e
    have h : q.2.l.esz = s.l.esz := by
      rw [deallocateNode_esz e3, unlinkTail_esz e2, destroyData_l e1]
    split at e
    · cases e; exact h
    · rw [shrinkLoop_esz n e, h]

theorem listResizeEx_esz {s : LS α} {n : Nat} {x : LSrc α} {r : Status × LS α}
    (e : listResizeEx s n x = .ret r) : r.2.l.esz = s.l.esz := by
  unfold listResizeEx at e
  split at e
  · cases e; rfl
  split at e
  · obtain ⟨q, e1, e⟩ := bind_ret e
    have h1 := freeLoop_esz _ e1
    split at e <;> (cases e; exact h1)
  split at e
  · exact growLoop_esz _ _ e
  · obtain ⟨q, e1, e⟩ := bind_ret e
    have h1 := shrinkLoop_esz _ e1
    split at e <;> (cases e; exact h1)

theorem listPushBack_esz {s : LS α} {x : LSrc α} {r : Status × LS α} (e : listPushBack s x = .ret r) :
    r.2.l.esz = s.l.esz := by
  unfold listPushBack at e
  split at e
  · cases e; rfl
  obtain ⟨q, e1, e⟩ := bind_ret e
  have h1 := allocateNode_esz e1
  split at e
  · cases e; exact h1
  obtain ⟨s2, e2, e⟩ := bind_ret e
  obtain ⟨s3, e3, e⟩ := bind_ret e
  obtain ⟨s4, e4, e⟩ := bind_ret e
  cases e
  show s4.l.esz = _
  rw [linkBack_esz e4, copyData_esz e3, initBack_esz e2, h1]

theorem listPushFront_esz {s : LS α} {x : LSrc α} {r : Status × LS α} (e : listPushFront s x = .ret r) :
    r.2.l.esz = s.l.esz := by
  unfold listPushFront at e
  split at e
  · cases e; rfl
  obtain ⟨q, e1, e⟩ := bind_ret e
  have h1 := allocateNode_esz e1
  split at e
  · cases e; exact h1
  obtain ⟨s2, e2, e⟩ := bind_ret e
  obtain ⟨s3, e3, e⟩ := bind_ret e
  obtain ⟨s4, e4, e⟩ := bind_ret e
  cases e
  show s4.l.esz = _
  rw [linkFront_esz e4, copyData_esz e3, initFront_esz e2, h1]

theorem listSetNodeData_esz {s : LS α} {p : Option Nat} {x : LSrc α} {r : Status × LS α}
    (e : listSetNodeData s p x = .ret r) : r.2.l.esz = s.l.esz := by
  unfold listSetNodeData at e
  split at e
  · cases e; rfl
  obtain ⟨s1, e1, e⟩ := bind_ret e
  obtain ⟨s2, e2, e⟩ := bind_ret e
  cases e
  show s2.l.esz = _
  rw [copyData_esz e2, destroyData_l e1]

theorem dealloc_sized {s : LS α} {m : Nat} {p : Option Nat} {r : Status × LS α}
    (e : listDeallocateNode { s with l := { s.l with size := m } } p = .ret r) : r.2.l.esz = s.l.esz := by
  rw [deallocateNode_esz e]

theorem listOp_esz {s : LS α} (op : LOp α) {r : Status × LS α} (e : listOp s op = .ret r) :
    r.2.l.esz = s.l.esz := by
  cases op with
  | pushBack x => exact listPushBack_esz e
  | pushFront x => exact listPushFront_esz e
  | pushBackOf i =>
    obtain ⟨p, _, e⟩ := bind_ret e
    exact listPushBack_esz e
  | pushFrontOf i =>
    obtain ⟨p, _, e⟩ := bind_ret e
    exact listPushFront_esz e
  | emplaceBack c =>
    obtain ⟨q, e1, e⟩ := bind_ret e
    have h1 := allocateNode_esz e1
    split at e
    · cases e; exact h1
    obtain ⟨s2, e2, e⟩ := bind_ret e
    obtain ⟨s3, e3, e⟩ := bind_ret e
    obtain ⟨s4, e4, e⟩ := bind_ret e
    cases e
    show s4.l.esz = _
    rw [linkBack_esz e4, construct_esz e3, initBack_esz e2, h1]
  | emplaceFront c =>
    obtain ⟨q, e1, e⟩ := bind_ret e
    have h1 := allocateNode_esz e1
    split at e
    · cases e; exact h1
    obtain ⟨s2, e2, e⟩ := bind_ret e
    obtain ⟨s3, e3, e⟩ := bind_ret e
    obtain ⟨s4, e4, e⟩ := bind_ret e
    cases e
    show s4.l.esz = _
    rw [linkFront_esz e4, construct_esz e3, initFront_esz e2, h1]
  | popBack =>
    replace e : listPopBack s = .ret r := e
    unfold listPopBack at e
    split at e
    · cases e; rfl
    obtain ⟨s1, e1, e⟩ := bind_ret e
    obtain ⟨s2, e2, e⟩ := bind_ret e
    have h2 : s2.l.esz = s.l.esz := by rw [unlinkTail_esz e2, destroyData_l e1]
    rw [dealloc_sized e, ← h2]
    split <;> rfl
  | popFront =>
    replace e : listPopFront s = .ret r := e
    unfold listPopFront at e
    split at e
    · cases e; rfl
    obtain ⟨s1, e1, e⟩ := bind_ret e
    obtain ⟨s2, e2, e⟩ := bind_ret e
    have h2 : s2.l.esz = s.l.esz := by rw [unlinkHead_esz e2, destroyData_l e1]
    rw [dealloc_sized e, ← h2]
    split <;> rfl
  | set i x =>
    obtain ⟨p, _, e⟩ := bind_ret e
    exact listSetNodeData_esz e
  | clear => exact listResizeEx_esz e
  | resize n x => exact listResizeEx_esz e

theorem LUsed.esz {s : LS α} (h : LUsed s) : s.l.esz ≠ 0 := by
  induction h with
  | @init esz a dtor st l mem w h =>
    unfold listInitEx at h
    split at h
    · cases h
    · rename_i hn
      cases h
      exact fun h0 => hn (Or.inl h0)
  | @initBuffer esz cap dtor b st l mem w h =>
    unfold listInitBuffer at h
    split at h
    · cases h
    · rename_i hn
      cases h
      exact fun h0 => hn (Or.inl h0)
  | step _ hs ih => exact (listOp_esz _ hs) ▸ ih
  | pushBack _ hs ih => exact (listPushBack_esz hs) ▸ ih
  | pushFront _ hs ih => exact (listPushFront_esz hs) ▸ ih
  | set _ hs ih => exact (listSetNodeData_esz hs) ▸ ih
  | resize _ hs ih => exact (listResizeEx_esz hs) ▸ ih

/-! ## The list functions without assertions have no failing assertion -/

theorem quiet_deref (s : LS α) (p : Option Nat) : Quiet (deref s p) := by
  unfold deref
  split
  · exact fun h => by cases h
  · split
    · exact fun h => by cases h
    · exact quiet_ret _

theorem quiet_useptr (c : Cell (Option Nat)) : Quiet (useptr c) := by
  unfold useptr
  split
  · exact fun h => by cases h
  · exact quiet_ret _

theorem quiet_loadNext (s : LS α) (p : Option Nat) : Quiet (loadNext s p) :=
  (quiet_deref _ _).bind fun _ => quiet_useptr _

theorem quiet_loadPrev (s : LS α) (p : Option Nat) : Quiet (loadPrev s p) :=
  (quiet_deref _ _).bind fun _ => quiet_useptr _

theorem quiet_storeNext (s : LS α) (p v : Option Nat) : Quiet (storeNext s p v) :=
  (quiet_deref _ _).bind fun _ => quiet_ret _

theorem quiet_storePrev (s : LS α) (p v : Option Nat) : Quiet (storePrev s p v) :=
  (quiet_deref _ _).bind fun _ => quiet_ret _

theorem quiet_copyData (s : LS α) (p : Option Nat) (x : LSrc α) : Quiet (copyData s p x) := by
  refine Quiet.bind ?_ fun _ => (quiet_deref _ _).bind fun _ => quiet_ret _
  cases x with
  | null => exact fun h => by cases h
  | ext x => exact quiet_ret _
  | node a => exact (quiet_deref _ _).bind fun _ => quiet_ret _

theorem quiet_destroyData (s : LS α) (p : Option Nat) : Quiet (destroyData s p) :=
  quiet_ite ((quiet_deref _ _).bind fun _ => quiet_ret _) (quiet_ret _)

theorem quiet_construct (s : LS α) (p : Option Nat) (c : Ctor α) : Quiet (construct s p c) := by
  unfold construct
  split
  · exact quiet_ret _
  · exact (quiet_deref _ _).bind fun _ => quiet_ret _

theorem quiet_initBack (s : LS α) (p : Option Nat) : Quiet (initBack s p) :=
  (quiet_storePrev _ _ _).bind fun _ => quiet_storeNext _ _ _

theorem quiet_initFront (s : LS α) (p : Option Nat) : Quiet (initFront s p) :=
  (quiet_storePrev _ _ _).bind fun _ => quiet_storeNext _ _ _

theorem quiet_linkBack (s : LS α) (p : Option Nat) : Quiet (linkBack s p) :=
  (quiet_ite (quiet_ret _) ((quiet_storeNext _ _ _).bind fun _ => quiet_ret _)).bind fun _ => quiet_ret _

theorem quiet_linkFront (s : LS α) (p : Option Nat) : Quiet (linkFront s p) :=
  (quiet_ite (quiet_ret _) ((quiet_storePrev _ _ _).bind fun _ => quiet_ret _)).bind fun _ => quiet_ret _

theorem quiet_allocateNode (s : LS α) : Quiet (listAllocateNode s) := by
  unfold listAllocateNode
  split
  · exact quiet_ite (quiet_ret _) (quiet_ret _)
  · exact quiet_ite ((quiet_loadNext _ _).bind fun _ => quiet_ret _)
      (quiet_ite (quiet_ret _) (quiet_ret _))

theorem quiet_nodeDeallocate (s : LS α) (a : Nat) (p : Option Nat) : Quiet (nodeDeallocate s a p) :=
  (quiet_deref _ _).bind fun _ => quiet_ite (quiet_ret _) (quiet_ret _)

theorem quiet_deallocateNode (s : LS α) (p : Option Nat) : Quiet (listDeallocateNode s p) := by
  unfold listDeallocateNode
  split
  · exact (quiet_nodeDeallocate _ _ _).bind fun _ => quiet_ite (quiet_ret _) (quiet_ret _)
  · exact (quiet_storeNext _ _ _).bind fun _ => quiet_ret _

theorem quiet_freeLoop : ∀ (n : Nat) (s : LS α) (p : Option Nat), Quiet (freeLoop s p n)
  | 0, _, _ => quiet_ite (fun h => by cases h) (quiet_ret _)
  | n + 1, s, p => by
    unfold freeLoop
    refine quiet_ite ((quiet_destroyData _ _).bind fun _ => (quiet_loadNext _ _).bind fun _ => ?_)
      (quiet_ret _)
    split
    · exact (quiet_nodeDeallocate _ _ _).bind fun _ => quiet_ite (quiet_ret _) (quiet_freeLoop n _ _)
    · exact quiet_freeLoop n _ _

theorem quiet_unlinkTail (s : LS α) (p : Option Nat) : Quiet (unlinkTail s p) :=
  (quiet_loadPrev _ _).bind fun _ => quiet_ite (quiet_storeNext _ _ _) (quiet_ret _)

theorem quiet_unlinkHead (s : LS α) (p : Option Nat) : Quiet (unlinkHead s p) :=
  (quiet_loadNext _ _).bind fun _ => quiet_ite (quiet_storePrev _ _ _) (quiet_ret _)

theorem quiet_growLoop (x : LSrc α) : ∀ (n : Nat) (s : LS α), Quiet (growLoop x s n)
  | 0, _ => quiet_ret _
  | n + 1, _ => (quiet_allocateNode _).bind fun _ => quiet_ite (quiet_ret _)
      ((quiet_initBack _ _).bind fun _ => (quiet_ite (quiet_ret _) (quiet_copyData _ _ _)).bind fun _ =>
        (quiet_linkBack _ _).bind fun _ => quiet_growLoop x n _)

theorem quiet_shrinkLoop : ∀ (n : Nat) (s : LS α), Quiet (shrinkLoop s n)
  | 0, _ => quiet_ret _
  | n + 1, _ => (quiet_destroyData _ _).bind fun _ => (quiet_unlinkTail _ _).bind fun _ =>
      (quiet_deallocateNode _ _).bind fun _ => quiet_ite (quiet_ret _) (quiet_shrinkLoop n _)

theorem quiet_listResizeEx (s : LS α) (n : Nat) (x : LSrc α) : Quiet (listResizeEx s n x) := by
  refine quiet_ite (quiet_ret _) (quiet_ite ((quiet_freeLoop _ _ _).bind fun r => ?_)
    (quiet_ite (quiet_growLoop _ _ _) ((quiet_shrinkLoop _ _).bind fun r => ?_)))
  · dsimp only; split <;> exact quiet_ret _
  · dsimp only; split <;> exact quiet_ret _

theorem quiet_listPushBack (s : LS α) (x : LSrc α) : Quiet (listPushBack s x) :=
  quiet_ite (quiet_ret _) ((quiet_allocateNode _).bind fun _ => quiet_ite (quiet_ret _)
    ((quiet_initBack _ _).bind fun _ => (quiet_copyData _ _ _).bind fun _ =>
      (quiet_linkBack _ _).bind fun _ => quiet_ret _))

theorem quiet_listPushFront (s : LS α) (x : LSrc α) : Quiet (listPushFront s x) :=
  quiet_ite (quiet_ret _) ((quiet_allocateNode _).bind fun _ => quiet_ite (quiet_ret _)
    ((quiet_initFront _ _).bind fun _ => (quiet_copyData _ _ _).bind fun _ =>
      (quiet_linkFront _ _).bind fun _ => quiet_ret _))

theorem quiet_listSetNodeData (s : LS α) (p : Option Nat) (x : LSrc α) : Quiet (listSetNodeData s p x) :=
  quiet_ite (quiet_ret _) ((quiet_destroyData _ _).bind fun _ => (quiet_copyData _ _ _).bind fun _ =>
    quiet_ret _)

theorem quiet_seek (s : LS α) : ∀ (i : Nat) (p : Option Nat), Quiet (seek s p i)
  | 0, _ => quiet_ret _
  | i + 1, _ => quiet_ite (quiet_ret _)
      ((quiet_ite (quiet_ret _) ((quiet_loadNext _ _).bind fun _ => quiet_ret _)).bind fun _ =>
        quiet_seek s i _)

theorem quiet_listOp (s : LS α) (op : LOp α) : Quiet (listOp s op) := by
  cases op with
  | pushBack x => exact quiet_listPushBack _ _
  | pushFront x => exact quiet_listPushFront _ _
  | pushBackOf i => exact (quiet_seek _ _ _).bind fun _ => quiet_listPushBack _ _
  | pushFrontOf i => exact (quiet_seek _ _ _).bind fun _ => quiet_listPushFront _ _
  | emplaceBack c =>
    exact (quiet_allocateNode _).bind fun _ => quiet_ite (quiet_ret _)
      ((quiet_initBack _ _).bind fun _ => (quiet_construct _ _ _).bind fun _ =>
        (quiet_linkBack _ _).bind fun _ => quiet_ret _)
  | emplaceFront c =>
    exact (quiet_allocateNode _).bind fun _ => quiet_ite (quiet_ret _)
      ((quiet_initFront _ _).bind fun _ => (quiet_construct _ _ _).bind fun _ =>
        (quiet_linkFront _ _).bind fun _ => quiet_ret _)
  | popBack =>
    exact quiet_ite (quiet_ret _) ((quiet_destroyData _ _).bind fun _ =>
      (quiet_unlinkTail _ _).bind fun _ => quiet_deallocateNode _ _)
  | popFront =>
    exact quiet_ite (quiet_ret _) ((quiet_destroyData _ _).bind fun _ =>
      (quiet_unlinkHead _ _).bind fun _ => quiet_deallocateNode _ _)
  | set i x => exact (quiet_seek _ _ _).bind fun _ => quiet_listSetNodeData _ _ _
  | clear => exact quiet_listResizeEx _ _ _
  | resize n x => exact quiet_listResizeEx _ _ _

theorem quiet_listDestroy (s : LS α) : Quiet (listDestroy s) := by
  refine (quiet_freeLoop _ _ _).bind fun r => ?_
  split <;> exact quiet_ret _

end Zy
