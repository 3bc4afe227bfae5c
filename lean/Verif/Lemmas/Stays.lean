import Verif.Lemmas.Together

/-!
# Lemmas: a container without an allocator stays on its buffer
-/

namespace Zy

open Spec

variable {α β γ : Type}

/-- The vector has no allocator and lives in the given block. -/
structure Lodged (d : Option Nat) (v : Vec α) : Prop where
  al : v.allocator = none
  data : v.data.map Block.id = d

theorem Lodged.frame {d : Option Nat} {v v' : Vec α} (h : Lodged d v) (f : Frame v v') : Lodged d v' :=
  ⟨f.al.trans h.al, f.data.trans h.data⟩

theorem reallocate_lodged {d : Option Nat} {s : VS α} (h : Lodged d s.v) (c : Nat) :
    Ensures (reallocate s c) fun r => Lodged d r.2.v := by
  unfold reallocate
  rw [h.al]
  exact ensures_ite (fun _ => ensures_ret h) fun _ => ensures_ret h

theorem destroyLoop_lodged {d : Option Nat} : ∀ (n : Nat) {s : VS α} {i : Nat},
    Lodged d s.v → Ensures (destroyLoop s i n) fun r => Lodged d r.v
  | 0, _, _, h => ensures_ret h
  | n + 1, s, i, h => by
    unfold destroyLoop
    refine ensures_withData fun b _ => ?_
    split
    · exact ensures_ub
    · exact destroyLoop_lodged n (s := { s with w := s.w.log _ }) h

theorem runDtors_lodged {d : Option Nat} {s : VS α} (h : Lodged d s.v)
    (i n : Nat) : Ensures (runDtors s i n) fun r => Lodged d r.v :=
  ensures_ite (fun _ => destroyLoop_lodged _ h) fun _ => ensures_ret h

theorem Lodged.resize {d : Option Nat} {s : VS α}
    (h : Lodged d s.v) (n : Nat) : Lodged d { s.v with size := n } :=
  h.frame ⟨rfl, rfl, rfl, rfl⟩

theorem Lodged.store {d : Option Nat} {s : VS α} {b b' : Block α}
    (h : Lodged d s.v) (hd : s.v.data = some b) (hb : b'.id = b.id) (n : Nat) :
    Lodged d { s.v with data := some b', size := n } :=
  h.frame ⟨rfl, rfl, rfl, by rw [hd]; simp [hb]⟩

theorem Lodged.cells {d : Option Nat} {s : VS α} {b : Block α}
    (h : Lodged d s.v) (hd : s.v.data = some b) (cs : List (Cell α)) (n : Nat) :
    Lodged d { s.v with data := some { b with cells := cs }, size := n } :=
  h.store (b' := { b with cells := cs }) hd rfl n

theorem shiftLeft_lodged {d : Option Nat} {s : VS α}
    (h : Lodged d s.v) (i n : Nat) :
    Ensures (shiftLeft s i n) fun r => Lodged d r.v :=
  ensures_withData fun _ hb => (ensures_any _).bind fun _ _ =>
    ensures_ret (h.cells hb _ s.v.size)

theorem shiftRight_lodged {d : Option Nat} {s : VS α}
    (h : Lodged d s.v) (i n : Nat) :
    Ensures (shiftRight s i n) fun r => Lodged d r.v :=
  ensures_withData fun _ hb => (ensures_any _).bind fun _ _ =>
    ensures_ret (h.cells hb _ s.v.size)

theorem growFor_lodged {d : Option Nat} {s : VS α}
    (h : Lodged d s.v) (n : Nat) :
    Ensures (growFor s n) fun r => Lodged d r.2.v :=
  ensures_ite (fun _ => reallocate_lodged h _) fun _ => ensures_ret h

theorem shrinkAfter_lodged {d : Option Nat} {s : VS α}
    (h : Lodged d s.v) :
    Ensures (shrinkAfter s) fun r => Lodged d r.2.v :=
  ensures_ite (fun _ => reallocate_lodged h _) fun _ => ensures_ret h

theorem copyIn_lodged {d : Option Nat} {s : VS α}
    (h : Lodged d s.v) (i : Nat) (x : Src α) (n m : Nat) (st : Status) :
    Ensures (withData s.v.data fun b => (memcpyIn b i x n).bind fun b' =>
      .ret (st, ({ s with v := { s.v with data := some b', size := m } } : VS α)))
      fun r => Lodged d r.2.v :=
  ensures_withData fun b hb => (memcpyIn_keeps b i x n).bind fun _ hb' => ensures_ret (h.store hb hb' m)

theorem vecPushBack_lodged {d : Option Nat} {s : VS α}
    (h : Lodged d s.v) (x : Src α) :
    Ensures (vecPushBack s x) fun r => Lodged d r.2.v := by
  refine ensures_ite (fun _ => ensures_ret h) fun _ => (growFor_lodged h _).bind fun r hr => ?_
  exact ensures_ite (fun _ => ensures_ret hr) fun _ => copyIn_lodged hr _ _ _ _ _

theorem vecInsertRange_lodged {d : Option Nat} {s : VS α}
    (h : Lodged d s.v) (i : Nat) (x : Src α) (n : Nat) :
    Ensures (vecInsertRange s i x n) fun r => Lodged d r.2.v := by
  refine ensures_ite (fun _ => ensures_ret h) fun _ => ensures_ite (fun _ => ensures_ret h) fun _ =>
    (growFor_lodged h _).bind fun r hr => ensures_ite (fun _ => ensures_ret hr) fun _ => ?_
  refine Ensures.bind (Q := fun r => Lodged d r.v) ?_ fun r hr => copyIn_lodged hr _ _ _ _ _
  exact ensures_ite (fun _ => shiftRight_lodged hr _ _) fun _ => ensures_ret hr

theorem vecEmplaceEx_lodged {d : Option Nat} {s : VS α}
    (h : Lodged d s.v) (i : Nat) (c : Ctor α) :
    Ensures (vecEmplaceEx s i c) fun r => Lodged d r.2.v := by
  refine ensures_ite (fun _ => ensures_ret h) fun _ =>
    (growFor_lodged h _).bind fun r hr => ensures_ite (fun _ => ensures_ret hr) fun _ => ?_
  refine Ensures.bind (Q := fun r => Lodged d r.v) ?_ fun r hr => ?_
  · exact ensures_ite (fun _ => shiftRight_lodged hr _ _) fun _ => ensures_ret hr
  · cases c with
    | none => exact ensures_ret (hr.resize _)
    | some f =>
      refine ensures_withData fun b hb => ?_
      split
      · exact ensures_ub
      · exact ensures_ite (fun _ => ensures_ret (hr.cells hb _ r.v.size)) fun _ =>
          ensures_ret (hr.cells hb _ _)

theorem vecSet_lodged {d : Option Nat} {s : VS α}
    (h : Lodged d s.v) (i : Nat) (x : Src α) :
    Ensures (vecSet s i x) fun r => Lodged d r.2.v :=
  ensures_ite (fun _ => ensures_ret h) fun _ => ensures_ite (fun _ => ensures_ret h) fun _ =>
    (runDtors_lodged h _ _).bind fun r hr => copyIn_lodged hr i x 1 r.v.size stSuccess

theorem vecSwap_lodged {d : Option Nat} {s : VS α}
    (h : Lodged d s.v) (i j : Nat) :
    Ensures (vecSwap s i j) fun r => Lodged d r.2.v :=
  ensures_ite (fun _ => ensures_ret h) fun _ => ensures_ite (fun _ => ensures_ret h) fun _ =>
    ensures_withData fun _ hb => (ensures_any _).bind fun _ _ => (ensures_any _).bind fun _ _ =>
      (ensures_any _).bind fun _ _ => ensures_ret (h.cells hb _ s.v.size)

theorem vecDeleteRange_lodged {d : Option Nat} {s : VS α}
    (h : Lodged d s.v) (i n : Nat) :
    Ensures (vecDeleteRange s i n) fun r => Lodged d r.2.v := by
  refine ensures_ite (fun _ => ensures_ret h) fun _ => ensures_ite (fun _ => ensures_ret h) fun _ =>
    (runDtors_lodged h _ _).bind fun r hr => ?_
  refine Ensures.bind (Q := fun r => Lodged d r.v) ?_ fun r hr =>
    shrinkAfter_lodged (s := { r with v := { r.v with size := sub64 r.v.size n } }) (hr.resize _)
  exact ensures_ite (fun _ => shiftLeft_lodged hr _ _) fun _ => ensures_ret hr

theorem vecPopBack_lodged {d : Option Nat} {s : VS α}
    (h : Lodged d s.v) :
    Ensures (vecPopBack s) fun r => Lodged d r.2.v :=
  ensures_ite (fun _ => ensures_ret h) fun _ => (runDtors_lodged h _ _).bind fun r hr =>
    shrinkAfter_lodged (s := { r with v := { r.v with size := r.v.size - 1 } }) (hr.resize _)

theorem vecResizeEx_lodged {d : Option Nat} {s : VS α}
    (h : Lodged d s.v) (n : Nat) (x : Src α) :
    Ensures (vecResizeEx s n x) fun r => Lodged d r.2.v := by
  refine ensures_ite (fun _ => ensures_ret h) fun _ => ?_
  refine Ensures.bind (Q := fun r => Lodged d r.v) ?_ fun r hr => ?_
  · exact ensures_ite (fun _ => runDtors_lodged h _ _) fun _ => ensures_ret h
  refine Ensures.bind (Q := fun r => Lodged d r.2.v) ?_ fun q hq => ?_
  · exact ensures_ite (fun _ => reallocate_lodged hr _) fun _ => ensures_ret hr
  refine ensures_ite (fun _ => ensures_ret hq) fun _ => ensures_ite (fun _ => ?_) fun _ =>
    ensures_ret (hq.resize _)
  exact ensures_withData fun b hb => (fillLoop_id _ b x _).bind fun _ hb' => ensures_ret (hq.store hb hb' _)

theorem vecReserve_lodged {d : Option Nat} {s : VS α}
    (h : Lodged d s.v) (c : Nat) :
    Ensures (vecReserve s c) fun r => Lodged d r.2.v :=
  ensures_ite (fun _ => (reallocate_lodged h _).bind fun _ hr =>
    ensures_ite (fun _ => ensures_ret hr) fun _ => ensures_ret hr) fun _ => ensures_ret h

theorem vecOp_lodged {d : Option Nat} {s : VS α}
    (h : Lodged d s.v) (op : VOp α) :
    Ensures (vecOp s op) fun r => Lodged d r.2.v := by
  cases op with
  | push x => exact vecPushBack_lodged h _
  | insertRange i xs => exact vecInsertRange_lodged h _ _ _
  | emplace i c => exact vecEmplaceEx_lodged h _ _
  | set i x => exact vecSet_lodged h _ _
  | swap i j => exact vecSwap_lodged h _ _
  | deleteRange i n => exact vecDeleteRange_lodged h _ _
  | pop => exact vecPopBack_lodged h
  | clear => exact vecResizeEx_lodged h _ _
  | resize n x => exact vecResizeEx_lodged h _ _
  | reserve c => exact vecReserve_lodged h _
  | shrinkToFit => exact reallocate_lodged h _

/-! ## Strings -/

section
variable {d : Option Nat}

/-- The vector of a string stays. -/
structure SLodged (d : Option Nat) (t : Str) : Prop where
  vec : Lodged d t.s.v

theorem SLodged.upd {t : Str} (_ : SLodged d t) {s : VS Byte} (hs : Lodged d s.v) :
    SLodged d { t with s := s } := ⟨hs⟩

theorem SLodged.frame {t : Str} (h : SLodged d t) {v : Vec Byte} (hv : Frame t.s.v v) :
    SLodged d { t with s := { t.s with v := v } } := ⟨h.vec.frame hv⟩

theorem nullTerminate_lodged {t : Str} (h : SLodged d t) :
    Ensures (nullTerminate t) (SLodged d) :=
  (strPoke_keeps _ _ _).bind fun _ hv => ensures_ret (h.frame hv)

theorem strAppendSrc_lodged {t : Str} (h : SLodged d t) (x : Src Byte) (n : Nat) :
    Ensures (strAppendSrc t x n) fun r => SLodged d r.2 :=
  ensures_ite (fun _ => ensures_ret h) fun _ => (vecResizeEx_lodged h.vec _ _).bind fun _ hr =>
    ensures_ite (fun _ => ensures_ret (h.upd hr)) fun _ => (vecMemcpy_keeps _ _ _ _).bind fun v hv =>
      (nullTerminate_lodged (h.upd (s := ⟨v, _⟩) (hr.frame hv))).bind fun _ ht => ensures_ret ht

theorem strAppendExSrc_lodged {t : Str} (h : SLodged d t) (x : Src Byte) (n i c : Nat) :
    Ensures (strAppendExSrc t x n i c) fun r => SLodged d r.2 :=
  ensures_ite (fun _ => ensures_ret h) fun _ => ensures_ite (fun _ => ensures_ret h) fun _ =>
    (vecResizeEx_lodged h.vec _ _).bind fun _ hr =>
    ensures_ite (fun _ => ensures_ret (h.upd hr)) fun _ => (vecMemcpy_keeps _ _ _ _).bind fun v hv =>
      (nullTerminate_lodged (h.upd (s := ⟨v, _⟩) (hr.frame hv))).bind fun _ ht => ensures_ret ht

theorem strInsert_lodged {t : Str} (h : SLodged d t) (i : Nat) (x : View) :
    Ensures (strInsert t i x) fun r => SLodged d r.2 :=
  ensures_ite (fun _ => ensures_ret h) fun _ => ensures_ite (fun _ => strAppendSrc_lodged h _ _) fun _ =>
    ensures_ite (fun _ => ensures_ret h) fun _ => (vecInsertRange_lodged h.vec _ _ _).bind fun _ hr =>
      ensures_ite (fun _ => ensures_ret (h.upd hr)) fun _ => ensures_ret (h.upd hr)

theorem strInsertEx_lodged {t : Str} (h : SLodged d t) (i : Nat) (x : View) (j n : Nat) :
    Ensures (strInsertEx t i x j n) fun r => SLodged d r.2 :=
  ensures_ite (fun _ => ensures_ret h) fun _ => ensures_ite (fun _ => strAppendExSrc_lodged h _ _ _ _) fun _ =>
    ensures_ite (fun _ => ensures_ret h) fun _ => ensures_ite (fun _ => ensures_ret h) fun _ =>
      (vecInsertRange_lodged h.vec _ _ _).bind fun _ hr =>
      ensures_ite (fun _ => ensures_ret (h.upd hr)) fun _ => ensures_ret (h.upd hr)

theorem checkTerminate_lodged {t : Str} (ht : SLodged d t) {r : Status × VS Byte}
    (h : Lodged d r.2.v) : Ensures (checkTerminate t r) fun r => SLodged d r.2 :=
  ensures_ite (fun _ => ensures_ret (ht.upd h)) fun _ =>
    (nullTerminate_lodged (t := { t with s := r.2 }) (ht.upd h)).bind fun _ ht => ensures_ret ht

theorem strDelete_lodged {t : Str} (h : SLodged d t) (i n : Nat) :
    Ensures (strDelete t i n) fun r => SLodged d r.2 :=
  ensures_ite (fun _ => ensures_ret h) fun _ =>
    (vecDeleteRange_lodged h.vec _ _).bind fun _ hr => checkTerminate_lodged h hr

theorem strTruncate_lodged {t : Str} (h : SLodged d t) (i : Nat) :
    Ensures (strTruncate t i) fun r => SLodged d r.2 :=
  ensures_ite (fun _ => ensures_ret h) fun _ =>
    (vecDeleteRange_lodged h.vec _ _).bind fun _ hr => checkTerminate_lodged h hr

theorem strClear_lodged {t : Str} (h : SLodged d t) :
    Ensures (strClear t) fun r => SLodged d r.2 :=
  (vecResizeEx_lodged h.vec _ _).bind fun _ hr => ensures_ite (fun _ => ensures_ret (h.upd hr)) fun _ =>
    (strStart_keeps _).bind fun _ hv => ensures_ret (h.upd (hr.frame hv))

theorem strSetChar_lodged {t : Str} (h : SLodged d t) (i : Nat) (c : Byte) :
    Ensures (strSetChar t i c) fun r => SLodged d r.2 :=
  ensures_ite (fun _ => ensures_ret h) fun _ => (vecSet_lodged h.vec _ _).bind fun _ hr => ensures_ret (h.upd hr)

theorem strCaseEx_lodged (f : Byte → Byte) {t : Str} (h : SLodged d t) (i n : Nat) :
    Ensures (strCaseEx f t i n) fun r => SLodged d r.2 :=
  ensures_ite (fun _ => ensures_ret h) fun _ => (caseLoop_keeps f _ _ _).bind fun _ hv => ensures_ret (h.frame hv)

theorem strResize_lodged {t : Str} (h : SLodged d t) (n : Nat) :
    Ensures (strResize t n) fun r => SLodged d r.2 :=
  (vecResizeEx_lodged h.vec _ _).bind fun _ hr => checkTerminate_lodged h hr

theorem strOp_lodged {t : Str} (h : SLodged d t) (op : SOp) :
    Ensures (strOp t op) fun r => SLodged d r.2 := by
  cases op with
  | append x => simp only [strOp, strAppend]; exact strAppendSrc_lodged h _ _
  | appendEx x j n => simp only [strOp, strAppendEx]; exact strAppendExSrc_lodged h _ _ _ _
  | insert i x => simp only [strOp]; exact strInsert_lodged h _ _
  | insertEx i x j n => simp only [strOp]; exact strInsertEx_lodged h _ _ _ _
  | delete i n => simp only [strOp]; exact strDelete_lodged h _ _
  | truncate i => simp only [strOp]; exact strTruncate_lodged h _
  | clear => simp only [strOp]; exact strClear_lodged h
  | setChar i c => simp only [strOp]; exact strSetChar_lodged h _ _
  | lower i n => simp only [strOp, strToLowerEx]; exact strCaseEx_lodged _ h _ _
  | upper i n => simp only [strOp, strToUpperEx]; exact strCaseEx_lodged _ h _ _
  | resize n => simp only [strOp]; exact strResize_lodged h _
  | reserve c =>
    simp only [strOp, strReserve]
    exact (vecReserve_lodged h.vec _).bind fun _ hr => ensures_ret (h.upd hr)
  | shrinkToFit =>
    simp only [strOp, strShrinkToFit, vecShrinkToFit]
    exact (reallocate_lodged h.vec _).bind fun _ hr => ensures_ret (h.upd hr)

end

/-! ## Bitsets -/

section Bitsets

variable {d : Option Nat}

theorem vecStore_lodged {s : VS Byte} (h : Lodged d s.v) (k : Nat) (c : Cell Byte) :
    Ensures (vecStore s k c) fun r => Lodged d r.v :=
  ensures_withData fun _ hb => (ensures_any _).bind fun _ _ => ensures_ret (h.frame (frame_cells hb _))

theorem bsInitElements_lodged : ∀ (n : Nat) {s : VS Byte}, Lodged d s.v →
    Ensures (bsInitElements s n) fun r => Lodged d r.2.v
  | 0, _, h => ensures_ret h
  | n + 1, _, h => (vecPushBack_lodged h _).bind fun _ hr =>
      ensures_ite (fun _ => ensures_ret hr) fun _ => bsInitElements_lodged n hr

theorem bsOpLoop_lodged (op : Byte → Byte → Status × Byte) (src : VS Byte) : ∀ (n : Nat) {s : VS Byte} (i : Nat),
    Lodged d s.v → Ensures (bsOpLoop op src n s i) fun r => Lodged d r.2.v
  | 0, _, _, h => ensures_ret h
  | n + 1, _, i, h => ensures_withPointer (fun _ => h) fun _ => ensures_withPointer (fun _ => h) fun _ =>
      (ensures_any _).bind fun _ _ => (ensures_any _).bind fun _ _ => (vecStore_lodged h _ _).bind fun _ hs =>
        ensures_ite (fun _ => ensures_ret hs) fun _ => bsOpLoop_lodged op src n (i + 1) hs

theorem bsMapLoop_lodged (f : VS Byte → Nat → Out Byte) : ∀ (n : Nat) {s : VS Byte} (i : Nat),
    Lodged d s.v → Ensures (bsMapLoop f n s i) fun r => Lodged d r.2.v
  | 0, _, _, h => ensures_ret h
  | n + 1, _, i, h => ensures_withPointer (fun _ => h) fun _ => (ensures_any _).bind fun _ _ =>
      (vecStore_lodged h _ _).bind fun _ hs => bsMapLoop_lodged f n (i + 1) hs

theorem bsMapAll_lodged (f : VS Byte → Nat → Out Byte) {t : Bits} (h : Lodged d t.s.v) :
    Ensures (bsMapAll f t) fun r => Lodged d r.2.s.v :=
  (bsMapLoop_lodged f _ _ h).bind fun _ hr => ensures_ret hr

theorem bsPerform_lodged (op : Byte → Byte → Status × Byte) (src : Bits) {t : Bits}
    (h : Lodged d t.s.v) :
    Ensures (bsPerform op t src) fun r => Lodged d r.2.s.v :=
  (bsOpLoop_lodged op _ _ _ h).bind fun _ hr => ensures_ret hr

theorem bsModify_lodged (f : Byte → Byte → Byte) {t : Bits} (h : Lodged d t.s.v) (i : Nat) :
    Ensures (bsModify f t i) fun r => Lodged d r.2.s.v :=
  ensures_ite (fun _ => ensures_ret h) fun _ => ensures_withPointer (fun _ => h) fun _ =>
    (ensures_any _).bind fun _ _ => (vecStore_lodged h _ _).bind fun _ hs => ensures_ret hs

theorem bsAssign_lodged {t : Bits} (h : Lodged d t.s.v) (i : Nat) (v : Bool) :
    Ensures (bsAssign t i v) fun r => Lodged d r.2.s.v :=
  ensures_ite (fun _ => bsModify_lodged (fun x m => x ||| m) h i) fun _ => bsModify_lodged (fun x m => x &&& ~~~m) h i

theorem bsPush_lodged {t : Bits} (h : Lodged d t.s.v) (v : Bool) :
    Ensures (bsPush t v) fun r => Lodged d r.2.s.v := by
  refine Ensures.bind (Q := fun r : Status × VS Byte => Lodged d r.2.v) ?_ fun r hr => ?_
  · exact ensures_ite (fun _ => vecPushBack_lodged h _) fun _ => ensures_ret h
  · exact ensures_ite (fun _ => ensures_ret hr) fun _ => bsAssign_lodged (t := ⟨_, r.2⟩) hr _ _

theorem bsPop_lodged {t : Bits} (h : Lodged d t.s.v) :
    Ensures (bsPop t) fun r => Lodged d r.2.s.v := by
  obtain ⟨size, s⟩ := t
  unfold bsPop
  simp only
  generalize sub64 size 1 = k
  refine ensures_ite (fun _ => ?_) fun _ => ?_
  · exact Ensures.bind (vecPopBack_lodged h) fun r hr => ensures_ret hr
  · exact ensures_ret h

theorem bsOp_lodged {t : Bits} (h : Lodged d t.s.v) (op : BOp) :
    Ensures (bsOp t op) fun r => Lodged d r.2.s.v := by
  cases op with
  | push v => simp only [bsOp]; exact bsPush_lodged h _
  | pop =>
    rw [bsOp]; exact bsPop_lodged h
  | set i => simp only [bsOp, bsSet]; exact bsModify_lodged _ h _
  | reset i => simp only [bsOp, bsReset]; exact bsModify_lodged _ h _
  | assign i v => simp only [bsOp]; exact bsAssign_lodged h _ _
  | toggle i => simp only [bsOp, bsToggle]; exact bsModify_lodged _ h _
  | setAll => simp only [bsOp, bsSetAll]; exact bsMapAll_lodged _ h
  | resetAll => simp only [bsOp, bsResetAll]; exact bsMapAll_lodged _ h
  | flip => simp only [bsOp, bsFlip]; exact bsMapAll_lodged _ h
  | clear =>
    simp only [bsOp, bsClear, vecClear]
    exact (vecResizeEx_lodged h _ _).bind fun _ hr => ensures_ret hr
  | reserve n =>
    simp only [bsOp, bsReserve]
    exact (vecReserve_lodged h _).bind fun _ hr => ensures_ret hr
  | shrinkToFit =>
    simp only [bsOp, bsShrinkToFit, vecShrinkToFit]
    exact (reallocate_lodged h _).bind fun _ hr => ensures_ret hr

end Bitsets

end Zy
