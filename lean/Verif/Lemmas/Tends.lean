import Verif.Spec.Requests
import Verif.Lemmas.VectorDebug

/-!
# Lemmas: what the functions of a container can do to it

Whatever a function does to a vector and its environment is a sequence of three kinds of steps: it changes sizes
or the contents of the memory, it calls the destructor, or it asks the allocator for other memory.
-/

namespace Zy

open Spec

variable {α β γ : Type}

/-! ## Results -/

/-- Whatever `x` returns satisfies `Q`. -/
def Ensures (x : Out β) (Q : β → Prop) : Prop := ∀ r, x = .ret r → Q r

theorem Ensures.bind {x : Out β} {f : β → Out γ} {Q : β → Prop} {R : γ → Prop} (h : Ensures x Q)
    (h' : ∀ r, Q r → Ensures (f r) R) : Ensures (x.bind f) R := by
  intro r e
  obtain ⟨q, e1, e2⟩ := bind_ret e
  exact h' q (h q e1) r e2

theorem ensures_ret {a : β} {Q : β → Prop} (h : Q a) : Ensures (.ret a) Q := by
  intro r e; cases e; exact h

theorem ensures_ub {u : UB} {Q : β → Prop} : Ensures (.ub u) Q := by
  intro r e; cases e

theorem ensures_any (x : Out β) : Ensures x fun _ => True := fun _ _ => trivial

theorem ensures_ite {c : Prop} [Decidable c] {x y : Out β} {Q : β → Prop} (hx : c → Ensures x Q)
    (hy : ¬ c → Ensures y Q) : Ensures (if c then x else y) Q := by
  split
  · exact hx ‹_›
  · exact hy ‹_›

theorem ensures_withData {d : Option (Block α)} {f : Block α → Out β} {Q : β → Prop}
    (h : ∀ b, d = some b → Ensures (f b) Q) : Ensures (withData d f) Q := by
  cases d with
  | none => exact ensures_ub
  | some b => exact h b rfl

theorem Ensures.imp {x : Out β} {Q R : β → Prop} (h : Ensures x Q) (h' : ∀ r, Q r → R r) : Ensures x R :=
  fun r e => h' r (h r e)

/-- `v'` differs from `v` only in sizes and in the contents of its memory. -/
structure Frame (v v' : Vec α) : Prop where
  al : v'.allocator = v.allocator
  esz : v'.esz = v.esz
  cap : v'.cap = v.cap
  data : v'.data.map Block.id = v.data.map Block.id

theorem Frame.refl (v : Vec α) : Frame v v := ⟨rfl, rfl, rfl, rfl⟩

theorem Frame.trans {u v w : Vec α} (h : Frame u v) (h' : Frame v w) : Frame u w :=
  ⟨h'.al.trans h.al, h'.esz.trans h.esz, h'.cap.trans h.cap, h'.data.trans h.data⟩

/-! ## Steps -/

/-- `v` in the world `w` results from `o` by such steps. -/
inductive Tends (o : VS α) : Vec α → World α → Prop where
  | start : Tends o o.v o.w
  | frame {v v' : Vec α} {w : World α} (h : Tends o v w) (f : Frame v v') : Tends o v' w
  | destroyed {v : Vec α} {w : World α} (h : Tends o v w) (x : Cell α) : Tends o v (w.log (.destroy x))
  | realloc {v : Vec α} {w : World α} {a c : Nat} {b : Block α} (h : Tends o v w) (ha : v.allocator = some a)
      (hc : c ≠ 0) (hb : v.data = some b) :
      Tends o { v with cap := c, data := some (reallocBlock w a b v.esz c).2.1 } (reallocBlock w a b v.esz c).2.2

theorem Tends.resize {o s : VS α} (h : Tends o s.v s.w) (n : Nat) : Tends o { s.v with size := n } s.w :=
  h.frame ⟨rfl, rfl, rfl, rfl⟩

theorem Tends.store {o s : VS α} {b b' : Block α}
    (h : Tends o s.v s.w) (hd : s.v.data = some b) (hb : b'.id = b.id) (n : Nat) :
    Tends o { s.v with data := some b', size := n } s.w :=
  h.frame ⟨rfl, rfl, rfl, by rw [hd]; simp [hb]⟩

theorem Tends.cells {o s : VS α} {b : Block α}
    (h : Tends o s.v s.w) (hd : s.v.data = some b) (cs : List (Cell α)) (n : Nat) :
    Tends o { s.v with data := some { b with cells := cs }, size := n } s.w :=
  h.store (b' := { b with cells := cs }) hd rfl n

/-! ## Vector functions -/

theorem reallocTo_tends {o : VS α} {a : Nat} {s : VS α} (h : Tends o s.v s.w) (ha : s.v.allocator = some a) {c : Nat}
    (hc : c ≠ 0) : Ensures (reallocTo s a c) fun r => Tends o r.2.v r.2.w :=
  ensures_withData fun _ hb => ensures_ite (fun _ => ensures_ret (h.realloc ha hc hb))
    fun _ => ensures_ret (h.realloc ha hc hb)

theorem reallocate_tends {o s : VS α} (h : Tends o s.v s.w) (c : Nat) :
    Ensures (reallocate s c) fun r => Tends o r.2.v r.2.w := by
  unfold reallocate
  split
  · exact ensures_ite (fun _ => ensures_ret h) fun _ => ensures_ret h
  · rename_i a ha
    refine ensures_ite (fun _ => ensures_ite (fun _ => ?_) fun _ => ensures_ret h) fun hc => ?_
    · exact reallocTo_tends h ha (by omega)
    · exact reallocTo_tends h ha (by omega)

theorem destroyLoop_tends {o : VS α} : ∀ (n : Nat) {s : VS α} {i : Nat},
    Tends o s.v s.w → Ensures (destroyLoop s i n) fun r => Tends o r.v r.w
  | 0, _, _, h => ensures_ret h
  | n + 1, s, i, h => by
    unfold destroyLoop
    refine ensures_withData fun b _ => ?_
    split
    · exact ensures_ub
    · exact destroyLoop_tends n (s := { s with w := s.w.log _ }) (h.destroyed _)

theorem runDtors_tends {o s : VS α} (h : Tends o s.v s.w)
    (i n : Nat) : Ensures (runDtors s i n) fun r => Tends o r.v r.w :=
  ensures_ite (fun _ => destroyLoop_tends _ h) fun _ => ensures_ret h

theorem memcpyIn_keeps (b : Block α) (d : Nat) (x : Src α) (n : Nat) :
    Ensures (memcpyIn b d x n) fun b' => b'.id = b.id := by
  unfold memcpyIn
  split
  · exact ensures_ub
  · exact (ensures_any _).bind fun _ _ => (ensures_any _).bind fun _ _ => ensures_ret rfl
  · refine ensures_ite (fun _ => ensures_ite (fun _ => ensures_ub) fun _ => ?_) fun _ => ensures_ub
    exact (ensures_any _).bind fun _ _ => (ensures_any _).bind fun _ _ => ensures_ret rfl

theorem shiftLeft_tends {o s : VS α}
    (h : Tends o s.v s.w) (i n : Nat) :
    Ensures (shiftLeft s i n) fun r => Tends o r.v r.w :=
  ensures_withData fun _ hb => (ensures_any _).bind fun _ _ =>
    ensures_ret (h.cells hb _ s.v.size)

theorem shiftRight_tends {o s : VS α}
    (h : Tends o s.v s.w) (i n : Nat) :
    Ensures (shiftRight s i n) fun r => Tends o r.v r.w :=
  ensures_withData fun _ hb => (ensures_any _).bind fun _ _ =>
    ensures_ret (h.cells hb _ s.v.size)

theorem growFor_tends {o s : VS α}
    (h : Tends o s.v s.w) (n : Nat) :
    Ensures (growFor s n) fun r => Tends o r.2.v r.2.w :=
  ensures_ite (fun _ => reallocate_tends h _) fun _ => ensures_ret h

theorem shrinkAfter_tends {o s : VS α}
    (h : Tends o s.v s.w) :
    Ensures (shrinkAfter s) fun r => Tends o r.2.v r.2.w :=
  ensures_ite (fun _ => reallocate_tends h _) fun _ => ensures_ret h

theorem copyIn_tends {o s : VS α}
    (h : Tends o s.v s.w) (i : Nat) (x : Src α) (n m : Nat) (st : Status) :
    Ensures (withData s.v.data fun b => (memcpyIn b i x n).bind fun b' =>
      .ret (st, ({ s with v := { s.v with data := some b', size := m } } : VS α)))
      fun r => Tends o r.2.v r.2.w :=
  ensures_withData fun b hb => (memcpyIn_keeps b i x n).bind fun _ hb' => ensures_ret (h.store hb hb' m)

theorem vecPushBack_tends {o s : VS α}
    (h : Tends o s.v s.w) (x : Src α) :
    Ensures (vecPushBack s x) fun r => Tends o r.2.v r.2.w := by
  refine ensures_ite (fun _ => ensures_ret h) fun _ => (growFor_tends h _).bind fun r hr => ?_
  exact ensures_ite (fun _ => ensures_ret hr) fun _ => copyIn_tends hr _ _ _ _ _

theorem vecInsertRange_tends {o s : VS α}
    (h : Tends o s.v s.w) (i : Nat) (x : Src α) (n : Nat) :
    Ensures (vecInsertRange s i x n) fun r => Tends o r.2.v r.2.w := by
  refine ensures_ite (fun _ => ensures_ret h) fun _ => ensures_ite (fun _ => ensures_ret h) fun _ =>
    (growFor_tends h _).bind fun r hr => ensures_ite (fun _ => ensures_ret hr) fun _ => ?_
  refine Ensures.bind (Q := fun r => Tends o r.v r.w) ?_ fun r hr => copyIn_tends hr _ _ _ _ _
  exact ensures_ite (fun _ => shiftRight_tends hr _ _) fun _ => ensures_ret hr

theorem vecEmplaceEx_tends {o s : VS α}
    (h : Tends o s.v s.w) (i : Nat) (c : Ctor α) :
    Ensures (vecEmplaceEx s i c) fun r => Tends o r.2.v r.2.w := by
  refine ensures_ite (fun _ => ensures_ret h) fun _ =>
    (growFor_tends h _).bind fun r hr => ensures_ite (fun _ => ensures_ret hr) fun _ => ?_
  refine Ensures.bind (Q := fun r => Tends o r.v r.w) ?_ fun r hr => ?_
  · exact ensures_ite (fun _ => shiftRight_tends hr _ _) fun _ => ensures_ret hr
  · cases c with
    | none => exact ensures_ret (hr.resize _)
    | some f =>
      refine ensures_withData fun b hb => ?_
      split
      · exact ensures_ub
      · exact ensures_ite (fun _ => ensures_ret (hr.cells hb _ r.v.size)) fun _ =>
          ensures_ret (hr.cells hb _ _)

theorem vecSet_tends {o s : VS α}
    (h : Tends o s.v s.w) (i : Nat) (x : Src α) :
    Ensures (vecSet s i x) fun r => Tends o r.2.v r.2.w :=
  ensures_ite (fun _ => ensures_ret h) fun _ => ensures_ite (fun _ => ensures_ret h) fun _ =>
    (runDtors_tends h _ _).bind fun r hr => copyIn_tends hr i x 1 r.v.size stSuccess

theorem vecSwap_tends {o s : VS α}
    (h : Tends o s.v s.w) (i j : Nat) :
    Ensures (vecSwap s i j) fun r => Tends o r.2.v r.2.w :=
  ensures_ite (fun _ => ensures_ret h) fun _ => ensures_ite (fun _ => ensures_ret h) fun _ =>
    ensures_withData fun _ hb => (ensures_any _).bind fun _ _ => (ensures_any _).bind fun _ _ =>
      (ensures_any _).bind fun _ _ => ensures_ret (h.cells hb _ s.v.size)

theorem vecDeleteRange_tends {o s : VS α}
    (h : Tends o s.v s.w) (i n : Nat) :
    Ensures (vecDeleteRange s i n) fun r => Tends o r.2.v r.2.w := by
  refine ensures_ite (fun _ => ensures_ret h) fun _ => ensures_ite (fun _ => ensures_ret h) fun _ =>
    (runDtors_tends h _ _).bind fun r hr => ?_
  refine Ensures.bind (Q := fun r => Tends o r.v r.w) ?_ fun r hr =>
    shrinkAfter_tends (s := { r with v := { r.v with size := sub64 r.v.size n } }) (hr.resize _)
  exact ensures_ite (fun _ => shiftLeft_tends hr _ _) fun _ => ensures_ret hr

theorem vecPopBack_tends {o s : VS α}
    (h : Tends o s.v s.w) :
    Ensures (vecPopBack s) fun r => Tends o r.2.v r.2.w :=
  ensures_ite (fun _ => ensures_ret h) fun _ => (runDtors_tends h _ _).bind fun r hr =>
    shrinkAfter_tends (s := { r with v := { r.v with size := r.v.size - 1 } }) (hr.resize _)

theorem fillLoop_id : ∀ (n : Nat) (b : Block α) (x : Src α) (i : Nat),
    Ensures (fillLoop b x i n) fun b' => b'.id = b.id
  | 0, _, _, _ => ensures_ret rfl
  | n + 1, b, x, i => (memcpyIn_keeps b i x 1).bind fun b' hb =>
      (fillLoop_id n b' x (i + 1)).imp fun _ h => h.trans hb

theorem vecResizeEx_tends {o s : VS α}
    (h : Tends o s.v s.w) (n : Nat) (x : Src α) :
    Ensures (vecResizeEx s n x) fun r => Tends o r.2.v r.2.w := by
  refine ensures_ite (fun _ => ensures_ret h) fun _ => ?_
  refine Ensures.bind (Q := fun r => Tends o r.v r.w) ?_ fun r hr => ?_
  · exact ensures_ite (fun _ => runDtors_tends h _ _) fun _ => ensures_ret h
  refine Ensures.bind (Q := fun r => Tends o r.2.v r.2.w) ?_ fun q hq => ?_
  · exact ensures_ite (fun _ => reallocate_tends hr _) fun _ => ensures_ret hr
  refine ensures_ite (fun _ => ensures_ret hq) fun _ => ensures_ite (fun _ => ?_) fun _ =>
    ensures_ret (hq.resize _)
  exact ensures_withData fun b hb => (fillLoop_id _ b x _).bind fun _ hb' => ensures_ret (hq.store hb hb' _)

theorem vecReserve_tends {o s : VS α}
    (h : Tends o s.v s.w) (c : Nat) :
    Ensures (vecReserve s c) fun r => Tends o r.2.v r.2.w :=
  ensures_ite (fun _ => (reallocate_tends h _).bind fun _ hr =>
    ensures_ite (fun _ => ensures_ret hr) fun _ => ensures_ret hr) fun _ => ensures_ret h

theorem vecOp_tends {o s : VS α}
    (h : Tends o s.v s.w) (op : VOp α) :
    Ensures (vecOp s op) fun r => Tends o r.2.v r.2.w := by
  cases op with
  | push x => exact vecPushBack_tends h _
  | insertRange i xs => exact vecInsertRange_tends h _ _ _
  | emplace i c => exact vecEmplaceEx_tends h _ _
  | set i x => exact vecSet_tends h _ _
  | swap i j => exact vecSwap_tends h _ _
  | deleteRange i n => exact vecDeleteRange_tends h _ _
  | pop => exact vecPopBack_tends h
  | clear => exact vecResizeEx_tends h _ _
  | resize n x => exact vecResizeEx_tends h _ _
  | reserve c => exact vecReserve_tends h _
  | shrinkToFit => exact reallocate_tends h _

theorem LaterVec.tends {o : VS α} {s u : VS α}
    (hl : LaterVec s u) (h : Tends o s.v s.w) : Tends o u.v u.w := by
  induction hl with
  | refl => exact h
  | step _ hs ih => exact vecOp_tends ih _ _ hs
  | push _ hs ih => exact vecPushBack_tends ih _ _ hs
  | insert _ hs ih => exact vecInsertRange_tends ih _ _ _ _ hs
  | set _ hs ih => exact vecSet_tends ih _ _ _ hs
  | resize _ hs ih => exact vecResizeEx_tends ih _ _ _ hs

theorem dupCopy_frame (dst src : Vec α) : Ensures (dupCopy dst src) (Frame dst) :=
  ensures_withData fun _ _ => ensures_withData fun _ hb => (ensures_any _).bind fun _ _ =>
    (ensures_any _).bind fun _ _ => ensures_ret ⟨rfl, rfl, rfl, by rw [hb]; rfl⟩

/-! ## Strings -/

section Strings

variable {o : Str}

/-- The same for a string, whose flag never changes. -/
structure STends (o t : Str) : Prop where
  vec : Tends o.s t.s.v t.s.w
  fixed : t.fixed = o.fixed

theorem STends.start (o : Str) : STends o o := ⟨.start, rfl⟩

theorem STends.upd {t : Str} (h : STends o t) {s : VS Byte} (hs : Tends o.s s.v s.w) :
    STends o { t with s := s } := ⟨hs, h.fixed⟩

theorem STends.frame {t : Str} (h : STends o t) {v : Vec Byte} (hv : Frame t.s.v v) :
    STends o { t with s := { t.s with v := v } } := ⟨h.vec.frame hv, h.fixed⟩

theorem frame_cells {v : Vec Byte} {b : Block Byte} (hd : v.data = some b) (cs : List (Cell Byte)) :
    Frame v { v with data := some { b with cells := cs } } :=
  ⟨rfl, rfl, rfl, by rw [hd]; rfl⟩

theorem strPoke_keeps (v : Vec Byte) (i : Nat) (c : Cell Byte) : Ensures (strPoke v i c) (Frame v) :=
  ensures_withData fun _ hb => ensures_ite (fun _ => ensures_ret (frame_cells hb _)) fun _ => ensures_ub

theorem vecMemcpy_keeps (v : Vec Byte) (d : Nat) (x : Src Byte) (n : Nat) :
    Ensures (vecMemcpy v d x n) (Frame v) :=
  ensures_withData fun b hb => (memcpyIn_keeps b d x n).bind fun b' hb' =>
    ensures_ret ⟨rfl, rfl, rfl, by rw [hb]; simp [hb']⟩

theorem vecMemset_keeps (v : Vec Byte) (d : Nat) (c : Byte) (n : Nat) :
    Ensures (vecMemset v d c n) (Frame v) :=
  ensures_withData fun _ hb => (ensures_any _).bind fun _ _ => ensures_ret (frame_cells hb _)

theorem nullTerminate_tends {t : Str} (h : STends o t) :
    Ensures (nullTerminate t) (STends o) :=
  (strPoke_keeps _ _ _).bind fun _ hv => ensures_ret (h.frame hv)

theorem nullTerminate_sized {t : Str} {v : Vec Byte} (h : STends o t) (hv : Frame t.s.v v) (n : Nat) :
    Ensures (nullTerminate { t with s := { t.s with v := { v with size := n } } }) (STends o) :=
  nullTerminate_tends (h.frame ⟨hv.al, hv.esz, hv.cap, hv.data⟩)

theorem strStart_keeps (v : Vec Byte) : Ensures (strStart v) (Frame v) :=
  (strPoke_keeps _ _ _).bind fun _ hv => ensures_ret ⟨hv.al, hv.esz, hv.cap, hv.data⟩

theorem strAppendSrc_tends {t : Str} (h : STends o t) (x : Src Byte) (n : Nat) :
    Ensures (strAppendSrc t x n) fun r => STends o r.2 :=
  ensures_ite (fun _ => ensures_ret h) fun _ => (vecResizeEx_tends h.vec _ _).bind fun _ hr =>
    ensures_ite (fun _ => ensures_ret (h.upd hr)) fun _ => (vecMemcpy_keeps _ _ _ _).bind fun v hv =>
      (nullTerminate_tends (h.upd (s := ⟨v, _⟩) (hr.frame hv))).bind fun _ ht => ensures_ret ht

theorem strAppendExSrc_tends {t : Str} (h : STends o t) (x : Src Byte) (n i c : Nat) :
    Ensures (strAppendExSrc t x n i c) fun r => STends o r.2 :=
  ensures_ite (fun _ => ensures_ret h) fun _ => ensures_ite (fun _ => ensures_ret h) fun _ =>
    (vecResizeEx_tends h.vec _ _).bind fun _ hr =>
    ensures_ite (fun _ => ensures_ret (h.upd hr)) fun _ => (vecMemcpy_keeps _ _ _ _).bind fun v hv =>
      (nullTerminate_tends (h.upd (s := ⟨v, _⟩) (hr.frame hv))).bind fun _ ht => ensures_ret ht

theorem strInsert_tends {t : Str} (h : STends o t) (i : Nat) (x : View) :
    Ensures (strInsert t i x) fun r => STends o r.2 :=
  ensures_ite (fun _ => ensures_ret h) fun _ => ensures_ite (fun _ => strAppendSrc_tends h _ _) fun _ =>
    ensures_ite (fun _ => ensures_ret h) fun _ => (vecInsertRange_tends h.vec _ _ _).bind fun _ hr =>
      ensures_ite (fun _ => ensures_ret (h.upd hr)) fun _ => ensures_ret (h.upd hr)

theorem strInsertEx_tends {t : Str} (h : STends o t) (i : Nat) (x : View) (j n : Nat) :
    Ensures (strInsertEx t i x j n) fun r => STends o r.2 :=
  ensures_ite (fun _ => ensures_ret h) fun _ => ensures_ite (fun _ => strAppendExSrc_tends h _ _ _ _) fun _ =>
    ensures_ite (fun _ => ensures_ret h) fun _ => ensures_ite (fun _ => ensures_ret h) fun _ =>
      (vecInsertRange_tends h.vec _ _ _).bind fun _ hr =>
      ensures_ite (fun _ => ensures_ret (h.upd hr)) fun _ => ensures_ret (h.upd hr)

theorem checkTerminate_tends {t : Str} (ht : STends o t) {r : Status × VS Byte}
    (h : Tends o.s r.2.v r.2.w) : Ensures (checkTerminate t r) fun r => STends o r.2 :=
  ensures_ite (fun _ => ensures_ret (ht.upd h)) fun _ =>
    (nullTerminate_tends (t := { t with s := r.2 }) (ht.upd h)).bind fun _ ht => ensures_ret ht

theorem strDelete_tends {t : Str} (h : STends o t) (i n : Nat) :
    Ensures (strDelete t i n) fun r => STends o r.2 :=
  ensures_ite (fun _ => ensures_ret h) fun _ =>
    (vecDeleteRange_tends h.vec _ _).bind fun _ hr => checkTerminate_tends h hr

theorem strTruncate_tends {t : Str} (h : STends o t) (i : Nat) :
    Ensures (strTruncate t i) fun r => STends o r.2 :=
  ensures_ite (fun _ => ensures_ret h) fun _ =>
    (vecDeleteRange_tends h.vec _ _).bind fun _ hr => checkTerminate_tends h hr

theorem strClear_tends {t : Str} (h : STends o t) :
    Ensures (strClear t) fun r => STends o r.2 :=
  (vecResizeEx_tends h.vec _ _).bind fun _ hr => ensures_ite (fun _ => ensures_ret (h.upd hr)) fun _ =>
    (strStart_keeps _).bind fun _ hv => ensures_ret (h.upd (hr.frame hv))

theorem strSetChar_tends {t : Str} (h : STends o t) (i : Nat) (c : Byte) :
    Ensures (strSetChar t i c) fun r => STends o r.2 :=
  ensures_ite (fun _ => ensures_ret h) fun _ => (vecSet_tends h.vec _ _).bind fun _ hr => ensures_ret (h.upd hr)

theorem caseLoop_keeps (f : Byte → Byte) : ∀ (n : Nat) (v : Vec Byte) (i : Nat),
    Ensures (caseLoop f v i n) (Frame v)
  | 0, v, _ => ensures_ret (Frame.refl v)
  | n + 1, v, i => ensures_withData fun _ _ => (ensures_any _).bind fun _ _ =>
      (strPoke_keeps v _ _).bind fun v' hv => (caseLoop_keeps f n v' (i + 1)).imp fun _ h => hv.trans h

theorem strCaseEx_tends (f : Byte → Byte) {t : Str} (h : STends o t) (i n : Nat) :
    Ensures (strCaseEx f t i n) fun r => STends o r.2 :=
  ensures_ite (fun _ => ensures_ret h) fun _ => (caseLoop_keeps f _ _ _).bind fun _ hv => ensures_ret (h.frame hv)

theorem strResize_tends {t : Str} (h : STends o t) (n : Nat) :
    Ensures (strResize t n) fun r => STends o r.2 :=
  (vecResizeEx_tends h.vec _ _).bind fun _ hr => checkTerminate_tends h hr

theorem strOp_tends {t : Str} (h : STends o t) (op : SOp) :
    Ensures (strOp t op) fun r => STends o r.2 := by
  cases op with
  | append x => simp only [strOp, strAppend]; exact strAppendSrc_tends h _ _
  | appendEx x j n => simp only [strOp, strAppendEx]; exact strAppendExSrc_tends h _ _ _ _
  | insert i x => simp only [strOp]; exact strInsert_tends h _ _
  | insertEx i x j n => simp only [strOp]; exact strInsertEx_tends h _ _ _ _
  | delete i n => simp only [strOp]; exact strDelete_tends h _ _
  | truncate i => simp only [strOp]; exact strTruncate_tends h _
  | clear => simp only [strOp]; exact strClear_tends h
  | setChar i c => simp only [strOp]; exact strSetChar_tends h _ _
  | lower i n => simp only [strOp, strToLowerEx]; exact strCaseEx_tends _ h _ _
  | upper i n => simp only [strOp, strToUpperEx]; exact strCaseEx_tends _ h _ _
  | resize n => simp only [strOp]; exact strResize_tends h _
  | reserve c =>
    simp only [strOp, strReserve]
    exact (vecReserve_tends h.vec _).bind fun _ hr => ensures_ret (h.upd hr)
  | shrinkToFit =>
    simp only [strOp, strShrinkToFit, vecShrinkToFit]
    exact (reallocate_tends h.vec _).bind fun _ hr => ensures_ret (h.upd hr)

theorem growIf_tends {t : Str} (h : STends o t) (c : Prop) [Decidable c] (n : Nat) :
    Ensures (if c then strResize t n else .ret (stSuccess, t)) fun r => STends o r.2 :=
  ensures_ite (fun _ => strResize_tends h _) fun _ => ensures_ret h

theorem memsetIf_frame (v : Vec Byte) (c : Prop) [Decidable c] (d : Nat) (x : Byte) (n : Nat) :
    Ensures (if c then vecMemset v d x n else .ret v) (Frame v) :=
  ensures_ite (fun _ => vecMemset_keeps _ _ _ _) fun _ => ensures_ret (Frame.refl v)

theorem strAppendDecWith_tends {t : Str} (h : STends o t) (m value padding : Nat) :
    Ensures (strAppendDecWith m t value padding) fun r => STends o r.2 :=
  (ensures_any _).bind fun _ _ => (ensures_any _).bind fun _ _ => (growIf_tends h _ _).bind fun _ hr =>
    ensures_ite (fun _ => ensures_ret hr) fun _ => (memsetIf_frame _ _ _ _ _).bind fun _ hv =>
      (vecMemcpy_keeps _ _ _ _).bind fun _ hv' =>
        (nullTerminate_sized hr (hv.trans hv') _).bind fun _ ht => ensures_ret ht

theorem putHex_tends {t : Str} (h : STends o t) (up : Bool) (b : Option Nat) (n v : Nat) :
    Ensures (putHex up t b n v) fun r => STends o r.1 := by
  unfold putHex
  split
  · exact ensures_ub
  · split
    · exact ensures_ub
    · exact (strPoke_keeps _ _ _).bind fun _ hv => ensures_ret (h.frame hv)

theorem hexLoop_tends (up : Bool) (value len padding rem : Nat) :
    ∀ (i : Nat) {t : Str} (n : Nat) (b : Option Nat), STends o t →
      Ensures (hexLoop up value len padding rem i t n b) fun r => STends o r.2.1
  | 0, _, _, _, h => ensures_ret h
  | i + 1, t, n, b, h => by
    unfold hexLoop
    refine ensures_ite (fun _ => ensures_ite (fun _ => hexLoop_tends up value len padding rem i n b h)
      fun _ => (growIf_tends h _ _).bind fun r hr => ensures_ite (fun _ => ensures_ret hr) fun _ =>
        (memsetIf_frame _ _ _ _ _).bind fun v hv => ?_) fun _ => ?_
    · exact (putHex_tends (t := { r.2 with s := { r.2.s with v := v } }) (hr.frame hv) _ _ _ _).bind
        fun _ hq => hexLoop_tends up value len padding rem i _ _ hq
    · exact (putHex_tends h _ _ _ _).bind fun _ hq => hexLoop_tends up value len padding rem i _ _ hq

theorem hexFinish_tends {t : Str} (h : STends o t) (len n : Nat) :
    Ensures (hexFinish t len n) fun r => STends o r.2 :=
  (nullTerminate_sized h (Frame.refl _) _).bind fun _ ht => ensures_ret ht

theorem strAppendHexWith_tends {t : Str} (h : STends o t) (m value padding : Nat)
    (up : Bool) : Ensures (strAppendHexWith m t value padding up) fun r => STends o r.2 :=
  (growIf_tends h _ _).bind fun _ hr => ensures_ite (fun _ => ensures_ret hr) fun _ =>
    ensures_ite (fun _ => (growIf_tends hr _ _).bind fun q hq =>
        ensures_ite (fun _ => ensures_ret hq) fun _ => (vecMemset_keeps _ _ _ _).bind fun v hv =>
          hexFinish_tends (t := { q.2 with s := { q.2.s with v := v } }) (hq.frame hv) _ _)
      fun _ => (hexLoop_tends _ _ _ _ _ _ _ _ hr).bind fun _ hq =>
        ensures_ite (fun _ => ensures_ret hq) fun _ => hexFinish_tends hq _ _

theorem checkAppend_tends {t : Str} (h : STends o t) (v : View)
    {k : Str → Out (Status × Str)}
    (hk : ∀ t, STends o t → Ensures (k t) fun r => STends o r.2) :
    Ensures (checkAppend t v k) fun r => STends o r.2 :=
  (strAppendSrc_tends h _ _).bind fun _ hr => ensures_ite (fun _ => ensures_ret hr) fun _ => hk _ hr

theorem checkPrefix_tends {t : Str} (h : STends o t) (p : Option View)
    {k : Str → Out (Status × Str)}
    (hk : ∀ t, STends o t → Ensures (k t) fun r => STends o r.2) :
    Ensures (checkPrefix t p k) fun r => STends o r.2 := by
  cases p with
  | none => exact hk t h
  | some v => exact checkAppend_tends h v hk

theorem strAppendSigned_tends {t : Str} (h : STends o t)
    {number : Str → Nat → Out (Status × Str)} (value : BitVec 64) (sign : Bool) (p : Option View)
    (hk : ∀ t m, STends o t → Ensures (number t m) fun r => STends o r.2) :
    Ensures (strAppendSigned number t value sign p) fun r => STends o r.2 :=
  ensures_ite (fun _ => checkAppend_tends h _ fun _ ht => checkPrefix_tends ht _ fun _ ht' =>
      (ensures_any _).bind fun _ _ => hk _ _ ht')
    fun _ => ensures_ite (fun _ => checkAppend_tends h _ fun _ ht =>
      checkPrefix_tends ht _ fun _ ht' => hk _ _ ht')
    fun _ => checkPrefix_tends h _ fun _ ht => hk _ _ ht

theorem vsnprintf_keeps (v : Vec Byte) (d n : Nat) (res : FmtRes) :
    Ensures (vsnprintf v d n res) fun r => Frame v r.2 := by
  have out : ∀ x : List Byte, Ensures (if n = 0 then .ret v else withData v.data fun b =>
      (writeRange b.cells d ((x.take (n - 1)).map some ++ [some 0#8])).bind fun cs =>
      .ret { v with data := some { b with cells := cs } }) (Frame v) := fun x =>
    ensures_ite (fun _ => ensures_ret (Frame.refl v)) fun _ =>
      ensures_withData fun _ hb => (ensures_any _).bind fun _ _ => ensures_ret (frame_cells hb _)
  cases res with
  | text x => exact (out x).bind fun _ hv => ensures_ret hv
  | error x => exact (out x).bind fun _ hv => ensures_ret hv

theorem strAppendFormat_tends {t : Str} (h : STends o t) (fmt : Fmt) :
    Ensures (strAppendFormat t fmt) fun r => STends o r.2 := by
  refine (vsnprintf_keeps _ _ _ _).bind fun r hv => ?_
  have h1 : STends o { t with s := { t.s with v := r.2 } } := h.frame hv
  refine ensures_ite (fun _ => ensures_ret h1) fun _ => ensures_ite (fun _ => ?_) fun _ => ?_
  · exact ensures_ret (h1.frame ⟨rfl, rfl, rfl, rfl⟩)
  · refine (strResize_tends h1 _).bind fun q hq => ensures_ite (fun _ => ensures_ret hq) fun _ => ?_
    refine (vsnprintf_keeps _ _ _ _).bind fun _ hv' => ?_
    exact ensures_ite (fun _ => ensures_ret (hq.frame hv')) fun _ => ensures_ret (hq.frame hv')

theorem Later.tends {t u : Str} (hl : Later t u) (h : STends o t) :
    STends o u := by
  induction hl with
  | refl => exact h
  | step _ hs ih => exact strOp_tends ih _ _ hs
  | appendSelf _ hs ih => exact strAppendSrc_tends ih _ _ _ hs
  | decU _ hs ih => exact strAppendDecWith_tends ih _ _ _ _ hs
  | hexU _ hs ih => exact strAppendHexWith_tends ih _ _ _ _ _ hs
  | decS _ hs ih =>
    exact strAppendSigned_tends ih _ _ _ (fun _ _ ht => strAppendDecWith_tends ht _ _ _) _ hs
  | hexS _ hs ih =>
    exact strAppendSigned_tends ih _ _ _ (fun _ _ ht => strAppendHexWith_tends ht _ _ _ _) _ hs
  | format _ hs ih => exact strAppendFormat_tends ih _ _ hs

theorem dupInto_tends {t : Str} (h : STends o t) (x : View) :
    Ensures (dupInto t x) (STends o) :=
  (vecMemcpy_keeps _ _ _ _).bind fun _ hv => nullTerminate_sized h hv _

theorem concatInto_tends {t : Str} (h : STends o t) (x y : View) :
    Ensures (concatInto t x y) (STends o) :=
  (vecMemcpy_keeps _ _ _ _).bind fun _ hv => (vecMemcpy_keeps _ _ _ _).bind fun _ hv' =>
    nullTerminate_sized h (hv.trans hv') _

end Strings

/-! ## Bitsets -/

section Bitsets

variable {o : VS Byte}

theorem vecStore_tends {s : VS Byte} (h : Tends o s.v s.w) (k : Nat) (c : Cell Byte) :
    Ensures (vecStore s k c) fun r => Tends o r.v r.w :=
  ensures_withData fun _ hb => (ensures_any _).bind fun _ _ => ensures_ret (h.frame (frame_cells hb _))

theorem ensures_withPointer {β : Type} {s : VS Byte} {i : Nat} {err : Status → β} {k : Nat → Out β}
    {Q : β → Prop} (he : ∀ st, Q (err st)) (hk : ∀ p, Ensures (k p) Q) :
    Ensures (withPointer s i err k) Q := by
  refine ensures_ite (fun _ => ensures_ret (he _)) fun _ => ?_
  split
  · exact ensures_ub
  · exact hk _

theorem bsInitElements_tends : ∀ (n : Nat) {s : VS Byte}, Tends o s.v s.w →
    Ensures (bsInitElements s n) fun r => Tends o r.2.v r.2.w
  | 0, _, h => ensures_ret h
  | n + 1, _, h => (vecPushBack_tends h _).bind fun _ hr =>
      ensures_ite (fun _ => ensures_ret hr) fun _ => bsInitElements_tends n hr

theorem bsOpLoop_tends (op : Byte → Byte → Status × Byte) (src : VS Byte) : ∀ (n : Nat) {s : VS Byte} (i : Nat),
    Tends o s.v s.w → Ensures (bsOpLoop op src n s i) fun r => Tends o r.2.v r.2.w
  | 0, _, _, h => ensures_ret h
  | n + 1, _, i, h => ensures_withPointer (fun _ => h) fun _ => ensures_withPointer (fun _ => h) fun _ =>
      (ensures_any _).bind fun _ _ => (ensures_any _).bind fun _ _ => (vecStore_tends h _ _).bind fun _ hs =>
        ensures_ite (fun _ => ensures_ret hs) fun _ => bsOpLoop_tends op src n (i + 1) hs

theorem bsMapLoop_tends (f : VS Byte → Nat → Out Byte) : ∀ (n : Nat) {s : VS Byte} (i : Nat),
    Tends o s.v s.w → Ensures (bsMapLoop f n s i) fun r => Tends o r.2.v r.2.w
  | 0, _, _, h => ensures_ret h
  | n + 1, _, i, h => ensures_withPointer (fun _ => h) fun _ => (ensures_any _).bind fun _ _ =>
      (vecStore_tends h _ _).bind fun _ hs => bsMapLoop_tends f n (i + 1) hs

theorem bsMapAll_tends (f : VS Byte → Nat → Out Byte) {t : Bits} (h : Tends o t.s.v t.s.w) :
    Ensures (bsMapAll f t) fun r => Tends o r.2.s.v r.2.s.w :=
  (bsMapLoop_tends f _ _ h).bind fun _ hr => ensures_ret hr

theorem bsPerform_tends (op : Byte → Byte → Status × Byte) (src : Bits) {t : Bits}
    (h : Tends o t.s.v t.s.w) :
    Ensures (bsPerform op t src) fun r => Tends o r.2.s.v r.2.s.w :=
  (bsOpLoop_tends op _ _ _ h).bind fun _ hr => ensures_ret hr

theorem bsModify_tends (f : Byte → Byte → Byte) {t : Bits} (h : Tends o t.s.v t.s.w) (i : Nat) :
    Ensures (bsModify f t i) fun r => Tends o r.2.s.v r.2.s.w :=
  ensures_ite (fun _ => ensures_ret h) fun _ => ensures_withPointer (fun _ => h) fun _ =>
    (ensures_any _).bind fun _ _ => (vecStore_tends h _ _).bind fun _ hs => ensures_ret hs

theorem bsAssign_tends {t : Bits} (h : Tends o t.s.v t.s.w) (i : Nat) (v : Bool) :
    Ensures (bsAssign t i v) fun r => Tends o r.2.s.v r.2.s.w :=
  ensures_ite (fun _ => bsModify_tends (fun x m => x ||| m) h i) fun _ => bsModify_tends (fun x m => x &&& ~~~m) h i

theorem bsPush_tends {t : Bits} (h : Tends o t.s.v t.s.w) (v : Bool) :
    Ensures (bsPush t v) fun r => Tends o r.2.s.v r.2.s.w := by
  refine Ensures.bind (Q := fun r : Status × VS Byte => Tends o r.2.v r.2.w) ?_ fun r hr => ?_
  · exact ensures_ite (fun _ => vecPushBack_tends h _) fun _ => ensures_ret h
  · exact ensures_ite (fun _ => ensures_ret hr) fun _ => bsAssign_tends (t := ⟨_, r.2⟩) hr _ _

theorem bsPop_tends {t : Bits} (h : Tends o t.s.v t.s.w) :
    Ensures (bsPop t) fun r => Tends o r.2.s.v r.2.s.w := by
  obtain ⟨size, s⟩ := t
  unfold bsPop
  simp only
  generalize sub64 size 1 = k
  refine ensures_ite (fun _ => ?_) fun _ => ?_
  · exact Ensures.bind (vecPopBack_tends h) fun r hr => ensures_ret hr
  · exact ensures_ret h

theorem bsOp_tends {t : Bits} (h : Tends o t.s.v t.s.w) (op : BOp) :
    Ensures (bsOp t op) fun r => Tends o r.2.s.v r.2.s.w := by
  cases op with
  | push v => simp only [bsOp]; exact bsPush_tends h _
  | pop =>
    rw [bsOp]; exact bsPop_tends h
  | set i => simp only [bsOp, bsSet]; exact bsModify_tends _ h _
  | reset i => simp only [bsOp, bsReset]; exact bsModify_tends _ h _
  | assign i v => simp only [bsOp]; exact bsAssign_tends h _ _
  | toggle i => simp only [bsOp, bsToggle]; exact bsModify_tends _ h _
  | setAll => simp only [bsOp, bsSetAll]; exact bsMapAll_tends _ h
  | resetAll => simp only [bsOp, bsResetAll]; exact bsMapAll_tends _ h
  | flip => simp only [bsOp, bsFlip]; exact bsMapAll_tends _ h
  | clear =>
    simp only [bsOp, bsClear, vecClear]
    exact (vecResizeEx_tends h _ _).bind fun _ hr => ensures_ret hr
  | reserve n =>
    simp only [bsOp, bsReserve]
    exact (vecReserve_tends h _).bind fun _ hr => ensures_ret hr
  | shrinkToFit =>
    simp only [bsOp, bsShrinkToFit, vecShrinkToFit]
    exact (reallocate_tends h _).bind fun _ hr => ensures_ret hr

theorem LaterBits.tends {t u : Bits} (hl : LaterBits t u) (h : Tends o t.s.v t.s.w) :
    Tends o u.s.v u.s.w := by
  induction hl with
  | refl => exact h
  | step _ hs ih => exact bsOp_tends ih _ _ hs
  | perform _ hs ih => exact bsPerform_tends _ _ ih _ hs

end Bitsets

/-! ## Constructors -/

theorem Tends.trans {o : VS α} {v v' : Vec α} {w w' : World α} (h : Tends o v w) (h' : Tends ⟨v, w⟩ v' w') :
    Tends o v' w' := by
  induction h' with
  | start => exact h
  | frame _ f ih => exact ih.frame f
  | destroyed _ x ih => exact ih.destroyed x
  | realloc _ ha hc hb ih => exact ih.realloc ha hc hb

/-- A vector that has just been created in the world `w`. -/
structure Sprout (w : World α) (a : Option Nat) (e : Nat) (s : VS α) : Prop where
  al : s.v.allocator = a
  esz : s.v.esz = e
  ne : e ≠ 0
  cap : s.v.cap ≠ 0
  ok : match (generalizing := false) a with
    | some a => s.v.data.map Block.id = some w.nextBlk ∧ s.w.nextBlk = w.nextBlk + 1 ∧
        s.w.trace = w.trace ++ [.alloc a w.nextBlk e s.v.cap]
    | none => s.w = w

/-- A vector that was created in the world `w`, and perhaps modified. -/
def Grown (w : World α) (al : Option Nat) (esz : Nat) (v : Vec α) (w' : World α) : Prop :=
  ∃ o, Sprout w al esz o ∧ Tends o v w'

theorem Grown.frame {w w' : World α} {al : Option Nat} {esz : Nat} {v v' : Vec α} (h : Grown w al esz v w')
    (f : Frame v v') : Grown w al esz v' w' := by
  obtain ⟨o, h1, h2⟩ := h
  exact ⟨o, h1, h2.frame f⟩

theorem vecInitEx_grown {w w' : World α} {esz cap : Nat} {dt : Bool} {al : Option Nat} {g th : Nat}
    {st : Status} {v : Vec α} (e : vecInitEx w esz cap dt al g th = (st, some v, w')) (hst : failed st = false) :
    Grown w al esz v w' := by
  unfold vecInitEx at e
  split at e
  · cases e
  rename_i a
  split at e
  · cases e
  rename_i hz
  simp only [allocate] at e
  split at e
  · cases e
    rename_i hf
    exact absurd hf (by simp [hst])
  · cases e
    exact ⟨⟨_, _⟩, ⟨rfl, rfl, by omega, by simp only; omega, rfl, rfl, by simp [World.log]⟩, .start⟩

theorem vecInitEx_al {w w' : World α} {esz cap : Nat} {dt : Bool} {al : Option Nat} {g th : Nat}
    {st : Status} {v : Vec α} (e : vecInitEx w esz cap dt al g th = (st, some v, w')) : al ≠ none := by
  rintro rfl
  simp [vecInitEx] at e

theorem vecInitBuffer_grown (w : World α) {esz cap : Nat} {dt : Bool} {b : Option (Block α)}
    {st : Status} {v : Vec α} (e : vecInitBuffer esz b cap dt = (st, some v)) :
    Grown w none esz v w := by
  unfold vecInitBuffer at e
  split at e
  · cases e
  split at e
  · cases e
  · cases e
    rename_i hz
    exact ⟨⟨_, w⟩, ⟨rfl, rfl, by omega, by simp only; omega, rfl⟩, .start⟩

theorem vecDuplicateEx_grown (w : World α) (src : Vec α) (cap : Nat) (al : Option Nat) (g th : Nat) :
    Ensures (vecDuplicateEx w src cap al g th) fun r => failed r.1 = false →
      ∀ v, r.2.1 = some v → Grown w al src.esz v r.2.2 := by
  unfold vecDuplicateEx
  generalize hR : vecInitEx w src.esz (max cap src.size) src.hasDtor al g th = R
  obtain ⟨st, o, w'⟩ := R
  simp only
  refine ensures_ite (fun hf => ensures_ret ?_) fun hf => ?_
  · intro h; rw [hf] at h; cases h
  · split
    · exact ensures_ret (by simp)
    · rename_i v
      have h := vecInitEx_grown hR (Bool.eq_false_iff.2 hf)
      refine (dupCopy_frame v src).bind fun u hu => ensures_ret ?_
      intro _ x hx
      cases hx
      exact h.frame hu

theorem vecDuplicateBuffer_grown (w : World α) (src : Vec α) (b : Option (Block α)) (cap : Nat) :
    Ensures (vecDuplicateBuffer src b cap) fun r =>
      ∀ v, r.2 = some v → Grown w none src.esz v w := by
  unfold vecDuplicateBuffer
  generalize hR : vecInitBuffer src.esz b cap src.hasDtor = R
  obtain ⟨st, o⟩ := R
  simp only
  refine ensures_ite (fun _ => ensures_ret (by simp)) fun _ => ensures_ite (fun hf => ensures_ret ?_) fun hf => ?_
  · intro v hv
    cases hv
    exact vecInitBuffer_grown w hR
  · split
    · exact ensures_ret (by simp)
    · rename_i v
      have h := vecInitBuffer_grown w hR
      refine (dupCopy_frame v src).bind fun u hu => ensures_ret ?_
      intro x hx
      cases hx
      exact h.frame hu

theorem Made.grown {w : World α} {s : VS α} (h : Made w s) :
    ∃ a e, Grown w a e s.v s.w := by
  cases h with
  | init e hst => exact ⟨_, _, vecInitEx_grown e hst⟩
  | buffer e => exact ⟨_, _, vecInitBuffer_grown w e⟩
  | duplicate e hst => exact ⟨_, _, vecDuplicateEx_grown _ _ _ _ _ _ _ e hst _ rfl⟩
  | duplicateBuffer e => exact ⟨_, _, vecDuplicateBuffer_grown w _ _ _ _ e _ rfl⟩

/-- The same for a string. -/
structure SGrown (w : World Byte) (al : Option Nat) (t : Str) : Prop where
  vec : Grown w al 1 t.s.v t.s.w
  fixed : t.fixed = al.isNone

theorem SGrown.trans {w : World Byte} {al : Option Nat} {t u : Str} (h : SGrown w al t) (h' : STends t u) :
    SGrown w al u := by
  obtain ⟨⟨o, h1, h2⟩, h3⟩ := h
  exact ⟨⟨o, h1, h2.trans h'.vec⟩, h'.fixed.trans h3⟩

theorem dupInto_grown {w : World Byte} {al : Option Nat} {t : Str} (h : SGrown w al t) (x : View) :
    Ensures (dupInto t x) (SGrown w al) := (dupInto_tends (.start t) x).imp fun _ hu => h.trans hu

theorem concatInto_grown {w : World Byte} {al : Option Nat} {t : Str} (h : SGrown w al t) (x y : View) :
    Ensures (concatInto t x y) (SGrown w al) := (concatInto_tends (.start t) x y).imp fun _ hu => h.trans hu

theorem strInitEx_grown (w : World Byte) (cap : Nat) (al : Option Nat) (g th : Nat) :
    Ensures (strInitEx w cap al g th) fun r => ∀ t, r.2.1 = some t → SGrown w al t := by
  unfold strInitEx
  generalize hR : vecInitEx w 1 (add64 (max 32 cap) 1) false al g th = R
  obtain ⟨st, o, w'⟩ := R
  simp only
  refine ensures_ite (fun _ => ensures_ret (by simp)) fun hf => ?_
  split
  · exact ensures_ret (by simp)
  · rename_i v
    have h := vecInitEx_grown hR (Bool.eq_false_iff.2 hf)
    refine (strStart_keeps v).bind fun _ hv' => ensures_ret ?_
    intro t ht
    cases ht
    exact ⟨h.frame hv', by rw [Option.isNone_eq_false_iff.2 (Option.isSome_iff_ne_none.2 (vecInitEx_al hR))]⟩

theorem strInitBuffer_grown (w : World Byte) (b : Option (Block Byte)) (cap : Nat) :
    Ensures (strInitBuffer w b cap) fun r => ∀ t, r.2 = some t → SGrown w none t := by
  unfold strInitBuffer
  generalize hR : vecInitBuffer 1 b cap false = R
  obtain ⟨st, o⟩ := R
  simp only
  refine ensures_ite (fun _ => ensures_ret (by simp)) fun _ => ensures_ite (fun _ => ensures_ret (by simp))
    fun hf => ?_
  split
  · exact ensures_ret (by simp)
  · rename_i v
    have h := vecInitBuffer_grown w hR
    refine (strStart_keeps v).bind fun _ hv' => ensures_ret ?_
    intro t ht
    cases ht
    exact ⟨h.frame hv', rfl⟩

theorem strDuplicateEx_grown (w : World Byte) (x : View) (cap : Nat) (al : Option Nat) (g th : Nat) :
    Ensures (strDuplicateEx w x cap al g th) fun r => ∀ t, r.2.1 = some t → SGrown w al t := by
  refine ensures_ite (fun _ => ensures_ret (by simp)) fun _ => (strInitEx_grown _ _ _ _ _).bind fun r hr =>
    ensures_ite (fun _ => ensures_ret hr) fun _ => ?_
  split
  · exact ensures_ret hr
  · rename_i t ht
    refine (dupInto_grown (hr t ht) x).bind fun u hu => ensures_ret ?_
    intro t' ht'
    cases ht'
    exact hu

theorem strConcatEx_grown (w : World Byte) (x y : View) (cap : Nat) (al : Option Nat) (g th : Nat) :
    Ensures (strConcatEx w x y cap al g th) fun r => ∀ t, r.2.1 = some t → SGrown w al t := by
  refine ensures_ite (fun _ => ensures_ret (by simp)) fun _ => (strInitEx_grown _ _ _ _ _).bind fun r hr =>
    ensures_ite (fun _ => ensures_ret hr) fun _ => ?_
  split
  · exact ensures_ret hr
  · rename_i t ht
    refine (concatInto_grown (hr t ht) x y).bind fun u hu => ensures_ret ?_
    intro t' ht'
    cases ht'
    exact hu

theorem strDuplicateBuffer_grown (w : World Byte) (x : View) (b : Option (Block Byte)) (cap : Nat) :
    Ensures (strDuplicateBuffer w x b cap) fun r => ∀ t, r.2 = some t → SGrown w none t := by
  refine ensures_ite (fun _ => ensures_ret (by simp)) fun _ => ensures_ite (fun _ => ensures_ret (by simp))
    fun _ => (strInitBuffer_grown _ _ _).bind fun r hr => ensures_ite (fun _ => ensures_ret hr) fun _ => ?_
  split
  · exact ensures_ret hr
  · rename_i t ht
    refine (dupInto_grown (hr t ht) x).bind fun u hu => ensures_ret ?_
    intro t' ht'
    cases ht'
    exact hu

theorem strConcatBuffer_grown (w : World Byte) (x y : View) (b : Option (Block Byte)) (cap : Nat) :
    Ensures (strConcatBuffer w x y b cap) fun r => ∀ t, r.2 = some t → SGrown w none t := by
  refine ensures_ite (fun _ => ensures_ret (by simp)) fun _ => ensures_ite (fun _ => ensures_ret (by simp))
    fun _ => (strInitBuffer_grown _ _ _).bind fun r hr => ensures_ite (fun _ => ensures_ret hr) fun _ => ?_
  split
  · exact ensures_ret hr
  · rename_i t ht
    refine (concatInto_grown (hr t ht) x y).bind fun u hu => ensures_ret ?_
    intro t' ht'
    cases ht'
    exact hu

theorem MadeStr.grown {w : World Byte} {t : Str} (h : MadeStr w t) : ∃ a, SGrown w a t := by
  cases h with
  | init e => exact ⟨_, strInitEx_grown _ _ _ _ _ _ e _ rfl⟩
  | buffer e => exact ⟨_, strInitBuffer_grown _ _ _ _ e _ rfl⟩
  | duplicate e => exact ⟨_, strDuplicateEx_grown _ _ _ _ _ _ _ e _ rfl⟩
  | duplicateBuffer e => exact ⟨_, strDuplicateBuffer_grown _ _ _ _ _ e _ rfl⟩
  | concat e => exact ⟨_, strConcatEx_grown _ _ _ _ _ _ _ _ e _ rfl⟩
  | concatBuffer e => exact ⟨_, strConcatBuffer_grown _ _ _ _ _ _ e _ rfl⟩

theorem bsInitElements_grown {w : World Byte} {al : Option Nat} {e : Nat} (n : Nat) {s : VS Byte}
    (h : Grown w al e s.v s.w) : Ensures (bsInitElements s n) fun r => Grown w al e r.2.v r.2.w := by
  obtain ⟨o, h1, h2⟩ := h
  exact (bsInitElements_tends n h2).imp fun _ hr => ⟨o, h1, hr⟩

theorem bsInitEx_grown (w : World Byte) (count : Nat) (al : Option Nat) (g th : Nat) :
    Ensures (bsInitEx w count al g th) fun r => ∀ t, r.2.1 = some t → Grown w al 1 t.s.v t.s.w := by
  unfold bsInitEx
  simp only
  generalize hR : vecInitEx w 1 (bitsToBytes count) false al g th = R
  obtain ⟨st, o, w'⟩ := R
  simp only
  refine ensures_ite (fun _ => ensures_ret (by simp)) fun hf => ?_
  split
  · exact ensures_ret (by simp)
  · rename_i v
    have h := vecInitEx_grown hR (Bool.eq_false_iff.2 hf)
    refine (bsInitElements_grown _ (s := ⟨v, w'⟩) h).bind fun q hq =>
      ensures_ite (fun _ => ensures_ret (by simp)) fun _ => ensures_ret ?_
    intro t ht
    cases ht
    exact hq

theorem bsInitBuffer_grown (w : World Byte) (count : Nat) (b : Option (Block Byte)) (cap : Nat) :
    Ensures (bsInitBuffer w count b cap) fun r =>
      ∀ t, r.2 = some t → Grown w none 1 t.s.v t.s.w := by
  unfold bsInitBuffer
  generalize hR : vecInitBuffer 1 b cap false = R
  obtain ⟨st, o⟩ := R
  simp only
  refine ensures_ite (fun _ => ensures_ret (by simp)) fun _ => ensures_ite (fun _ => ensures_ret (by simp))
    fun hf => ?_
  split
  · exact ensures_ret (by simp)
  · rename_i v
    have h := vecInitBuffer_grown w hR
    refine (bsInitElements_grown _ (s := ⟨v, w⟩) h).bind fun q hq =>
      ensures_ite (fun _ => ensures_ret (by simp)) fun _ => ensures_ret ?_
    intro t ht
    cases ht
    exact hq

theorem MadeBits.grown {w : World Byte} {t : Bits} (h : MadeBits w t) :
    ∃ a, Grown w a 1 t.s.v t.s.w := by
  cases h with
  | init e => exact ⟨_, bsInitEx_grown _ _ _ _ _ _ e _ rfl⟩
  | buffer e => exact ⟨_, bsInitBuffer_grown _ _ _ _ _ e _ rfl⟩

end Zy
