import Verif.Lemmas.Requests
import Verif.Model.ArgParse

/-!
# Lemmas: requests of lists and of the argument parser
-/

namespace Zy

open Spec

variable {α : Type}

/-! ## Lists -/

theorem nodeRequests_append (es : List (Event α)) (x : Event α) :
    nodeRequests (es ++ [x]) = nodeStep (nodeRequests es) x := by
  unfold nodeRequests
  rw [List.foldl_append]; rfl

/-- All requests of the list since `pre` were proper, and every accessible node is held. A list on a
buffer has not called an allocator. -/
structure LOrderly (pre : List (Event α)) (a : Option Nat) (e : Nat) (s : LS α) : Prop where
  al : s.l.allocator = a
  esz : s.l.esz = e
  ok : ∃ es, s.w.trace = pre ++ es ∧
    match (generalizing := false) a with
    | none => ∀ x ∈ es, isDestroy x = true
    | some a => ∃ L, nodeRequests es = some L ∧ ∀ p nd, s.mem p = some nd → ⟨a, p, 16 + e⟩ ∈ L

section

variable {pre : List (Event α)} {a : Option Nat} {e : Nat}

/-- Only list fields that do not matter, and the contents of nodes, differ. -/
theorem LOrderly.frame {s s' : LS α} (h : LOrderly pre a e s) (h1 : s'.l.allocator = s.l.allocator)
    (h2 : s'.l.esz = s.l.esz) (h3 : s'.w.trace = s.w.trace)
    (h4 : ∀ p nd, s'.mem p = some nd → ∃ nd', s.mem p = some nd') : LOrderly pre a e s' := by
  obtain ⟨g1, g2, es, g3, g4⟩ := h
  refine ⟨h1.trans g1, h2.trans g2, es, h3.trans g3, ?_⟩
  cases a with
  | none => exact g4
  | some a =>
    obtain ⟨L, hL, hm⟩ := g4
    exact ⟨L, hL, fun p nd hp => by obtain ⟨nd', h'⟩ := h4 p nd hp; exact hm p nd' h'⟩

theorem LOrderly.fields {s : LS α} (h : LOrderly pre a e s) {l : ZList} (h1 : l.allocator = s.l.allocator)
    (h2 : l.esz = s.l.esz) : LOrderly pre a e { s with l := l } :=
  h.frame h1 h2 rfl fun _ nd hp => ⟨nd, hp⟩

theorem deref_mem {s : LS α} {p : Option Nat} {r : Nat × LNode α} (h : deref s p = .ret r) :
    p = some r.1 ∧ s.mem r.1 = some r.2 := by
  unfold deref at h
  split at h
  · cases h
  · split at h
    · cases h
    · cases h
      exact ⟨rfl, ‹_›⟩

theorem LOrderly.put {s : LS α} (h : LOrderly pre a e s) {p : Nat} {nd : LNode α} (hp : s.mem p = some nd)
    (nd' : LNode α) : LOrderly pre a e (s.put p (some nd')) := by
  refine h.frame rfl rfl rfl fun q x hq => ?_
  by_cases hqp : q = p
  · subst hqp; exact ⟨nd, hp⟩
  · refine ⟨x, ?_⟩
    have : (if q = p then some nd' else s.mem q) = some x := hq
    rwa [if_neg hqp] at this

theorem derefPut_orderly {s : LS α} (h : LOrderly pre a e s) (p : Option Nat) (f : LNode α → LNode α) :
    Ensures ((deref s p).bind fun r => .ret (s.put r.1 (some (f r.2)))) (LOrderly pre a e) :=
  Ensures.bind (Q := fun r => s.mem r.1 = some r.2) (fun _ e => (deref_mem e).2) fun _ hr =>
    ensures_ret (h.put hr _)

theorem storeNext_orderly {s : LS α} (h : LOrderly pre a e s) (p v : Option Nat) :
    Ensures (storeNext s p v) (LOrderly pre a e) := derefPut_orderly h p fun n => { n with next := some v }

theorem storePrev_orderly {s : LS α} (h : LOrderly pre a e s) (p v : Option Nat) :
    Ensures (storePrev s p v) (LOrderly pre a e) := derefPut_orderly h p fun n => { n with prev := some v }

theorem copyData_orderly {s : LS α} (h : LOrderly pre a e s) (p : Option Nat) (x : LSrc α) :
    Ensures (copyData s p x) (LOrderly pre a e) :=
  (ensures_any _).bind fun c _ => derefPut_orderly h p fun n => { n with data := c }

theorem construct_orderly {s : LS α} (h : LOrderly pre a e s) (p : Option Nat) (c : Ctor α) :
    Ensures (construct s p c) (LOrderly pre a e) := by
  cases c with
  | none => exact ensures_ret h
  | some f => exact derefPut_orderly h p fun n => { n with data := (f n.data).2 }

theorem LOrderly.destroyed {s : LS α} (h : LOrderly pre a e s) (x : Cell α) :
    LOrderly pre a e (s.log (.destroy x)) := by
  obtain ⟨g1, g2, es, g3, g4⟩ := h
  refine ⟨g1, g2, es ++ [.destroy x], by simp [LS.log, g3], ?_⟩
  cases a with
  | none =>
    intro y hy
    rcases List.mem_append.1 hy with hy | hy
    · exact g4 y hy
    · simp at hy; subst hy; rfl
  | some a =>
    obtain ⟨L, hL, hm⟩ := g4
    exact ⟨L, by rw [nodeRequests_append, hL]; rfl, hm⟩

theorem destroyData_orderly {s : LS α} (h : LOrderly pre a e s) (p : Option Nat) :
    Ensures (destroyData s p) (LOrderly pre a e) :=
  ensures_ite (fun _ => (ensures_any _).bind fun _ _ => ensures_ret (h.destroyed _)) fun _ => ensures_ret h

theorem initBack_orderly {s : LS α} (h : LOrderly pre a e s) (p : Option Nat) :
    Ensures (initBack s p) (LOrderly pre a e) :=
  (storePrev_orderly h _ _).bind fun _ hs => storeNext_orderly hs _ _

theorem initFront_orderly {s : LS α} (h : LOrderly pre a e s) (p : Option Nat) :
    Ensures (initFront s p) (LOrderly pre a e) :=
  (storePrev_orderly h _ _).bind fun _ hs => storeNext_orderly hs _ _

theorem linkBack_orderly {s : LS α} (h : LOrderly pre a e s) (p : Option Nat) :
    Ensures (linkBack s p) (LOrderly pre a e) := by
  refine Ensures.bind (Q := LOrderly pre a e) ?_ fun _ hs => ensures_ret (hs.fields rfl rfl)
  exact ensures_ite (fun _ => ensures_ret (h.fields rfl rfl)) fun _ =>
    (storeNext_orderly h _ _).bind fun _ hs => ensures_ret (hs.fields rfl rfl)

theorem linkFront_orderly {s : LS α} (h : LOrderly pre a e s) (p : Option Nat) :
    Ensures (linkFront s p) (LOrderly pre a e) := by
  refine Ensures.bind (Q := LOrderly pre a e) ?_ fun _ hs => ensures_ret (hs.fields rfl rfl)
  exact ensures_ite (fun _ => ensures_ret (h.fields rfl rfl)) fun _ =>
    (storePrev_orderly h _ _).bind fun _ hs => ensures_ret (hs.fields rfl rfl)

theorem unlinkTail_orderly {s : LS α} (h : LOrderly pre a e s) (p : Option Nat) :
    Ensures (unlinkTail s p) (LOrderly pre a e) :=
  (ensures_any _).bind fun q _ => ensures_ite
    (fun _ => storeNext_orderly (s := { s with l := { s.l with tail := q } }) (h.fields rfl rfl) _ _)
    fun _ => ensures_ret (h.fields rfl rfl)

theorem unlinkHead_orderly {s : LS α} (h : LOrderly pre a e s) (p : Option Nat) :
    Ensures (unlinkHead s p) (LOrderly pre a e) :=
  (ensures_any _).bind fun q _ => ensures_ite
    (fun _ => storePrev_orderly (s := { s with l := { s.l with head := q } }) (h.fields rfl rfl) _ _)
    fun _ => ensures_ret (h.fields rfl rfl)

theorem nodeBytes_eq {l : ZList} (h : l.esz = e) (he : 16 + e < 18446744073709551616) :
    nodeSize l = 16 + e := by
  unfold nodeSize
  rw [h]
  exact add64_eq he

theorem nodeAllocate_orderly {b : Nat} {s : LS α} (he : 16 + e < 18446744073709551616)
    (h : LOrderly pre (some b) e s) : LOrderly pre (some b) e (nodeAllocate s b).2.2 := by
  obtain ⟨g1, g2, es, g3, L, hL, hm⟩ := h
  unfold nodeAllocate
  simp only
  split
  · exact ⟨g1, g2, es ++ [.refused b], by simp [LS.log, g3], L, by rw [nodeRequests_append, hL]; rfl, hm⟩
  · refine ⟨g1, g2, es ++ [.alloc b s.w.nextBlk (nodeSize s.l) 1], by simp [LS.log, LS.put, g3],
      ⟨b, s.w.nextBlk, 16 + e⟩ :: L, ?_, ?_⟩
    · rw [nodeRequests_append, hL, nodeBytes_eq g2 he]
      show (if _ then _ else _) = _
      rw [if_pos ⟨by omega, by omega⟩]
    · intro q x hq
      have hq' : (if q = s.w.nextBlk then (if nodeSize s.l = 16 + s.l.esz then some ⟨none, none, none⟩ else none)
        else s.mem q) = some x := hq
      by_cases hqp : q = s.w.nextBlk
      · subst hqp; exact List.mem_cons_self
      · rw [if_neg hqp] at hq'
        exact List.mem_cons_of_mem _ (hm q x hq')

theorem nodeDeallocate_orderly {b : Nat} {s : LS α} (he : 16 + e < 18446744073709551616)
    (h : LOrderly pre (some b) e s) (p : Option Nat) :
    Ensures (nodeDeallocate s b p) fun r => LOrderly pre (some b) e r.2 := by
  refine Ensures.bind (Q := fun r => s.mem r.1 = some r.2) (fun _ e => (deref_mem e).2) fun r hr => ?_
  obtain ⟨g1, g2, es, g3, L, hL, hm⟩ := h
  refine ensures_ite (fun _ => ensures_ret ?_) fun _ => ensures_ret ?_
  · exact ⟨g1, g2, es ++ [.refused b], by simp [LS.log, g3], L, by rw [nodeRequests_append, hL]; rfl, hm⟩
  · refine ⟨g1, g2, es ++ [.dealloc b r.1 (nodeSize s.l) 1], by simp [LS.log, LS.put, g3],
      L.erase ⟨b, r.1, 16 + e⟩, ?_, ?_⟩
    · rw [nodeRequests_append, hL, nodeBytes_eq g2 he]
      show (if _ then _ else _) = _
      rw [if_pos ⟨hm _ _ hr, by omega, by omega⟩]
    · intro q x hq
      have hq' : (if q = r.1 then none else s.mem q) = some x := hq
      by_cases hqp : q = r.1
      · rw [if_pos hqp] at hq'; cases hq'
      · rw [if_neg hqp] at hq'
        refine (List.mem_erase_of_ne ?_).2 (hm q x hq')
        intro hh
        exact hqp (congrArg Holding.block hh)

theorem listAllocateNode_orderly {s : LS α} (he : 16 + e < 18446744073709551616) (h : LOrderly pre a e s) :
    Ensures (listAllocateNode s) fun r => LOrderly pre a e r.2.2 := by
  unfold listAllocateNode
  rw [h.al]
  cases a with
  | some b =>
    exact ensures_ite (fun _ => ensures_ret (nodeAllocate_orderly he h)) fun _ =>
      ensures_ret (nodeAllocate_orderly he h)
  | none =>
    exact ensures_ite (fun _ => (ensures_any _).bind fun _ _ => ensures_ret (h.fields rfl rfl)) fun _ =>
      ensures_ite (fun _ => ensures_ret h) fun _ => ensures_ret h

theorem listDeallocateNode_orderly {s : LS α} (he : 16 + e < 18446744073709551616) (h : LOrderly pre a e s)
    (p : Option Nat) : Ensures (listDeallocateNode s p) fun r => LOrderly pre a e r.2 := by
  unfold listDeallocateNode
  rw [h.al]
  cases a with
  | some b =>
    exact (nodeDeallocate_orderly he h p).bind fun _ hr =>
      ensures_ite (fun _ => ensures_ret hr) fun _ => ensures_ret hr
  | none => exact (storeNext_orderly h _ _).bind fun _ hs => ensures_ret (hs.fields rfl rfl)

theorem freeStep_orderly (he : 16 + e < 18446744073709551616) {s : LS α} {p next : Option Nat} {n : Nat}
    (hs : LOrderly pre a e s)
    (ih : ∀ {s : LS α}, LOrderly pre a e s → Ensures (freeLoop s next n) fun r => LOrderly pre a e r.2) :
    Ensures (match s.l.allocator with
      | some a => (nodeDeallocate s a p).bind fun r =>
          if failed r.1 then .ret (some r.1, r.2) else freeLoop r.2 next n
      | none => freeLoop s next n) fun r => LOrderly pre a e r.2 := by
  rw [hs.al]
  cases a with
  | some b =>
    exact (nodeDeallocate_orderly he hs p).bind fun r hr => ensures_ite (fun _ => ensures_ret hr) fun _ => ih hr
  | none => exact ih hs

theorem freeLoop_orderly (he : 16 + e < 18446744073709551616) : ∀ (n : Nat) {s : LS α} (p : Option Nat),
    LOrderly pre a e s → Ensures (freeLoop s p n) fun r => LOrderly pre a e r.2
  | 0, _, _, h => ensures_ite (fun _ => ensures_ub) fun _ => ensures_ret h
  | n + 1, _, p, h => ensures_ite (fun _ => (destroyData_orderly h p).bind fun _ hs =>
      (ensures_any _).bind fun next _ => freeStep_orderly he hs fun h' => freeLoop_orderly he n next h')
      fun _ => ensures_ret h

theorem freeAll_orderly {s : LS α} (he : 16 + e < 18446744073709551616) (h : LOrderly pre a e s) :
    Ensures (freeAll s) fun r => LOrderly pre a e r.2 := freeLoop_orderly he _ _ h

theorem listDestroy_orderly {s : LS α} (he : 16 + e < 18446744073709551616) (h : LOrderly pre a e s) :
    Ensures (listDestroy s) fun r => LOrderly pre a e r.2 := by
  refine (freeAll_orderly he h).bind fun r hr => ?_
  split <;> exact ensures_ret hr

theorem listPushBack_orderly {s : LS α} (he : 16 + e < 18446744073709551616) (h : LOrderly pre a e s)
    (x : LSrc α) : Ensures (listPushBack s x) fun r => LOrderly pre a e r.2 :=
  ensures_ite (fun _ => ensures_ret h) fun _ => (listAllocateNode_orderly he h).bind fun _ hr =>
    ensures_ite (fun _ => ensures_ret hr) fun _ => (initBack_orderly hr _).bind fun _ h1 =>
      (copyData_orderly h1 _ _).bind fun _ h2 => (linkBack_orderly h2 _).bind fun _ h3 => ensures_ret h3

theorem listPushFront_orderly {s : LS α} (he : 16 + e < 18446744073709551616) (h : LOrderly pre a e s)
    (x : LSrc α) : Ensures (listPushFront s x) fun r => LOrderly pre a e r.2 :=
  ensures_ite (fun _ => ensures_ret h) fun _ => (listAllocateNode_orderly he h).bind fun _ hr =>
    ensures_ite (fun _ => ensures_ret hr) fun _ => (initFront_orderly hr _).bind fun _ h1 =>
      (copyData_orderly h1 _ _).bind fun _ h2 => (linkFront_orderly h2 _).bind fun _ h3 => ensures_ret h3

theorem listEmplaceBack_orderly {s : LS α} (he : 16 + e < 18446744073709551616) (h : LOrderly pre a e s)
    (c : Ctor α) : Ensures (listEmplaceBack s c) fun r => LOrderly pre a e r.2 :=
  (listAllocateNode_orderly he h).bind fun _ hr =>
    ensures_ite (fun _ => ensures_ret hr) fun _ => (initBack_orderly hr _).bind fun _ h1 =>
      (construct_orderly h1 _ _).bind fun _ h2 => (linkBack_orderly h2 _).bind fun _ h3 => ensures_ret h3

theorem listEmplaceFront_orderly {s : LS α} (he : 16 + e < 18446744073709551616) (h : LOrderly pre a e s)
    (c : Ctor α) : Ensures (listEmplaceFront s c) fun r => LOrderly pre a e r.2 :=
  (listAllocateNode_orderly he h).bind fun _ hr =>
    ensures_ite (fun _ => ensures_ret hr) fun _ => (initFront_orderly hr _).bind fun _ h1 =>
      (construct_orderly h1 _ _).bind fun _ h2 => (linkFront_orderly h2 _).bind fun _ h3 => ensures_ret h3

theorem listPopBack_orderly {s : LS α} (he : 16 + e < 18446744073709551616) (h : LOrderly pre a e s) :
    Ensures (listPopBack s) fun r => LOrderly pre a e r.2 := by
  refine ensures_ite (fun _ => ensures_ret h) fun _ => (destroyData_orderly h _).bind fun _ h1 =>
    (unlinkTail_orderly h1 _).bind fun s h2 => listDeallocateNode_orderly he ?_ _
  simp only
  split
  · exact h2.fields rfl rfl
  · exact h2.fields rfl rfl

theorem listPopFront_orderly {s : LS α} (he : 16 + e < 18446744073709551616) (h : LOrderly pre a e s) :
    Ensures (listPopFront s) fun r => LOrderly pre a e r.2 := by
  refine ensures_ite (fun _ => ensures_ret h) fun _ => (destroyData_orderly h _).bind fun _ h1 =>
    (unlinkHead_orderly h1 _).bind fun s h2 => listDeallocateNode_orderly he ?_ _
  simp only
  split
  · exact h2.fields rfl rfl
  · exact h2.fields rfl rfl

theorem listSetNodeData_orderly {s : LS α} (h : LOrderly pre a e s) (p : Option Nat) (x : LSrc α) :
    Ensures (listSetNodeData s p x) fun r => LOrderly pre a e r.2 :=
  ensures_ite (fun _ => ensures_ret h) fun _ => (destroyData_orderly h _).bind fun _ h1 =>
    (copyData_orderly h1 _ _).bind fun _ h2 => ensures_ret h2

theorem growLoop_orderly (he : 16 + e < 18446744073709551616) (x : LSrc α) : ∀ (n : Nat) {s : LS α},
    LOrderly pre a e s → Ensures (growLoop x s n) fun r => LOrderly pre a e r.2
  | 0, _, h => ensures_ret h
  | n + 1, s, h => by
    refine (listAllocateNode_orderly he h).bind fun _ hr =>
      ensures_ite (fun _ => ensures_ret hr) fun _ => (initBack_orderly hr _).bind fun s1 h1 => ?_
    refine Ensures.bind (Q := LOrderly pre a e) ?_ fun _ h2 => (linkBack_orderly h2 _).bind fun _ h3 =>
      growLoop_orderly he x n h3
    exact ensures_ite (fun _ => ensures_ret h1) fun _ => copyData_orderly h1 _ _

theorem shrinkLoop_orderly (he : 16 + e < 18446744073709551616) : ∀ (n : Nat) {s : LS α},
    LOrderly pre a e s → Ensures (shrinkLoop s n) fun r => LOrderly pre a e r.2
  | 0, _, h => ensures_ret h
  | n + 1, _, h => (destroyData_orderly h _).bind fun _ h1 => (unlinkTail_orderly h1 _).bind fun _ h2 =>
      (listDeallocateNode_orderly he h2 _).bind fun _ h3 => ensures_ite (fun _ => ensures_ret h3) fun _ =>
        shrinkLoop_orderly he n h3

theorem listResizeEx_orderly {s : LS α} (he : 16 + e < 18446744073709551616) (h : LOrderly pre a e s)
    (n : Nat) (x : LSrc α) : Ensures (listResizeEx s n x) fun r => LOrderly pre a e r.2 := by
  refine ensures_ite (fun _ => ensures_ret h) fun _ => ensures_ite (fun _ =>
    (freeAll_orderly he h).bind fun r hr => ?_) fun _ => ensures_ite (fun _ => growLoop_orderly he x _ h)
    fun _ => (shrinkLoop_orderly he _ h).bind fun r hr => ?_
  · simp only
    split
    · exact ensures_ret hr
    · exact ensures_ret (hr.fields rfl rfl)
  · simp only
    split
    · exact ensures_ret hr
    · exact ensures_ret (hr.fields rfl rfl)

theorem listOp_orderly {s : LS α} (he : 16 + e < 18446744073709551616) (h : LOrderly pre a e s) (op : LOp α) :
    Ensures (listOp s op) fun r => LOrderly pre a e r.2 := by
  cases op with
  | pushBack x => exact listPushBack_orderly he h _
  | pushFront x => exact listPushFront_orderly he h _
  | pushBackOf i => exact (ensures_any _).bind fun _ _ => listPushBack_orderly he h _
  | pushFrontOf i => exact (ensures_any _).bind fun _ _ => listPushFront_orderly he h _
  | emplaceBack c => exact listEmplaceBack_orderly he h _
  | emplaceFront c => exact listEmplaceFront_orderly he h _
  | popBack => exact listPopBack_orderly he h
  | popFront => exact listPopFront_orderly he h
  | set i x => exact (ensures_any _).bind fun _ _ => listSetNodeData_orderly h _ _
  | clear => exact listResizeEx_orderly he h _ _
  | resize n init => exact listResizeEx_orderly he h _ _

theorem runList_orderly (he : 16 + e < 18446744073709551616) : ∀ (ops : List (LOp α)) {s : LS α},
    LOrderly pre a e s → Ensures (runList s ops) fun r => LOrderly pre a e r.2
  | [], _, h => ensures_ret h
  | op :: ops, _, h => (listOp_orderly he h op).bind fun _ hr =>
      (runList_orderly he ops hr).bind fun _ hq => ensures_ret hq

end

/-! ## The argument parser -/

section Args

variable {pre : List (Event AArg)} {a : Option Nat} {e : Nat}

theorem newArg_orderly {s : VS AArg} (he : e ≠ 0) (h : Orderly pre a e s.v s.w) :
    Ensures (newArg s) fun r => Orderly pre a e r.2.v r.2.w :=
  (vecEmplaceEx_orderly he h _ _).bind fun _ hr => ensures_ite (fun _ => ensures_ret hr) fun _ =>
    ensures_withData fun _ hb => (ensures_any _).bind fun _ _ => ensures_ret (hr.cells hb _ _)

theorem modArg_orderly {s : VS AArg} (h : Orderly pre a e s.v s.w) (f : AArg → AArg) :
    Ensures (modArg s f) fun r => Orderly pre a e r.v r.w := by
  refine ensures_withData fun _ hb => ?_
  simp only
  split
  · exact ensures_ub
  · exact ensures_ub
  · exact (ensures_any _).bind fun _ _ => ensures_ret (h.cells hb _ _)

theorem putValue_orderly {s : VS AArg} (h : Orderly pre a e s.v s.w) (p : List (Cell Byte)) :
    Ensures (putValue s p) fun r => Orderly pre a e r.2.v r.2.w :=
  (modArg_orderly h _).bind fun _ h1 => (ensures_any _).bind fun _ _ =>
    ensures_ite (fun _ => ensures_ret h1) fun _ => (modArg_orderly h1 _).bind fun _ h2 => ensures_ret h2

/-- The invariant of the vector that a piece of the parser leaves behind. -/
def CtlOrderly (pre : List (Event AArg)) (a : Option Nat) (e : Nat) : Ctl → Prop
  | .fall s _ | .cont s _ | .fail _ _ s | .quit _ s => Orderly pre a e s.v s.w

/-- The same for the main loop. -/
def LoopOrderly (pre : List (Event AArg)) (a : Option Nat) (e : Nat) : LoopRes → Prop
  | .done p => Orderly pre a e p.s.v p.s.w
  | .fail _ _ s | .quit _ s => Orderly pre a e s.v s.w

theorem takeNext_orderly (cfg : ArgConfig) (cur : List Byte) {s : VS AArg} (h : Orderly pre a e s.v s.w)
    (i : Nat) : Ensures (takeNext cfg cur s i) (CtlOrderly pre a e) :=
  ensures_ite (fun _ => ensures_ret h) fun _ => (ensures_any _).bind fun _ _ =>
    (putValue_orderly h _).bind fun r hr =>
      ensures_ite (fun _ => ensures_ret (a := Ctl.quit r.1 r.2) hr) fun _ => ensures_ret (a := Ctl.cont r.2 _) hr

theorem longArg_orderly (he : e ≠ 0) (cfg : ArgConfig) (cur : List Byte) {s : VS AArg}
    (h : Orderly pre a e s.v s.w) (i : Nat) : Ensures (longArg cfg cur s i) (CtlOrderly pre a e) := by
  refine (newArg_orderly he h).bind fun r hr => ensures_ite (fun _ => ensures_ret (a := Ctl.quit r.1 r.2) hr)
    fun _ => (ensures_any _).bind fun f _ => ?_
  split
  · exact ensures_ret (a := Ctl.fail _ _ r.2) hr
  · exact (modArg_orderly hr _).bind fun s hs =>
      ensures_ite (fun _ => ensures_ret (a := Ctl.cont s i) hs) fun _ => takeNext_orderly cfg cur hs i

theorem shortLoop_orderly (he : e ≠ 0) (cfg : ArgConfig) (cur : List Byte) (i : Nat) :
    ∀ (n : Nat) {s : VS AArg} (k : Nat), Orderly pre a e s.v s.w →
      Ensures (shortLoop cfg cur i n s k) (CtlOrderly pre a e)
  | 0, _, _, _ => ensures_ub
  | n + 1, s, k, h => by
    refine (ensures_any _).bind fun c _ => ensures_ite (fun _ => ensures_ret (a := Ctl.fall s i) h) fun _ =>
      (newArg_orderly he h).bind fun r hr => ensures_ite (fun _ => ensures_ret (a := Ctl.quit r.1 r.2) hr)
      fun _ => (ensures_any _).bind fun f _ => ?_
    split
    · exact ensures_ret (a := Ctl.fail _ _ r.2) hr
    · refine (modArg_orderly hr _).bind fun s hs =>
        ensures_ite (fun _ => shortLoop_orderly he cfg cur i n (k + 1) hs) fun _ =>
        (ensures_any _).bind fun m _ => ensures_ite (fun _ => ?_) fun _ => takeNext_orderly cfg cur hs i
      exact (putValue_orderly hs _).bind fun r hr =>
        ensures_ite (fun _ => ensures_ret (a := Ctl.quit r.1 r.2) hr) fun _ =>
          ensures_ret (a := Ctl.cont r.2 i) hr

theorem unnamedArg_orderly (he : e ≠ 0) (cfg : ArgConfig) (cur : List Byte) {s : VS AArg}
    (h : Orderly pre a e s.v s.w) (i num : Nat) :
    Ensures (unnamedArg cfg cur s i num) (CtlOrderly pre a e) :=
  ensures_ite (fun _ => ensures_ret (a := Ctl.fail _ _ s) h) fun _ => (newArg_orderly he h).bind fun r hr =>
    ensures_ite (fun _ => ensures_ret (a := Ctl.quit r.1 r.2) hr) fun _ =>
      (putValue_orderly hr _).bind fun r hr =>
        ensures_ite (fun _ => ensures_ret (a := Ctl.quit r.1 r.2) hr) fun _ =>
          ensures_ret (a := Ctl.cont r.2 i) hr

theorem finishTok_orderly (num : Nat) (acc : Bool) {c : Ctl} (h : CtlOrderly pre a e c) :
    Ensures (finishTok num acc c) (LoopOrderly pre a e) := by
  cases c <;> exact ensures_ret h

theorem argToken_orderly (he : e ≠ 0) (cfg : ArgConfig) {p : PState} (h : Orderly pre a e p.s.v p.s.w) :
    Ensures (argToken cfg p) (LoopOrderly pre a e) := by
  refine (ensures_any _).bind fun cur _ => (ensures_any _).bind fun len _ => (ensures_any _).bind fun dd _ =>
    ensures_ite (fun _ => ensures_ite (fun _ => ensures_ret (a := LoopRes.done _) h) fun _ =>
      (longArg_orderly he cfg cur h _).bind fun _ hc => finishTok_orderly _ _ hc) fun _ =>
    (ensures_any _).bind fun sd _ => ?_
  refine Ensures.bind (Q := CtlOrderly pre a e) ?_ fun c hc => ?_
  · exact ensures_ite (fun _ => shortLoop_orderly he cfg cur _ _ _ h) fun _ => ensures_ret (a := Ctl.fall _ _) h
  · cases c with
    | fall s i => exact (unnamedArg_orderly he cfg cur hc _ _).bind fun _ hc => finishTok_orderly _ _ hc
    | cont s i => exact finishTok_orderly _ _ hc
    | fail x y s => exact finishTok_orderly _ _ hc
    | quit x s => exact finishTok_orderly _ _ hc

theorem argLoop_orderly (he : e ≠ 0) (cfg : ArgConfig) : ∀ (n : Nat) {p : PState},
    Orderly pre a e p.s.v p.s.w → Ensures (argLoop cfg n p) (LoopOrderly pre a e)
  | 0, p, h => ensures_ite (fun _ => ensures_ub) fun _ => ensures_ret (a := LoopRes.done p) h
  | n + 1, p, h => by
    refine ensures_ite (fun _ => (argToken_orderly he cfg h).bind fun r hr => ?_) fun _ =>
      ensures_ret (a := LoopRes.done p) h
    cases r with
    | done q => exact argLoop_orderly he cfg n (p := { q with i := q.i + 1 }) hr
    | fail x y s => exact ensures_ret (a := LoopRes.fail x y s) hr
    | quit x s => exact ensures_ret (a := LoopRes.quit x s) hr

/-- All requests since `pre` were proper, and what is still held is held by the vector. -/
def Accounted (pre : List (Event AArg)) (o : Option (Vec AArg)) (w : World AArg) : Prop :=
  (∃ es, w.trace = pre ++ es ∧ requests es = some none) ∨ ∃ v, o = some v ∧ v.allocator ≠ none ∧ Proper pre ⟨v, w⟩

theorem Orderly.accounted {b : Nat} {v : Vec AArg} {w : World AArg} (h : Orderly pre (some b) e v w) :
    Accounted pre (some v) w :=
  Or.inr ⟨v, rfl, by rw [h.al]; simp, Orderly.proper (s := ⟨v, w⟩) h⟩

theorem argFail_accounted {b : Nat} {s : VS AArg} (he : e ≠ 0) (h : Orderly pre (some b) e s.v s.w)
    (st : Status) (t : ErrTok) : Ensures (argFail st t s) fun r => Accounted pre r.vec r.w := by
  refine (vecDestroy_requests he h).bind fun r hr => ?_
  have key : Accounted pre (some r.2.v) r.2.w := by
    rcases hr with ⟨_, h1⟩ | ⟨_, h1⟩
    · exact h1.accounted
    · exact Or.inl h1
  exact ensures_ite (fun _ => ensures_ret key) fun _ => ensures_ret key

theorem argParseEx_accounted (w : World AArg) (cfg : ArgConfig) (want : Bool) (al : Option Nat) :
    Ensures (argParseEx w cfg want al) fun r => Accounted w.trace r.vec r.w := by
  unfold argParseEx
  refine ensures_ite (fun _ => ensures_ret (Or.inl ⟨[], by simp, rfl⟩)) fun _ =>
    (ensures_any _).bind fun ok _ => ensures_ite (fun _ => ensures_ret (Or.inl ⟨[], by simp, rfl⟩)) fun _ => ?_
  generalize hR : vecInitEx w argSize cfg.argc false al 2 4 = R
  obtain ⟨st, o, w'⟩ := R
  simp only
  refine ensures_ite (fun hf => ensures_ret (Or.inl (vecInitEx_failed hR hf))) fun hf => ?_
  cases o with
  | none => exact ensures_ub
  | some v =>
    cases al with
    | none => simp [vecInitEx] at hR
    | some al =>
      obtain ⟨he, h⟩ := vecInitEx_orderly hR (Bool.eq_false_iff.2 hf)
      refine (argLoop_orderly he cfg _ (p := ⟨⟨v, w'⟩, 1, true, 0⟩) h).bind fun l hl => ?_
      cases l with
      | fail x t s => exact argFail_accounted he hl _ _
      | quit x s => exact ensures_ret (Orderly.accounted hl)
      | done p =>
        have hl' : Orderly w.trace (some al) argSize p.s.v p.s.w := hl
        refine ensures_ite (fun _ => argFail_accounted he hl' _ _) fun _ => (ensures_any _).bind fun q _ =>
          ensures_ite (fun _ => ensures_ret hl'.accounted) fun _ => ?_
        split
        · exact argFail_accounted he hl' _ _
        · exact ensures_ret hl'.accounted

end Args

end Zy
