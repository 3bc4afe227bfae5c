import Verif.Lemmas.VectorBytes

/-!
# The vector functions on elements and on bytes

For every function: if the version on elements returns, the version on bytes returns the same.
-/

namespace Zy

open Spec

/-- The same state, with element size `e`. -/
def ST (e : Nat) (s : VS Elem) (t : VB) : Prop := SameState s t ∧ s.v.esz = e

/-- The same result, with element size `e`. -/
def SR (e : Nat) (r : Status × VS Elem) (r' : Status × VB) : Prop := r'.1 = r.1 ∧ ST e r.2 r'.2

variable {e : Nat} {s : VS Elem} {t : VB}

theorem ST.esz' (h : ST e s t) : t.v.esz = e := h.1.1.esz.trans h.2

theorem ST.off (h : ST e s t) (i : Nat) : byteOffset t.v i = mul64 i e := by
  unfold byteOffset; rw [h.esz']

theorem ST.data (h : ST e s t) : SameData e s.v.data t.v.data := h.2 ▸ h.1.1.data

theorem ST.world (h : ST e s t) : SameWorld e s.w t.w := h.2 ▸ h.1.2

theorem sim_withData {β γ : Type} {R : β → γ → Prop} {d : Option (Block Elem)} {d' : Option (Block Byte)}
    (h : SameData e d d') {f : Block Elem → Out β} {g : Block Byte → Out γ}
    (hf : ∀ b b', SameBlock e b b' → Sim R (f b) (g b')) : Sim R (withData d f) (withData d' g) := by
  cases d with
  | none => exact sim_ub
  | some b =>
    cases d' with
    | none => exact absurd h id
    | some b' => exact hf b b' h

theorem SameBlock.data {b : Block Elem} {b' : Block Byte} (h : SameBlock e b b') :
    SameData e (some b) (some b') := h

theorem SameBlock.moved {b : Block Elem} {b' : Block Byte} (hb : SameBlock e b b') {cs : List (Cell Elem)}
    {ms : List (Cell Byte)} (hm : Packs e cs ms ∧ ms.length = b'.cells.length) :
    SameData e (some { b with cells := cs }) (some { b' with cells := ms }) :=
  ⟨hb.1, hm.1, by show ms.length < _; rw [hm.2]; exact hb.2.2⟩

theorem same_log {w w' : World Elem} (h : SameWorld e w w') {x y : Event Elem} (hx : SameEvent e x y) :
    SameWorld e (w.log x) (w'.log y) := ⟨h.1, h.2.1, h.2.2.1, .snoc h.2.2.2 hx⟩

theorem same_called {w w' : World Elem} (h : SameWorld e w w') :
    SameWorld e { w with calls := w.calls + 1 } { w' with calls := w'.calls + 1 } :=
  ⟨h.1, congrArg (· + 1) h.2.1, h.2.2.1, h.2.2.2⟩

theorem same_allocate {w w' : World Elem} (h : SameWorld e w w') (he : 0 < e) (a n : Nat) :
    (allocateB w' a e n).1 = (allocate w a e n).1 ∧
    SameData e (allocate w a e n).2.1 (allocateB w' a e n).2.1 ∧
    SameWorld e (allocate w a e n).2.2 (allocateB w' a e n).2.2 := by
  have h1 : w'.oracle w'.calls = w.oracle w.calls := by rw [h.1, h.2.1]
  unfold allocate allocateB
  simp only [h1]
  by_cases hf : failed (w.oracle w.calls) = true
  · rw [if_pos hf, if_pos hf]
    exact ⟨rfl, trivial, same_log (same_called h) rfl⟩
  · rw [if_neg hf, if_neg hf]
    refine ⟨rfl, ⟨h.2.2.1, Packs.fresh he _ _ (by simp [grantedCells]), ?_⟩, ?_⟩
    · rw [List.length_replicate]; exact Nat.mod_lt _ (by decide)
    · simp only [h.2.2.1]
      refine same_log (x := .alloc a w.nextBlk e n) (y := .alloc a w.nextBlk e n) ?_ rfl
      exact ⟨h.1, congrArg (· + 1) h.2.1, rfl, h.2.2.2⟩

theorem same_reallocBlock {w w' : World Elem} (h : SameWorld e w w') {b : Block Elem} {b' : Block Byte}
    (hb : SameBlock e b b') (a n : Nat) :
    (reallocBlockB w' a b' e n).1 = (reallocBlock w a b e n).1 ∧
    SameBlock e (reallocBlock w a b e n).2.1 (reallocBlockB w' a b' e n).2.1 ∧
    SameWorld e (reallocBlock w a b e n).2.2 (reallocBlockB w' a b' e n).2.2 := by
  have h1 : w'.oracle w'.calls = w.oracle w.calls := by rw [h.1, h.2.1]
  unfold reallocBlock reallocBlockB
  simp only [h1]
  by_cases hf : failed (w.oracle w.calls) = true
  · rw [if_pos hf, if_pos hf]
    exact ⟨rfl, hb, same_log (same_called h) rfl⟩
  · rw [if_neg hf, if_neg hf]
    refine ⟨rfl, ⟨h.2.2.1, ?_, ?_⟩, ?_⟩
    · show Packs e (b.cells.take (grantedCells e n) ++ _) _
      unfold grantedCells
      generalize mul64 e n = M
      have hp := hb.2.1
      have hl := hp.length_eq
      rcases Nat.le_total M b'.cells.length with hM | hM
      · have h2 : M / e - b.cells.length = 0 := by
          have := Nat.div_le_div_right (c := e) hM
          omega
        have h3 : M - b'.cells.length = 0 := by omega
        rw [h2, h3]
        simpa using hp.cut M hM
      · have h2 : b.cells.take (M / e) = b.cells := by
          refine List.take_of_length_le ?_
          have := Nat.div_le_div_right (c := e) hM
          omega
        have h3 : b'.cells.take M = b'.cells := List.take_of_length_le hM
        rw [h2, h3]
        have := hp.grow (List.replicate (M - b'.cells.length) none)
        rwa [List.length_replicate, Nat.add_sub_cancel' hM] at this
    · have hm : mul64 e n < 2 ^ 64 := Nat.mod_lt _ (by decide)
      show (b'.cells.take (mul64 e n) ++ List.replicate (mul64 e n - b'.cells.length) none).length < 2 ^ 64
      rw [List.length_append, List.length_take, List.length_replicate]
      omega
    · simp only [h.2.2.1, hb.1]
      refine same_log (x := .realloc a b.id w.nextBlk e n) (y := .realloc a b.id w.nextBlk e n) ?_ rfl
      exact ⟨h.1, congrArg (· + 1) h.2.1, rfl, h.2.2.2⟩

theorem same_deallocate {w w' : World Elem} (h : SameWorld e w w') {b : Block Elem} {b' : Block Byte}
    (hb : SameBlock e b b') (a n : Nat) :
    (deallocateB w' a b' e n).1 = (deallocate w a b e n).1 ∧
    SameWorld e (deallocate w a b e n).2 (deallocateB w' a b' e n).2 := by
  have h1 : w'.oracle w'.calls = w.oracle w.calls := by rw [h.1, h.2.1]
  unfold deallocate deallocateB
  simp only [h1]
  by_cases hf : failed (w.oracle w.calls) = true
  · rw [if_pos hf, if_pos hf]
    exact ⟨rfl, same_log (same_called h) rfl⟩
  · rw [if_neg hf, if_neg hf]
    refine ⟨rfl, ?_⟩
    simp only [hb.1]
    exact same_log (same_called h) rfl

/-- New data, size and capacity. -/
theorem ST.upd (h : ST e s t) {d : Option (Block Elem)} {d' : Option (Block Byte)} (hd : SameData e d d')
    {n n' c c' : Nat} (hn : n' = n) (hc : c' = c) {w w' : World Elem} (hw : SameWorld e w w') :
    ST e ⟨{ s.v with size := n, cap := c, data := d }, w⟩ ⟨{ t.v with size := n', cap := c', data := d' }, w'⟩ := by
  obtain ⟨⟨⟨h1, h2, h3, h4, h5, h6, h7, h8, h9⟩, h10⟩, rfl⟩ := h
  exact ⟨⟨⟨h1, h2, h3, hn, hc, h6, h7, hd, h9⟩, hw⟩, rfl⟩

/-- The same, for goals in which fields of `t` were rewritten. -/
theorem ST.close (h : ST e s t) {d : Option (Block Elem)} {d' : Option (Block Byte)} {n n' c c' y z : Nat}
    (hy : y = e) (hz : z = e) (hn : n' = n) (hc : c' = c) {w w' : World Elem} (hd : SameData e d d') (hw : SameWorld e w w') :
    ST e ⟨{ s.v with size := n, cap := c, esz := y, data := d }, w⟩
      ⟨{ t.v with size := n', cap := c', esz := z, data := d' }, w'⟩ := by
  obtain ⟨⟨⟨h1, h2, h3, h4, h5, h6, h7, h8, h9⟩, h10⟩, rfl⟩ := h
  subst hy hz
  exact ⟨⟨⟨h1, h2, h3, hn, hc, rfl, h7, hd, h9⟩, hw⟩, rfl⟩

/-- The remaining fields agree. -/
macro "same_fields" h:ident hd:term:max hw:term:max : tactic =>
  `(tactic| exact ST.close $h (by first | rfl | exact ($h).2) (by first | rfl | exact ST.esz' $h) (by first | rfl | exact ($h).1.1.size)
      (by first | rfl | exact ($h).1.1.cap) $hd $hw)

theorem ST.setData (h : ST e s t) {b : Block Elem} {b' : Block Byte} (hd : SameBlock e b b') :
    ST e { s with v := { s.v with data := some b } } { t with v := { t.v with data := some b' } } :=
  h.upd hd.data h.1.1.size h.1.1.cap h.world

theorem ST.setSize (h : ST e s t) (n : Nat) :
    ST e { s with v := { s.v with size := n } } { t with v := { t.v with size := n } } :=
  h.upd h.data rfl h.1.1.cap h.world

theorem ST.setBoth (h : ST e s t) {b : Block Elem} {b' : Block Byte} (hd : SameBlock e b b') (n : Nat) :
    ST e { s with v := { s.v with data := some b, size := n } }
      { t with v := { t.v with data := some b', size := n } } :=
  h.upd hd.data rfl h.1.1.cap h.world

theorem ST.setWorld (h : ST e s t) {w w' : World Elem} (hw : SameWorld e w w') :
    ST e { s with w := w } { t with w := w' } :=
  h.upd h.data h.1.1.size h.1.1.cap hw

theorem sim_reallocTo (h : ST e s t) (a c : Nat) : Sim (SR e) (reallocTo s a c) (reallocToB t a c) := by
  unfold reallocTo reallocToB
  refine sim_withData h.data fun b b' hb => ?_
  rw [h.2, h.esz']
  have hr := same_reallocBlock h.world hb a c
  dsimp only
  refine sim_ite (by rw [hr.1]) (fun _ => sim_ret ⟨hr.1, ?_⟩) (fun _ => sim_ret ⟨rfl, ?_⟩)
  all_goals exact h.upd hr.2.1.data h.1.1.size rfl hr.2.2

theorem sim_reallocate (h : ST e s t) (c : Nat) : Sim (SR e) (reallocate s c) (reallocateB t c) := by
  unfold reallocate reallocateB
  rw [h.1.1.allocator, h.1.1.cap]
  cases s.v.allocator with
  | none => exact sim_ite Iff.rfl (fun _ => sim_ret ⟨rfl, h⟩) fun _ => sim_ret ⟨rfl, h⟩
  | some a =>
    refine sim_ite Iff.rfl (fun _ => ?_) (fun _ => sim_reallocTo h a c)
    exact sim_ite Iff.rfl (fun _ => sim_reallocTo h a 1) fun _ => sim_ret ⟨rfl, h⟩

theorem sim_shiftLeft (h : ST e s t) (i n : Nat) : Sim (ST e) (shiftLeft s i n) (shiftLeftB t i n) := by
  unfold shiftLeft shiftLeftB
  rw [h.off, h.off, h.esz', h.1.1.size]
  refine sim_withData h.data fun b b' hb => ?_
  exact sim_bind (sim_memmove hb.2.1 hb.2.2 _ _ _) fun cs ms hm =>
    sim_ret (by same_fields h ((SameBlock.moved hb hm)) (h.world))

theorem sim_shiftRight (h : ST e s t) (i n : Nat) : Sim (ST e) (shiftRight s i n) (shiftRightB t i n) := by
  unfold shiftRight shiftRightB
  rw [h.off, h.off, h.esz', h.1.1.size]
  refine sim_withData h.data fun b b' hb => ?_
  exact sim_bind (sim_memmove hb.2.1 hb.2.2 _ _ _) fun cs ms hm =>
    sim_ret (by same_fields h ((SameBlock.moved hb hm)) (h.world))

theorem sim_destroyLoop (n : Nat) : ∀ {s : VS Elem} {t : VB} (_ : ST e s t) (i : Nat),
    Sim (ST e) (destroyLoop s i n) (destroyLoopB t i n) := by
  induction n with
  | zero => intro s t h i; exact sim_ret h
  | succ n ih =>
    intro s t h i
    simp only [destroyLoop, destroyLoopB]
    rw [h.off, h.esz']
    refine sim_withData h.data fun b b' hb => ?_
    cases hx : b.cells[i]? with
    | none => exact sim_ub
    | some x =>
      obtain ⟨bs, hbs, hB⟩ := read_one hb.2.1 hb.2.2 hx
      rw [hbs, Out.ret_bind']
      exact ih (h.setWorld (same_log h.world (by exact ⟨bs, rfl, hB⟩))) (i + 1)

theorem sim_runDtors (h : ST e s t) (lo hi : Nat) : Sim (ST e) (runDtors s lo hi) (runDtorsB t lo hi) := by
  unfold runDtors runDtorsB
  rw [h.1.1.hasDtor]
  exact sim_ite Iff.rfl (fun _ => sim_destroyLoop _ h lo) fun _ => sim_ret h

theorem sim_destroy (h : ST e s t) : Sim (SR e) (vecDestroy s) (vecDestroyB t) := by
  unfold vecDestroy vecDestroyB
  rw [h.1.1.size]
  refine sim_bind (sim_runDtors h 0 _) fun s t h => ?_
  rw [h.1.1.allocator]
  cases s.v.allocator with
  | none => exact sim_ret ⟨rfl, by same_fields h (show SameData e none none from trivial) (h.world)⟩
  | some a =>
    dsimp only
    rw [h.1.1.cap]
    refine sim_ite Iff.rfl (fun _ => ?_) (fun _ => sim_ret ⟨rfl, by same_fields h (show SameData e none none from trivial) (h.world)⟩)
    refine sim_withData h.data fun b b' hb => ?_
    rw [h.2, h.esz']
    have hr := same_deallocate h.world hb a s.v.cap
    refine sim_ite (by rw [hr.1]) (fun _ => sim_ret ⟨hr.1, by same_fields h (h.data) (hr.2)⟩) (fun _ => sim_ret ⟨rfl, ?_⟩)
    same_fields h (show SameData e none none from trivial) (hr.2)

theorem isNull_same {src : Src Elem} {src' : Src Byte} (h : SameSrc e src src') : src'.isNull = src.isNull := by
  cases src <;> cases src' <;> first | rfl | exact absurd h id

theorem sim_set (h : ST e s t) {src : Src Elem} {src' : Src Byte} (hs : SameSrc e src src') (i : Nat) :
    Sim (SR e) (vecSet s i src) (vecSetB t i src') := by
  unfold vecSet vecSetB
  rw [isNull_same hs, h.1.1.size]
  refine sim_ite Iff.rfl (fun _ => sim_ret ⟨rfl, h⟩) fun _ => ?_
  refine sim_ite Iff.rfl (fun _ => sim_ret ⟨rfl, h⟩) fun _ => ?_
  refine sim_bind (sim_runDtors h _ _) fun s t h => ?_
  rw [h.off, h.esz']
  refine sim_withData h.data fun b b' hb => ?_
  exact sim_bind (sim_memcpyIn_one hb hs i) fun b b' hb => sim_ret ⟨rfl, by same_fields h (hb.data) (h.world)⟩

theorem sim_growFor (h : ST e s t) (n : Nat) : Sim (SR e) (growFor s n) (growForB t n) := by
  unfold growFor growForB
  rw [h.1.1.cap, h.1.1.growth]
  exact sim_ite Iff.rfl (fun _ => sim_reallocate h _) fun _ => sim_ret ⟨rfl, h⟩

theorem sim_pushBack (h : ST e s t) {src : Src Elem} {src' : Src Byte} (hs : SameSrc e src src') :
    Sim (SR e) (vecPushBack s src) (vecPushBackB t src') := by
  unfold vecPushBack vecPushBackB
  rw [isNull_same hs, h.1.1.size]
  refine sim_ite Iff.rfl (fun _ => sim_ret ⟨rfl, h⟩) fun _ => ?_
  refine sim_bind (sim_growFor h _) fun r r' hr => ?_
  refine sim_ite (by rw [hr.1]) (fun _ => sim_ret hr) fun _ => ?_
  have h := hr.2
  dsimp only
  rw [h.off, h.esz', h.1.1.size]
  refine sim_withData h.data fun b b' hb => ?_
  exact sim_bind (sim_memcpyIn_one hb hs _) fun b b' hb => sim_ret ⟨rfl, by same_fields h (hb.data) (h.world)⟩

theorem sim_insertRange (h : ST e s t) {src : Src Elem} {src' : Src Byte} (hs : SameSrc e src src')
    (i n : Nat) : Sim (SR e) (vecInsertRange s i src n) (vecInsertRangeB t i src' n) := by
  unfold vecInsertRange vecInsertRangeB
  rw [isNull_same hs, h.1.1.size]
  refine sim_ite Iff.rfl (fun _ => sim_ret ⟨rfl, h⟩) fun _ => ?_
  refine sim_ite Iff.rfl (fun _ => sim_ret ⟨rfl, h⟩) fun _ => ?_
  refine sim_bind (sim_growFor h _) fun r r' hr => ?_
  refine sim_ite (by rw [hr.1]) (fun _ => sim_ret hr) fun _ => ?_
  have h := hr.2
  dsimp only
  rw [h.1.1.size]
  refine sim_bind (R := ST e) (sim_ite Iff.rfl (fun _ => sim_shiftRight h i n) fun _ => sim_ret h)
    fun s t h => ?_
  rw [h.off, h.esz', h.1.1.size]
  refine sim_withData h.data fun b b' hb => ?_
  exact sim_bind (sim_memcpyIn hb hs _ _) fun b b' hb => sim_ret ⟨rfl, by same_fields h (hb.data) (h.world)⟩

/-- Writing of the bytes of one element. -/
theorem sim_writeOne {b : Block Elem} {b' : Block Byte} (hb : SameBlock e b b') {i : Nat}
    (hi : i < b.cells.length) {y : Cell Elem} {bs : Elem} (hy : BytesOf e y bs) :
    ∃ cs, writeRange b'.cells (mul64 i e) bs = .ret cs ∧
      SameBlock e { b with cells := b.cells.set i y } { b' with cells := cs } := by
  have hp := hb.2.1.pos
  have hX : PacksX e [y] bs := ⟨packs_one hy hp, by simpa using hy.1⟩
  have hw : writeRange b.cells i [y] = .ret (b.cells.set i y) := by
    unfold writeRange
    rw [if_pos (show i + [y].length ≤ _ from hi)]
    congr 1
    rw [List.set_eq_take_append_cons_drop, if_pos hi]
    simp
  obtain ⟨cs, h1, h2⟩ := sim_write hb.2.1 hb.2.2 hX i _ hw
  exact ⟨cs, h1, hb.1, h2.1, by show cs.length < _; rw [h2.2]; exact hb.2.2⟩

theorem sim_emplace (h : ST e s t) {c : Ctor Elem} {c' : CtorB} (hc : SameCtor e c c') (i : Nat) :
    Sim (SR e) (vecEmplaceEx s i c) (vecEmplaceExB t i c') := by
  unfold vecEmplaceEx vecEmplaceExB
  rw [h.1.1.size]
  refine sim_ite Iff.rfl (fun _ => sim_ret ⟨rfl, h⟩) fun _ => ?_
  refine sim_bind (sim_growFor h _) fun r r' hr => ?_
  refine sim_ite (by rw [hr.1]) (fun _ => sim_ret hr) fun _ => ?_
  have h := hr.2
  dsimp only
  rw [h.1.1.size]
  refine sim_bind (R := ST e) (sim_ite Iff.rfl (fun _ => sim_shiftRight h i 1) fun _ => sim_ret h)
    fun s t h => ?_
  cases c with
  | none =>
    cases c' with
    | some _ => exact absurd hc id
    | none =>
      dsimp only
      rw [h.1.1.size]
      exact sim_ret ⟨rfl, by same_fields h (h.data) (h.world)⟩
  | some c =>
    cases c' with
    | none => exact absurd hc id
    | some c' =>
      dsimp only
      rw [h.off, h.esz', h.1.1.size]
      refine sim_withData h.data fun b b' hb => ?_
      cases hx : b.cells[i]? with
      | none => exact sim_ub
      | some x =>
        obtain ⟨bs, hbs, hB⟩ := read_one hb.2.1 hb.2.2 hx
        obtain ⟨h1, h2⟩ := hc x bs hB
        obtain ⟨cs, hcs, hb2⟩ := sim_writeOne hb (List.getElem?_eq_some_iff.1 hx).1 h2
        rw [hbs, Out.ret_bind']
        dsimp only
        rw [hcs, Out.ret_bind']
        exact sim_ite (by rw [h1]) (fun _ => sim_ret ⟨h1, by same_fields h (hb2.data) (h.world)⟩)
          fun _ => sim_ret ⟨rfl, by same_fields h (hb2.data) (h.world)⟩

/-- One `memmove` of one element. -/
theorem sim_moveOne {xs : List (Cell Elem)} {mem : List (Cell Byte)} {L : Nat}
    (h : Packs e xs mem ∧ mem.length = L) (hL : L < 2 ^ 64) (dst src : Nat) :
    Sim (fun cs ms => Packs e cs ms ∧ ms.length = L) (memmoveCells xs dst src 1)
      (memmoveCells mem (mul64 dst e) (mul64 src e) e) := by
  obtain ⟨hp, rfl⟩ := h
  rcases Nat.eq_zero_or_pos xs.length with h0 | h0
  · unfold memmoveCells readRange
    rw [if_neg (by omega)]
    exact sim_ub
  · have := sim_memmove hp hL dst src 1
    rwa [one_elem_of_lt hp hL h0] at this

theorem sim_swap (h : ST e s t) (i j : Nat) : Sim (SR e) (vecSwap s i j) (vecSwapB t i j) := by
  unfold vecSwap vecSwapB
  rw [h.off, h.off, h.off, h.1.1.size, h.1.1.cap, h.esz']
  refine sim_ite Iff.rfl (fun _ => sim_ret ⟨rfl, h⟩) fun _ => ?_
  refine sim_ite Iff.rfl (fun _ => sim_ret ⟨rfl, h⟩) fun _ => ?_
  refine sim_withData h.data fun b b' hb => ?_
  refine sim_bind (sim_moveOne ⟨hb.2.1, rfl⟩ hb.2.2 _ _) fun cs ms hm => ?_
  refine sim_bind (sim_moveOne hm hb.2.2 _ _) fun cs ms hm => ?_
  refine sim_bind (sim_moveOne hm hb.2.2 _ _) fun cs ms hm => ?_
  exact sim_ret ⟨rfl, by same_fields h ((SameBlock.moved hb hm)) (h.world)⟩

theorem sim_shrinkAfter (h : ST e s t) : Sim (SR e) (shrinkAfter s) (shrinkAfterB t) := by
  unfold shrinkAfter shrinkAfterB
  rw [h.1.1.size, h.1.1.cap, h.1.1.shrink, h.1.1.growth]
  exact sim_ite Iff.rfl (fun _ => sim_reallocate h _) fun _ => sim_ret ⟨rfl, h⟩

theorem sim_deleteRange (h : ST e s t) (i n : Nat) :
    Sim (SR e) (vecDeleteRange s i n) (vecDeleteRangeB t i n) := by
  unfold vecDeleteRange vecDeleteRangeB
  rw [h.1.1.size]
  refine sim_ite Iff.rfl (fun _ => sim_ret ⟨rfl, h⟩) fun _ => ?_
  refine sim_ite Iff.rfl (fun _ => sim_ret ⟨rfl, h⟩) fun _ => ?_
  refine sim_bind (sim_runDtors h _ _) fun s t h => ?_
  rw [h.1.1.size]
  refine sim_bind (R := ST e) (sim_ite Iff.rfl (fun _ => sim_shiftLeft h i n) fun _ => sim_ret h)
    fun s t h => ?_
  rw [h.1.1.size]
  exact sim_shrinkAfter (h.setSize _)

theorem sim_popBack (h : ST e s t) : Sim (SR e) (vecPopBack s) (vecPopBackB t) := by
  unfold vecPopBack vecPopBackB
  rw [h.1.1.size]
  refine sim_ite Iff.rfl (fun _ => sim_ret ⟨rfl, h⟩) fun _ => ?_
  refine sim_bind (sim_runDtors h _ _) fun s t h => ?_
  rw [h.1.1.size]
  exact sim_shrinkAfter (h.setSize _)

theorem sim_fillLoop (v : Vec Byte) (hv : v.esz = e) {src : Src Elem} {src' : Src Byte}
    (hs : SameSrc e src src') (n : Nat) :
    ∀ {b : Block Elem} {b' : Block Byte} (_ : SameBlock e b b') (i : Nat),
      Sim (SameBlock e) (fillLoop b src i n) (fillLoopB v b' src' i n) := by
  induction n with
  | zero => intro b b' h i; exact sim_ret h
  | succ n ih =>
    intro b b' h i
    simp only [fillLoop, fillLoopB, byteOffset, hv]
    exact sim_bind (sim_memcpyIn_one h hs i) fun b b' h => ih h (i + 1)

theorem sim_resizeEx (h : ST e s t) {src : Src Elem} {src' : Src Byte} (hs : SameSrc e src src') (n : Nat) :
    Sim (SR e) (vecResizeEx s n src) (vecResizeExB t n src') := by
  unfold vecResizeEx vecResizeExB
  rw [h.1.1.size]
  refine sim_ite Iff.rfl (fun _ => sim_ret ⟨rfl, h⟩) fun _ => ?_
  refine sim_bind (R := ST e) (sim_ite Iff.rfl (fun _ => sim_runDtors h _ _) fun _ => sim_ret h)
    fun s t h => ?_
  rw [h.1.1.cap, h.1.1.shrink, h.1.1.growth]
  refine sim_bind (R := SR e) (sim_ite Iff.rfl (fun _ => sim_reallocate h _) fun _ => sim_ret ⟨rfl, h⟩)
    fun r r' hr => ?_
  refine sim_ite (by rw [hr.1]) (fun _ => sim_ret hr) fun _ => ?_
  have h := hr.2
  dsimp only
  rw [h.1.1.size, isNull_same hs]
  refine sim_ite Iff.rfl (fun _ => ?_) fun _ => sim_ret ⟨rfl, by same_fields h (h.data) (h.world)⟩
  refine sim_withData h.data fun b b' hb => ?_
  exact sim_bind (sim_fillLoop _ h.esz' hs _ hb _) fun b b' hb => sim_ret ⟨rfl, by same_fields h (hb.data) (h.world)⟩

theorem sim_reserve (h : ST e s t) (c : Nat) : Sim (SR e) (vecReserve s c) (vecReserveB t c) := by
  unfold vecReserve vecReserveB
  rw [h.1.1.cap]
  refine sim_ite Iff.rfl (fun _ => ?_) fun _ => sim_ret ⟨rfl, h⟩
  refine sim_bind (sim_reallocate h _) fun r r' hr => ?_
  exact sim_ite (by rw [hr.1]) (fun _ => sim_ret hr) fun _ => sim_ret ⟨rfl, hr.2⟩

theorem sim_shrinkToFit (h : ST e s t) : Sim (SR e) (vecShrinkToFit s) (vecShrinkToFitB t) := by
  unfold vecShrinkToFit vecShrinkToFitB
  rw [h.1.1.size]
  exact sim_reallocate h _

theorem sim_op (h : ST e s t) {op : VOp Elem} {op' : VOpB} (ho : SameOp e op op') :
    Sim (SR e) (vecOp s op) (vecOpB t op') := by
  have he : 0 < e := h.2 ▸ h.1.1.pos
  cases op <;> cases op' <;> try exact absurd ho id
  case push.push => exact sim_pushBack h (src := .ext [_]) (src' := .ext _) (packs_one ho he)
  case insertRange.insertRange =>
    obtain ⟨rfl, rfl, hp⟩ := ho
    exact sim_insertRange h (show SameSrc e (.ext _) (.ext _) from hp) _ _
  case emplace.emplace => obtain ⟨rfl, hc⟩ := ho; exact sim_emplace h hc _
  case set.set => obtain ⟨rfl, hx⟩ := ho; exact sim_set h (src := .ext [_]) (src' := .ext _) (packs_one hx he) _
  case swap.swap => obtain ⟨rfl, rfl⟩ := ho; exact sim_swap h _ _
  case deleteRange.deleteRange => obtain ⟨rfl, rfl⟩ := ho; exact sim_deleteRange h _ _
  case pop.pop => exact sim_popBack h
  case clear.clear => exact sim_resizeEx h (src := .null) (src' := .null) trivial 0
  case resize.resize n init n' init' =>
    obtain ⟨rfl, hi⟩ := ho
    cases init <;> cases init' <;> try exact absurd hi id
    · exact sim_resizeEx h (src := .null) (src' := .null) trivial _
    · exact sim_resizeEx h (src := .ext [_]) (src' := .ext _) (packs_one hi he) _
  case reserve.reserve => obtain rfl := ho; exact sim_reserve h _
  case shrinkToFit.shrinkToFit => exact sim_shrinkToFit h

/-! ## Construction and duplication -/

/-- The same vector or none, and the same world. -/
def SameMade (e : Nat) (r : Status × Option (Vec Elem) × World Elem)
    (r' : Status × Option (Vec Byte) × World Elem) : Prop :=
  r'.1 = r.1 ∧ SameWorld e r.2.2 r'.2.2 ∧
  match r.2.1, r'.2.1 with
  | none, none => True
  | some v, some v' => SameVec v v' ∧ v.esz = e
  | _, _ => False

theorem same_initEx {w w' : World Elem} (h : SameWorld e w w') (c : Nat) (dt : Bool) (al : Option Nat)
    (g th : Nat) : SameMade e (vecInitEx w e c dt al g th) (vecInitExB w' e c dt al g th) := by
  unfold vecInitEx vecInitExB
  cases al with
  | none => exact ⟨rfl, h, trivial⟩
  | some a =>
    dsimp only
    split
    · exact ⟨rfl, h, trivial⟩
    · rename_i hc
      have he : 0 < e := by omega
      obtain ⟨h1, h2, h3⟩ := same_allocate h he a (max 1 c)
      exact ⟨h1, h3, ⟨rfl, rfl, rfl, rfl, rfl, rfl, rfl, h2, he⟩, rfl⟩

theorem same_initBuffer {w w' : World Elem} (h : SameWorld e w w') {b : Option (Block Elem)}
    {b' : Option (Block Byte)} (hb : SameData e b b') (c : Nat) (dt : Bool) :
    SameMade e ((vecInitBuffer e b c dt).1, (vecInitBuffer e b c dt).2, w)
      ((vecInitBufferB e b' c dt).1, (vecInitBufferB e b' c dt).2, w') := by
  unfold vecInitBuffer vecInitBufferB
  cases b with
  | none =>
    cases b' with
    | none => exact ⟨rfl, h, trivial⟩
    | some _ => exact absurd hb id
  | some b =>
    cases b' with
    | none => exact absurd hb id
    | some b' =>
      dsimp only
      split
      · exact ⟨rfl, h, trivial⟩
      · rename_i hc
        exact ⟨rfl, h, ⟨rfl, rfl, rfl, rfl, rfl, rfl, rfl, hb, by show 1 ≤ e; omega⟩, rfl⟩

theorem sim_dupCopy {v d : Vec Elem} {v' d' : Vec Byte} (hv : SameVec v v') (hve : v.esz = e)
    (hd : SameVec d d') (hde : d.esz = e) :
    Sim (fun x x' => SameVec x x' ∧ x.esz = e) (dupCopy d v) (dupCopyB d' v') := by
  unfold dupCopy dupCopyB
  rw [hv.size, hv.esz, hve]
  refine sim_withData (hve ▸ hv.data) fun sb sb' hsb => ?_
  refine sim_withData (hde ▸ hd.data) fun db db' hdb => ?_
  have h0 : mul64 0 e = 0 := by simp [mul64]
  have hr := sim_read hsb.2.1 hsb.2.2 0 v.size
  rw [h0] at hr
  refine sim_bind hr fun xs bs hx => ?_
  have hw := sim_write hdb.2.1 hdb.2.2 hx 0
  rw [h0] at hw
  refine sim_bind hw fun cs ms hm => sim_ret ?_
  subst hde
  exact ⟨⟨hd.allocator, hd.growth, hd.shrink, rfl, hd.cap, hd.esz, hd.hasDtor,
    SameBlock.moved hdb hm, hd.pos⟩, rfl⟩

theorem sim_duplicateEx {w w' : World Elem} (h : SameWorld e w w') {v : Vec Elem} {v' : Vec Byte}
    (hv : SameVec v v') (he : v.esz = e) (c : Nat) (al : Option Nat) (g th : Nat) :
    Sim (SameMade e) (vecDuplicateEx w v c al g th) (vecDuplicateExB w' v' c al g th) := by
  unfold vecDuplicateEx vecDuplicateExB
  rw [hv.esz, hv.size, hv.hasDtor, he]
  have hi := same_initEx h (max c v.size) v.hasDtor al g th
  generalize vecInitEx w e (max c v.size) v.hasDtor al g th = r at hi
  generalize vecInitExB w' e (max c v.size) v.hasDtor al g th = r' at hi
  dsimp only
  refine sim_ite (by rw [hi.1]) (fun _ => sim_ret hi) fun _ => ?_
  obtain ⟨st, d, w1⟩ := r
  obtain ⟨st', d', w1'⟩ := r'
  cases d with
  | none =>
    cases d' with
    | none => exact sim_ret hi
    | some _ => exact absurd hi.2.2 id
  | some d =>
    cases d' with
    | none => exact absurd hi.2.2 id
    | some d' =>
      have hdd : SameVec d d' ∧ d.esz = e := hi.2.2
      exact sim_bind (sim_dupCopy hv he hdd.1 hdd.2) fun x x' hx => sim_ret ⟨rfl, hi.2.1, hx⟩

theorem sim_duplicateBuffer {v : Vec Elem} {v' : Vec Byte} (hv : SameVec v v') (he : v.esz = e)
    {b : Option (Block Elem)} {b' : Option (Block Byte)} (hb : SameData e b b') (c : Nat) :
    Sim (fun r r' => r'.1 = r.1 ∧ (∀ x, r.2 = some x → ∃ x', r'.2 = some x' ∧ SameVec x x' ∧ x.esz = e))
      (vecDuplicateBuffer v b c) (vecDuplicateBufferB v' b' c) := by
  unfold vecDuplicateBuffer vecDuplicateBufferB
  rw [hv.esz, hv.size, hv.hasDtor, he]
  refine sim_ite Iff.rfl (fun _ => sim_ret ⟨rfl, by simp⟩) fun _ => ?_
  have hi := same_initBuffer (w := ⟨fun _ => 0, 0, 0, []⟩) (w' := ⟨fun _ => 0, 0, 0, []⟩)
    ⟨rfl, rfl, rfl, .nil⟩ hb c v.hasDtor
  generalize vecInitBuffer e b c v.hasDtor = r at hi
  generalize vecInitBufferB e b' c v.hasDtor = r' at hi
  obtain ⟨st, d⟩ := r
  obtain ⟨st', d'⟩ := r'
  obtain ⟨h1, _, h2⟩ := hi
  dsimp only at h1 h2 ⊢
  subst h1
  have hd : ∀ x, d = some x → ∃ x', d' = some x' ∧ SameVec x x' ∧ x.esz = e := by
    intro x hx
    subst hx
    cases d' with
    | none => exact absurd h2 id
    | some d' => exact ⟨d', rfl, h2⟩
  refine sim_ite Iff.rfl (fun _ => sim_ret ⟨rfl, hd⟩) fun _ => ?_
  cases d with
  | none =>
    cases d' with
    | none => exact sim_ret ⟨rfl, hd⟩
    | some _ => exact absurd h2 id
  | some d =>
    cases d' with
    | none => exact absurd h2 id
    | some d' =>
      have hdd : SameVec d d' ∧ d.esz = e := h2
      exact sim_bind (sim_dupCopy hv he hdd.1 hdd.2) fun x x' hx =>
        sim_ret ⟨rfl, fun y hy => ⟨x', rfl, by cases hy; exact hx⟩⟩

/-! ## Reading -/

theorem sim_findLoop (v : Vec Byte) (hv : v.esz = e) {xs : List (Cell Elem)} {mem : List (Cell Byte)}
    (hp : Packs e xs mem) (hL : mem.length < 2 ^ 64) (eq : Cell Elem → Bool) (eq' : Elem → Bool) (n : Nat) :
    ∀ (i : Nat), (∀ k x bs, i ≤ k → k < i + n → xs[k]? = some x → BytesOf e x bs → eq' bs = eq x) →
      Sim (fun r r' => r' = r) (findLoop xs eq i n) (findLoopB v mem eq' i n) := by
  induction n with
  | zero => intro i _; exact sim_ret rfl
  | succ n ih =>
    intro i hq
    simp only [findLoop, findLoopB, byteOffset, hv]
    cases hx : xs[i]? with
    | none => exact sim_ub
    | some x =>
      obtain ⟨bs, hbs, hB⟩ := read_one hp hL hx
      rw [hbs, Out.ret_bind']
      dsimp only
      rw [hq i x bs (Nat.le_refl _) (by omega) hx hB]
      exact sim_ite Iff.rfl (fun _ => sim_ret rfl) fun _ =>
        ih (i + 1) fun k x bs h1 h2 => hq k x bs (by omega) (by omega)

theorem sim_bsearchLoop (v : Vec Byte) (hv : v.esz = e) {xs : List (Cell Elem)} {mem : List (Cell Byte)}
    (hp : Packs e xs mem) (hL : mem.length < 2 ^ 64) (cmp : Cell Elem → Int) (cmp' : Elem → Int) (n : Nat) :
    ∀ (l h : Int) (st st' : Status) (log log' : List Nat) (p : Int),
      bsearchLoop xs cmp n l h st log = .ret (st', p, log') →
      (∃ more, log' = log ++ more) ∧
      ((∀ k ∈ log', ∀ x bs, xs[k]? = some x → BytesOf e x bs → cmp' bs = cmp x) →
        bsearchLoopB v mem cmp' n l h st log = .ret (st', p, log')) := by
  induction n with
  | zero => intro l h st st' log log' p hr; cases hr
  | succ n ih =>
    intro l h st st' log log' p hr
    simp only [bsearchLoop] at hr
    simp only [bsearchLoopB, byteOffset, hv]
    split at hr
    · rename_i hlh
      rw [if_pos hlh]
      generalize toU64 (l + (h - l) / 2) = mid at hr ⊢
      cases hx : xs[mid]? with
      | none => rw [hx] at hr; cases hr
      | some x =>
        rw [hx] at hr
        dsimp only at hr
        obtain ⟨bs, hbs, hB⟩ := read_one hp hL hx
        rw [hbs, Out.ret_bind']
        have key : ∀ {l h st}, bsearchLoop xs cmp n l h st (log ++ [mid]) = .ret (st', p, log') →
            (∃ more, log' = log ++ more) ∧
            ((∀ k ∈ log', ∀ x bs, xs[k]? = some x → BytesOf e x bs → cmp' bs = cmp x) →
              cmp' bs = cmp x ∧ bsearchLoopB v mem cmp' n l h st (log ++ [mid]) = .ret (st', p, log')) := by
          intro l h st hr
          obtain ⟨⟨more, hm⟩, h2⟩ := ih _ _ _ _ _ _ _ hr
          refine ⟨⟨mid :: more, by simp [hm]⟩, fun hq => ⟨hq mid ?_ x bs hx hB, h2 hq⟩⟩
          rw [hm]; simp
        split at hr
        · rename_i hc
          obtain ⟨h1, h2⟩ := key hr
          refine ⟨h1, fun hq => ?_⟩
          obtain ⟨h3, h4⟩ := h2 hq
          rw [h3, if_pos hc, h4]
        · rename_i hc
          obtain ⟨h1, h2⟩ := key hr
          refine ⟨h1, fun hq => ?_⟩
          obtain ⟨h3, h4⟩ := h2 hq
          rw [h3, if_neg hc, h4]
    · rename_i hlh
      cases hr
      exact ⟨⟨[], by simp⟩, fun _ => by rw [if_neg hlh]⟩

/-! ## Histories -/

theorem sim_ops : ∀ {ops : List (VOp Elem)} {ops' : List VOpB} {s : VS Elem} {t : VB}, ST e s t →
    SameOps e ops ops' →
    Sim (fun r r' => r'.1 = r.1 ∧ ST e r.2 r'.2) (runVec s ops) (runVecB t ops') := by
  intro ops
  induction ops with
  | nil =>
    intro ops' s t h ho
    cases ho
    exact sim_ret ⟨rfl, h⟩
  | cons op ops ih =>
    intro ops' s t h ho
    cases ho with
    | cons h1 h2 =>
      simp only [runVec, runVecB]
      refine sim_bind (sim_op h h1) fun r r' hr => ?_
      exact sim_bind (ih hr.2 h2) fun q q' hq => sim_ret ⟨by rw [hr.1, hq.1], hq.2⟩

/-- An element of the list is at its place in the bytes. -/
theorem stored_at {s : VS Elem} {t : VB} (h : ST e s t) {xs : List (Cell Elem)}
    (hc : contents s = .ret xs) {k : Nat} {c : Elem} (hk : xs[k]? = some (some c)) :
    (∃ b, t.v.data = some b ∧ (b.cells.drop (k * e)).take e = c) ∧ c.length = e ∧
      vecGetB t k = .ret (some c) := by
  have hd := h.data
  unfold contents at hc
  cases hs : s.v.data with
  | none => rw [hs] at hc; cases hc
  | some b =>
    cases ht : t.v.data with
    | none => rw [hs, ht] at hd; exact absurd hd id
    | some b' =>
      rw [hs, ht] at hd
      rw [hs] at hc
      simp only [withData] at hc
      obtain ⟨h1, h2⟩ := readRange_len hc
      have hkl : k < xs.length := by
        rcases Nat.lt_or_ge k xs.length with h | h
        · exact h
        · rw [List.getElem?_eq_none h] at hk; cases hk
      have hx : b.cells[k]? = some (some c) := by
        unfold readRange at hc
        rw [if_pos h2] at hc
        cases hc
        rw [List.getElem?_take_of_lt (by omega)] at hk
        simpa using hk
      obtain ⟨bs, hbs, hB⟩ := read_one hd.2.1 hd.2.2 hx
      have hbc := hB.2 c rfl
      subst hbc
      have hlk : k < b.cells.length := by
        rcases Nat.lt_or_ge k b.cells.length with h | h
        · exact h
        · rw [List.getElem?_eq_none h] at hx; cases hx
      have hke : mul64 k e = k * e := by
        refine mul64_small (L := b'.cells.length) ?_ hd.2.2
        exact Nat.le_trans (Nat.mul_le_mul_right _ (by omega)) hd.2.1.bounds.1
      refine ⟨⟨b', rfl, ?_⟩, hB.1, ?_⟩
      · rw [hke] at hbs
        unfold readRange at hbs
        split at hbs
        · cases hbs; rfl
        · cases hbs
      · unfold vecGetB
        rw [if_neg (by rw [h.1.1.size]; omega), ht, h.off, h.esz']
        simp only [withData]
        rw [hbs]
        rfl

end Zy
