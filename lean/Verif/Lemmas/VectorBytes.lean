import Verif.Spec.VectorBytes
import Verif.Lemmas.Vector

/-!
# Lemmas about elements and their bytes
-/

namespace Zy

open Spec

/-! ## Packed elements -/

namespace Packs

variable {e : Nat} {xs ys : List (Cell Elem)} {mem mem' : List (Cell Byte)}

theorem bounds (h : Packs e xs mem) : xs.length * e ≤ mem.length ∧ mem.length < (xs.length + 1) * e := by
  induction h with
  | rest tail h => simpa using h
  | @elem x bs xs mem hx h ih =>
    have := hx.1
    simp only [List.length_cons, List.length_append, this, Nat.add_mul, Nat.one_mul] at ih ⊢
    omega

theorem pos (h : Packs e xs mem) : 0 < e := by
  have := h.bounds
  rcases Nat.eq_zero_or_pos e with he | he
  · subst he; omega
  · exact he

theorem drop (h : Packs e xs mem) (i : Nat) (hi : i ≤ xs.length) :
    Packs e (xs.drop i) (mem.drop (i * e)) := by
  induction i generalizing xs mem with
  | zero => simpa using h
  | succ i ih =>
    cases h with
    | rest tail h => simp at hi
    | @elem x bs xs mem hx h =>
      have hl : (i + 1) * e = bs.length + i * e := by rw [hx.1, Nat.add_mul]; omega
      rw [hl, List.drop_append]
      have h1 : List.drop (bs.length + i * e) bs = [] := List.drop_eq_nil_of_le (by omega)
      rw [h1, List.nil_append, Nat.add_sub_cancel_left]
      exact ih h (by simpa using hi)

theorem take (h : Packs e xs mem) (n : Nat) (hn : n ≤ xs.length) :
    Packs e (xs.take n) (mem.take (n * e)) := by
  induction n generalizing xs mem with
  | zero => simpa using Packs.rest [] h.pos
  | succ n ih =>
    cases h with
    | rest tail h => simp at hn
    | @elem x bs xs mem hx h =>
      have hl : (n + 1) * e = bs.length + n * e := by rw [hx.1, Nat.add_mul]; omega
      rw [hl, List.take_append]
      have h1 : List.take (bs.length + n * e) bs = bs := List.take_of_length_le (by omega)
      rw [h1, Nat.add_sub_cancel_left]
      exact .elem hx (ih h (by simpa using hn))

theorem append (h : Packs e xs mem) (hl : mem.length = xs.length * e) (h' : Packs e ys mem') :
    Packs e (xs ++ ys) (mem ++ mem') := by
  induction h with
  | rest tail ht =>
    have : tail = [] := List.eq_nil_of_length_eq_zero (by simpa using hl)
    subst this
    exact h'
  | @elem x bs xs mem hx h ih =>
    rw [List.cons_append, List.append_assoc]
    refine .elem hx (ih ?_)
    have := hx.1
    simp only [List.length_cons, List.length_append, Nat.add_mul] at hl
    omega

/-- Any bytes are elements that were never written. -/
theorem fresh (he : 0 < e) : ∀ (n : Nat) (mem : List (Cell Byte)), mem.length / e = n →
    Packs e (List.replicate n none) mem
  | 0, mem, h => .rest mem (by
      rcases Nat.lt_or_ge mem.length e with h1 | h1
      · exact h1
      · have := Nat.div_pos h1 he; omega)
  | n + 1, mem, h => by
    have hge : e ≤ mem.length := by
      rcases Nat.lt_or_ge mem.length e with h1 | h1
      · rw [Nat.div_eq_of_lt h1] at h; omega
      · exact h1
    have h2 : (mem.drop e).length / e = n := by
      rw [List.length_drop]
      have : mem.length / e = (mem.length - e) / e + 1 := Nat.div_eq_sub_div he hge
      omega
    have := Packs.elem (x := none) (bs := mem.take e) ⟨by rw [List.length_take]; omega, by simp⟩
      (fresh he n (mem.drop e) h2)
    rwa [List.take_append_drop] at this

/-- More bytes behind the memory are more elements that were never written. -/
theorem grow (h : Packs e xs mem) (more : List (Cell Byte)) :
    Packs e (xs ++ List.replicate ((mem.length + more.length) / e - xs.length) none) (mem ++ more) := by
  induction h with
  | rest tail ht => simpa using fresh (by omega) _ (tail ++ more) (by simp)
  | @elem x bs xs mem hx h ih =>
    have hp := h.pos
    have : ((bs ++ mem).length + more.length) / e - (x :: xs).length =
        (mem.length + more.length) / e - xs.length := by
      rw [List.length_append, hx.1, Nat.add_assoc, Nat.add_comm, Nat.add_div_right _ hp, List.length_cons]
      omega
    rw [this, List.cons_append, List.append_assoc]
    exact .elem hx ih

/-- A cut anywhere keeps the elements that are whole. -/
theorem cut (h : Packs e xs mem) (m : Nat) (hm : m ≤ mem.length) :
    Packs e (xs.take (m / e)) (mem.take m) := by
  have hp := h.pos
  induction h generalizing m with
  | rest tail ht =>
    rw [List.take_nil]
    exact .rest _ (by rw [List.length_take]; omega)
  | @elem x bs xs mem hx h ih =>
    rcases Nat.lt_or_ge m e with h1 | h1
    · rw [Nat.div_eq_of_lt h1, List.take_zero]
      exact .rest _ (by rw [List.length_take]; omega)
    · have hl := hx.1
      rw [List.length_append, hl] at hm
      have hb : bs.take m = bs := List.take_of_length_le (by omega)
      rw [Nat.div_eq_sub_div hp h1, List.take_succ_cons, List.take_append, hb, hl]
      exact .elem hx (ih (m - e) (by omega))

theorem length_eq (h : Packs e xs mem) : xs.length = mem.length / e := by
  have := h.bounds
  have hp := h.pos
  refine (Nat.div_eq_of_lt_le this.1 ?_).symm
  exact this.2

end Packs

theorem packs_one {e : Nat} {x : Cell Elem} {bs : Elem} (hx : BytesOf e x bs) (he : 0 < e) :
    Packs e [x] bs := by
  simpa using Packs.elem hx (.rest [] he)

/-- Whole elements and nothing behind them. -/
def PacksX (e : Nat) (xs : List (Cell Elem)) (bs : List (Cell Byte)) : Prop :=
  Packs e xs bs ∧ bs.length = xs.length * e

theorem mul64_small {i e L : Nat} (h : i * e ≤ L) (hL : L < 2 ^ 64) : mul64 i e = i * e :=
  mul64_eq (by omega)

/-! ## Simulation -/

/-- If the first computation returns, the second returns something related. -/
def Sim {α β : Type} (R : α → β → Prop) (x : Out α) (y : Out β) : Prop :=
  ∀ a, x = .ret a → ∃ b, y = .ret b ∧ R a b

theorem sim_ret {α β : Type} {R : α → β → Prop} {a : α} {b : β} (h : R a b) : Sim R (.ret a) (.ret b) := by
  intro a' ha
  cases ha
  exact ⟨b, rfl, h⟩

theorem sim_ub {α β : Type} {R : α → β → Prop} {w : UB} {y : Out β} : Sim R (.ub w) y := by
  intro a ha
  cases ha

theorem sim_bind {α β γ δ : Type} {R : α → β → Prop} {Q : γ → δ → Prop} {x : Out α} {y : Out β}
    {f : α → Out γ} {g : β → Out δ} (h : Sim R x y) (hf : ∀ a b, R a b → Sim Q (f a) (g b)) :
    Sim Q (x.bind f) (y.bind g) := by
  cases x with
  | ub w => exact sim_ub
  | ret a =>
    obtain ⟨b, hb, hr⟩ := h a rfl
    rw [hb]
    exact hf a b hr

theorem sim_ite {α β : Type} {R : α → β → Prop} {c c' : Prop} [Decidable c] [Decidable c']
    {x₁ x₂ : Out α} {y₁ y₂ : Out β} (hc : c ↔ c') (h1 : c → Sim R x₁ y₁) (h2 : ¬ c → Sim R x₂ y₂) :
    Sim R (if c then x₁ else x₂) (if c' then y₁ else y₂) := by
  by_cases h : c
  · rw [if_pos h, if_pos (hc.1 h)]; exact h1 h
  · rw [if_neg h, if_neg (fun k => h (hc.2 k))]; exact h2 h

/-! ## Memory primitives -/

section Prim

variable {e : Nat} {xs ys : List (Cell Elem)} {mem bs : List (Cell Byte)}

theorem sim_read (h : Packs e xs mem) (hL : mem.length < 2 ^ 64) (i n : Nat) :
    Sim (PacksX e) (readRange xs i n) (readRange mem (mul64 i e) (mul64 n e)) := by
  unfold readRange
  by_cases hb : i + n ≤ xs.length
  · rw [if_pos hb]
    have hle := h.bounds.1
    have h1 : (i + n) * e ≤ xs.length * e := Nat.mul_le_mul_right _ hb
    rw [Nat.add_mul] at h1
    rw [mul64_small (i := i) (by omega) hL, mul64_small (i := n) (by omega) hL, if_pos (by omega)]
    refine sim_ret ⟨(h.drop i (by omega)).take n (by simp; omega), ?_⟩
    simp only [List.length_take, List.length_drop]
    rw [Nat.min_eq_left (by omega), Nat.min_eq_left (by omega)]
  · rw [if_neg hb]; exact sim_ub

theorem read_one (h : Packs e xs mem) (hL : mem.length < 2 ^ 64) {i : Nat} {x : Cell Elem}
    (hx : xs[i]? = some x) : ∃ bs, readRange mem (mul64 i e) e = .ret bs ∧ BytesOf e x bs := by
  obtain ⟨hi, he⟩ := List.getElem?_eq_some_iff.1 hx
  have hle := h.bounds.1
  have h1 : (i + 1) * e ≤ xs.length * e := Nat.mul_le_mul_right _ hi
  rw [Nat.add_mul, Nat.one_mul] at h1
  unfold readRange
  rw [mul64_small (i := i) (by omega) hL, if_pos (by omega)]
  refine ⟨_, rfl, ?_⟩
  have hd := h.drop i (by omega)
  rw [List.drop_eq_getElem_cons hi] at hd
  generalize mem.drop (i * e) = m at hd
  cases hd with
  | @elem _ bs _ m hb _ =>
    rw [List.take_append_of_le_length (by rw [hb.1]; exact Nat.le_refl _),
      List.take_of_length_le (by rw [hb.1]; exact Nat.le_refl _)]
    rw [he] at hb
    exact hb

theorem sim_write (h : Packs e xs mem) (hL : mem.length < 2 ^ 64) (hb : PacksX e ys bs) (i : Nat) :
    Sim (fun cs ms => Packs e cs ms ∧ ms.length = mem.length)
      (writeRange xs i ys) (writeRange mem (mul64 i e) bs) := by
  unfold writeRange
  by_cases hi : i + ys.length ≤ xs.length
  · rw [if_pos hi]
    have hle := h.bounds.1
    have h1 : (i + ys.length) * e ≤ xs.length * e := Nat.mul_le_mul_right _ hi
    rw [Nat.add_mul] at h1
    have h2 := hb.2
    rw [mul64_small (i := i) (by omega) hL, if_pos (by omega)]
    refine sim_ret ⟨?_, ?_⟩
    · rw [h2, ← Nat.add_mul]
      refine Packs.append (Packs.append (h.take i (by omega)) ?_ hb.1) ?_ (h.drop _ hi)
      · rw [List.length_take, List.length_take, Nat.min_eq_left (by omega), Nat.min_eq_left (by omega)]
      · rw [List.length_append, List.length_append, List.length_take, List.length_take, h2,
          Nat.min_eq_left (by omega), Nat.min_eq_left (by omega), Nat.add_mul]
    · simp only [List.length_append, List.length_take, List.length_drop]
      omega
  · rw [if_neg hi]; exact sim_ub

theorem sim_memmove (h : Packs e xs mem) (hL : mem.length < 2 ^ 64) (dst src n : Nat) :
    Sim (fun cs ms => Packs e cs ms ∧ ms.length = mem.length)
      (memmoveCells xs dst src n) (memmoveCells mem (mul64 dst e) (mul64 src e) (mul64 n e)) :=
  sim_bind (sim_read h hL src n) fun _ _ hb => sim_write h hL hb dst

/-- The length of one element is not multiplied. -/
theorem one_elem (h : Packs e xs mem) (hL : mem.length < 2 ^ 64) {i n : Nat} {r : List (Cell Elem)}
    (hn : 1 ≤ n) (hr : readRange xs i n = .ret r) : mul64 1 e = e := by
  unfold readRange at hr
  split at hr
  · rename_i hb
    have hle := h.bounds.1
    have h1 : 1 * e ≤ xs.length * e := Nat.mul_le_mul_right _ (by omega)
    rw [mul64_small (i := 1) (by omega) hL, Nat.one_mul]
  · cases hr

theorem one_elem_of_lt (h : Packs e xs mem) (hL : mem.length < 2 ^ 64) (hx : 1 ≤ xs.length) :
    mul64 1 e = e := by
  have hle := h.bounds.1
  have h1 : 1 * e ≤ xs.length * e := Nat.mul_le_mul_right _ hx
  rw [mul64_small (i := 1) (by omega) hL, Nat.one_mul]

end Prim

/-- The same block. -/
def SameBlock (e : Nat) (b : Block Elem) (b' : Block Byte) : Prop :=
  b'.id = b.id ∧ Packs e b.cells b'.cells ∧ b'.cells.length < 2 ^ 64

theorem readRange_len {α : Type} {xs r : List (Cell α)} {i n : Nat} (h : readRange xs i n = .ret r) :
    r.length = n ∧ i + n ≤ xs.length := by
  unfold readRange at h
  split at h
  · cases h
    refine ⟨?_, by assumption⟩
    rw [List.length_take, List.length_drop]; omega
  · cases h

theorem ext_read {e : Nat} {xs : List (Cell Elem)} {mem : List (Cell Byte)} (h : Packs e xs mem) {n : Nat}
    {r : List (Cell Elem)} (hr : readRange xs 0 n = .ret r) :
    ∃ bs, readRange mem 0 (n * e) = .ret bs ∧ PacksX e r bs := by
  have hb := (readRange_len hr).2
  unfold readRange at hr
  rw [if_pos hb] at hr
  cases hr
  have hle := h.bounds.1
  have h1 : n * e ≤ xs.length * e := Nat.mul_le_mul_right _ (by omega)
  refine ⟨_, by unfold readRange; rw [if_pos (by omega)], ?_, ?_⟩
  · simpa using h.take n (by omega)
  · simp only [List.drop_zero, List.length_take]
    rw [Nat.min_eq_left (by omega), Nat.min_eq_left (by omega)]

theorem sim_memcpyIn {e : Nat} {b : Block Elem} {b' : Block Byte} (h : SameBlock e b b') {src : Src Elem}
    {src' : Src Byte} (hs : SameSrc e src src') (dst n : Nat) :
    Sim (SameBlock e) (memcpyIn b dst src n) (memcpyIn b' (mul64 dst e) src' (mul64 n e)) := by
  obtain ⟨hid, hp, hL⟩ := h
  have hpos := hp.pos
  have wr : ∀ {xs : List (Cell Elem)} {bs : List (Cell Byte)}, PacksX e xs bs →
      Sim (SameBlock e) ((writeRange b.cells dst xs).bind fun cs => .ret { b with cells := cs })
        ((writeRange b'.cells (mul64 dst e) bs).bind fun cs => .ret { b' with cells := cs }) := by
    intro xs bs hx
    exact sim_bind (sim_write hp hL hx dst) fun cs ms hm =>
      sim_ret ⟨hid, hm.1, by show ms.length < _; rw [hm.2]; exact hL⟩
  cases src with
  | null => exact sim_ub
  | ext cells =>
    cases src' with
    | null => exact absurd hs id
    | self _ _ => exact absurd hs id
    | ext mem =>
      intro r hr
      simp only [memcpyIn] at hr ⊢
      cases hx : readRange cells 0 n with
      | ub w => rw [hx] at hr; cases hr
      | ret xs =>
        rw [hx, Out.ret_bind'] at hr
        -- the destination has room for `n` elements, so that the length does not wrap
        have hroom : dst + n ≤ b.cells.length := by
          cases hw : writeRange b.cells dst xs with
          | ub w => rw [hw] at hr; cases hr
          | ret cs =>
            unfold writeRange at hw
            split at hw
            · rename_i hh; rw [(readRange_len hx).1] at hh; exact hh
            · cases hw
        have hle := hp.bounds.1
        have h1 : (dst + n) * e ≤ b.cells.length * e := Nat.mul_le_mul_right _ hroom
        rw [Nat.add_mul] at h1
        obtain ⟨bs, hbs, hpx⟩ := ext_read hs hx
        rw [mul64_small (i := n) (by omega) hL, hbs, Out.ret_bind']
        exact wr hpx r hr
  | self blk i =>
    cases src' with
    | null => exact absurd hs id
    | ext _ => exact absurd hs id
    | self blk' i' =>
      obtain ⟨rfl, rfl⟩ := hs
      simp only [memcpyIn]
      refine sim_ite (by rw [hid]) (fun hb => ?_) (fun hb => sim_ub)
      intro r hr
      by_cases ho : i < dst + n ∧ dst < i + n ∧ i ≠ dst
      · rw [if_pos ho] at hr; cases hr
      · rw [if_neg ho] at hr
        cases hx : readRange b.cells i n with
        | ub w => rw [hx] at hr; cases hr
        | ret xs =>
          rw [hx, Out.ret_bind'] at hr
          have hrd := readRange_len hx
          have hroom : dst + n ≤ b.cells.length := by
            cases hw : writeRange b.cells dst xs with
            | ub w => rw [hw] at hr; cases hr
            | ret cs =>
              unfold writeRange at hw
              split at hw
              · rename_i hh; rw [hrd.1] at hh; exact hh
              · cases hw
          have hle := hp.bounds.1
          have h1 : (dst + n) * e ≤ b.cells.length * e := Nat.mul_le_mul_right _ hroom
          have h2 : (i + n) * e ≤ b.cells.length * e := Nat.mul_le_mul_right _ hrd.2
          rw [Nat.add_mul] at h1 h2
          have hno : ¬ (i * e < mul64 dst e + mul64 n e ∧ mul64 dst e < i * e + mul64 n e ∧ i * e ≠ mul64 dst e) := by
            rw [mul64_small (i := n) (by omega) hL, mul64_small (i := dst) (by omega) hL]
            rintro ⟨h3, h4, h5⟩
            rw [← Nat.add_mul] at h3 h4
            refine ho ⟨Nat.lt_of_mul_lt_mul_right h3, Nat.lt_of_mul_lt_mul_right h4, fun h => h5 (by rw [h])⟩
          rw [if_neg hno]
          obtain ⟨bs, hbs, hpx⟩ := sim_read hp hL i n xs hx
          rw [mul64_small (i := i) (by omega) hL] at hbs
          rw [hbs, Out.ret_bind']
          exact wr hpx r hr

/-- The copy of one element. -/
theorem sim_memcpyIn_one {e : Nat} {b : Block Elem} {b' : Block Byte} (h : SameBlock e b b') {src : Src Elem}
    {src' : Src Byte} (hs : SameSrc e src src') (dst : Nat) :
    Sim (SameBlock e) (memcpyIn b dst src 1) (memcpyIn b' (mul64 dst e) src' e) := by
  rcases Nat.eq_zero_or_pos b.cells.length with h0 | h0
  · -- a block without room for an element
    intro r hr
    exfalso
    have hw : ∀ xs : List (Cell Elem), xs.length = 1 →
        ((writeRange b.cells dst xs).bind fun cs => .ret { b with cells := cs }) = .ub .oob := by
      intro xs hx
      unfold writeRange
      rw [if_neg (by omega)]; rfl
    cases src with
    | null => cases hr
    | ext cells =>
      simp only [memcpyIn] at hr
      cases hx : readRange cells 0 1 with
      | ub w => rw [hx] at hr; cases hr
      | ret xs => rw [hx, Out.ret_bind', hw xs (readRange_len hx).1] at hr; cases hr
    | self blk i =>
      simp only [memcpyIn] at hr
      split at hr
      · split at hr
        · cases hr
        · cases hx : readRange b.cells i 1 with
          | ub w => rw [hx] at hr; cases hr
          | ret xs => rw [hx, Out.ret_bind', hw xs (readRange_len hx).1] at hr; cases hr
      · cases hr
  · have := sim_memcpyIn h hs dst 1
    rwa [one_elem_of_lt h.2.1 h.2.2 h0] at this

end Zy
