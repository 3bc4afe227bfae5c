import Verif.Lemmas.StringProps
import Verif.Lemmas.VectorNeg

/-!
# Helper lemmas for `Props/StringNeg`
-/

namespace Zy

open Spec

/-- Clearing the vector of a string leaves a block that is not larger. -/
theorem vecResize_zero {P : Params} {t : Str} {a : SState} {b : Block Byte} {sl : List (Cell Byte)}
    (R : SRep P t a b sl) :
    ∃ s' b', vecResize t.s 0 = .ret (stSuccess, s') ∧ s'.v.size = 0 ∧ s'.v.data = some b' ∧
      b'.cells.length ≤ b.cells.length := by
  have hsz : t.s.v.size = a.text.length + 1 := R.size
  have hc1 := R.rep.cap1
  have hroom := R.rep.room
  simp only at hc1 hroom
  have hd : runDtors t.s 0 t.s.v.size = .ret t.s := by
    unfold runDtors
    rw [R.rep.dtor, R.nod]; rfl
  unfold vecResize vecResizeEx
  rw [if_neg (by omega), if_pos (by omega), hd, Out.ret_bind']
  have hm : mul64 0 t.s.v.growth = 0 := by unfold mul64; simp
  rw [hm]
  have hb1 : grantedCells t.s.v.esz 1 = 1 := by
    rw [R.rep.esz, R.one]; rfl
  by_cases hg : (shouldGrow 0 t.s.v.cap || shouldShrink 0 t.s.v.cap t.s.v.shrink) = true
  · rw [if_pos hg]
    unfold reallocate
    rw [R.rep.allocator]
    cases hal : P.allocator with
    | none =>
      have hth := (R.rep.fixed hal).2
      simp only [shouldGrow, shouldShrink, R.rep.shrink, hth] at hg
      simp at hg
    | some al =>
      simp only
      rw [if_pos (by omega)]
      by_cases hc : t.s.v.cap > 1
      · rw [if_pos hc]
        simp only [reallocTo, R.rep.data, withData, reallocBlock, R.rep.reliable_now,
          Bool.false_eq_true, if_false, Out.ret_bind', failed_success, hb1]
        refine ⟨_, _, rfl, rfl, rfl, ?_⟩
        simp
        omega
      · rw [if_neg hc]
        simp only [Out.ret_bind', failed_success, Bool.false_eq_true, if_false]
        refine ⟨_, b, rfl, rfl, R.rep.data, Nat.le_refl _⟩
  · rw [if_neg hg]
    simp only [Out.ret_bind', failed_success, Bool.false_eq_true, if_false]
    exact ⟨_, b, rfl, rfl, R.rep.data, Nat.le_refl _⟩

/-- Resizing the vector of a dynamic string to a greater size without initializer is defined and succeeds,
whether or not the size computations wrap. -/
theorem vecResize_any {P : Params} {t : Str} {a : SState} {b : Block Byte} {sl : List (Cell Byte)}
    (R : SRep P t a b sl) (hdyn : P.allocator.isSome) (n : Nat) :
    ∃ s' b', vecResize t.s n = .ret (stSuccess, s') ∧ s'.v.data = some b' := by
  obtain ⟨al, hal⟩ := Option.isSome_iff_exists.1 hdyn
  have hrt : ∀ c, ∃ s' b', reallocTo t.s al c = .ret (stSuccess, s') ∧ s'.v.data = some b' := by
    intro c
    simp only [reallocTo, R.rep.data, withData, reallocBlock, R.rep.reliable_now,
      Bool.false_eq_true, if_false]
    exact ⟨_, _, rfl, rfl⟩
  have hr : ∀ c, ∃ s' b', reallocate t.s c = .ret (stSuccess, s') ∧ s'.v.data = some b' := by
    intro c
    simp only [reallocate, R.rep.allocator, hal]
    split
    · split
      · exact hrt 1
      · exact ⟨_, b, rfl, R.rep.data⟩
    · exact hrt c
  unfold vecResize vecResizeEx
  by_cases h0 : n = t.s.v.size
  · rw [if_pos h0]; exact ⟨_, b, rfl, R.rep.data⟩
  rw [if_neg h0]
  have hd : (if n < t.s.v.size then runDtors t.s n t.s.v.size else .ret t.s) = .ret t.s := by
    unfold runDtors
    rw [R.rep.dtor, R.nod]
    split <;> rfl
  rw [hd, Out.ret_bind']
  have key : ∃ s' b', (if shouldGrow n t.s.v.cap || shouldShrink n t.s.v.cap t.s.v.shrink then
       reallocate t.s (mul64 n t.s.v.growth)
     else .ret (stSuccess, t.s)) = .ret (stSuccess, s') ∧ s'.v.data = some b' := by
    split
    · exact hr _
    · exact ⟨_, b, rfl, R.rep.data⟩
  obtain ⟨s', b', e, hb'⟩ := key
  rw [e]
  simp only [Out.ret_bind', failed_success, Bool.false_eq_true, if_false, Src.isNull, not_true,
    false_and]
  exact ⟨_, b', rfl, hb'⟩

/-- Growing the vector of a dynamic string is defined and succeeds, whether or not the size computations
wrap. -/
theorem growFor_any {P : Params} {t : Str} {a : SState} {b : Block Byte} {sl : List (Cell Byte)}
    (R : SRep P t a b sl) (hdyn : P.allocator.isSome) (n : Nat) :
    ∃ s' b', growFor t.s n = .ret (stSuccess, s') ∧ s'.v.data = some b' := by
  obtain ⟨al, hal⟩ := Option.isSome_iff_exists.1 hdyn
  have hrt : ∀ c, ∃ s' b', reallocTo t.s al c = .ret (stSuccess, s') ∧ s'.v.data = some b' := by
    intro c
    simp only [reallocTo, R.rep.data, withData, reallocBlock, R.rep.reliable_now,
      Bool.false_eq_true, if_false]
    exact ⟨_, _, rfl, rfl⟩
  unfold growFor
  split
  · simp only [reallocate, R.rep.allocator, hal]
    split
    · split
      · exact hrt 1
      · exact ⟨_, b, rfl, R.rep.data⟩
    · exact hrt _
  · exact ⟨_, b, rfl, R.rep.data⟩

/-- Copying from external memory that is too short. -/
theorem memcpyIn_short {b : Block Byte} {cells : List (Cell Byte)} {dst n : Nat} (h : cells.length < n) :
    memcpyIn b dst (.ext cells) n = .ub .oob := by
  simp only [memcpyIn, readRange]
  rw [if_neg (by omega)]
  rfl

theorem memmoveCells_cases {α : Type} (cells : List (Cell α)) (d s n : Nat) :
    memmoveCells cells d s n = .ub .oob ∨ ∃ cs, memmoveCells cells d s n = .ret cs := by
  unfold memmoveCells readRange
  split
  · simp only [Out.ret_bind', writeRange]
    split
    · exact Or.inr ⟨_, rfl⟩
    · exact Or.inl rfl
  · exact Or.inl rfl

/-! ## The left search of a needle that is not terminated -/

theorem lposInner_unterminated {h x : List Byte} {rest rest' : List (Cell Byte)} {last s : Nat} {c : Byte}
    (hx0 : ∀ c ∈ x, c ≠ 0#8) (hlast : last ≤ h.length) (hc0 : c ≠ 0#8) (hch : c ∉ h)
    (hb : h.length + x.length + 2 < 9223372036854775808) :
    ∀ (d k fuel : Nat), k + d = x.length → d < fuel → s ≤ h.length →
      ∃ r, lposInner eqExact (termView h rest) (openView x (some c :: rest')) last s fuel
          ((s + k : Nat) : Int) (k : Int) = .ret r ∧ (r = none ∨ r = some (stFalse, -1)) := by
  intro d
  induction d with
  | zero =>
    intro k fuel hk hf hs
    obtain ⟨fuel, rfl⟩ : ∃ f, fuel = f + 1 := ⟨fuel - 1, by omega⟩
    have hk' : k = x.length := by omega
    subst hk'
    simp only [lposInner]
    rw [toU64_nat (by omega)]
    by_cases hl : s + x.length > last
    · rw [if_pos hl]
      exact ⟨_, rfl, Or.inr rfl⟩
    · rw [if_neg hl]
      have hr : rdChar (openView x (some c :: rest')).mem (x.length : Int) = .ret c := rdChar_end
      rw [hr, Out.ret_bind', if_neg hc0]
      by_cases hsk : s + x.length < h.length
      · have hrh : rdChar (termView h rest).mem ((s + x.length : Nat) : Int) = .ret h[s + x.length] :=
          rdChar_some hsk
        rw [hrh, Out.ret_bind', if_neg]
        · exact ⟨_, rfl, Or.inl rfl⟩
        · intro he
          have : h[s + x.length] = c := by simpa [eqExact] using he
          exact hch (this ▸ List.getElem_mem _)
      · have he : s + x.length = h.length := by omega
        have hrh : rdChar (termView h rest).mem ((s + x.length : Nat) : Int) = .ret 0#8 := by
          rw [he]; exact rdChar_end
        rw [hrh, Out.ret_bind', if_neg]
        · exact ⟨_, rfl, Or.inl rfl⟩
        · intro he
          exact hc0 (by simpa [eqExact] using he : (0#8 : Byte) = c).symm
  | succ d ih =>
    intro k fuel hk hf hs
    obtain ⟨fuel, rfl⟩ : ∃ f, fuel = f + 1 := ⟨fuel - 1, by omega⟩
    simp only [lposInner]
    rw [toU64_nat (by omega)]
    by_cases hl : s + k > last
    · rw [if_pos hl]
      exact ⟨_, rfl, Or.inr rfl⟩
    · rw [if_neg hl]
      have hkx : k < x.length := by omega
      have hr : rdChar (openView x (some c :: rest')).mem (k : Int) = .ret x[k] := rdChar_some hkx
      rw [hr, Out.ret_bind', if_neg (hx0 _ (List.getElem_mem hkx))]
      have e1 : ((s + k : Nat) : Int) + 1 = ((s + (k + 1) : Nat) : Int) := by omega
      have e2 : (k : Int) + 1 = ((k + 1 : Nat) : Int) := by omega
      have hread : ∃ ch, rdChar (termView h rest).mem ((s + k : Nat) : Int) = .ret ch := by
        by_cases hsk : s + k < h.length
        · exact ⟨_, rdChar_some hsk⟩
        · have he : s + k = h.length := by omega
          rw [he]; exact ⟨_, rdChar_end⟩
      obtain ⟨ch, hrh⟩ := hread
      rw [hrh, Out.ret_bind']
      split
      · rw [e1, e2]
        exact ih (k + 1) fuel (by omega) (by omega) hs
      · exact ⟨_, rfl, Or.inl rfl⟩

theorem lposOuter_unterminated {h x : List Byte} {rest rest' : List (Cell Byte)} {last : Nat} {c : Byte}
    (hx : x ≠ []) (hx0 : ∀ c ∈ x, c ≠ 0#8) (hlast : last ≤ h.length) (hc0 : c ≠ 0#8) (hch : c ∉ h)
    (hb : h.length + x.length + 2 < 9223372036854775808) :
    ∀ (d s fuel : Nat), s + d = h.length → d < fuel →
      lposOuter eqExact (termView h rest) (openView x (some c :: rest')) last fuel (s : Int) =
        .ret (stFalse, -1) := by
  have hxl : 0 < x.length := List.length_pos_iff.2 hx
  have hsz : (termView h rest).size = h.length + 1 := rfl
  intro d
  induction d with
  | zero =>
    intro s fuel hs hf
    obtain ⟨fuel, rfl⟩ : ∃ f, fuel = f + 1 := ⟨fuel - 1, by omega⟩
    simp only [lposOuter, hsz]
    rw [if_neg (by omega)]
  | succ d ih =>
    intro s fuel hs hf
    obtain ⟨fuel, rfl⟩ : ∃ f, fuel = f + 1 := ⟨fuel - 1, by omega⟩
    have hml : (openView x (some c :: rest')).mem.length = x.length + 1 + rest'.length := by
      simp only [openView, List.length_append, List.length_map, List.length_cons]; omega
    have hsl : s < h.length := by omega
    have hrh : rdChar (termView h rest).mem (s : Int) = .ret h[s] := rdChar_some hsl
    have hrx : rdChar (openView x (some c :: rest')).mem ((0 : Nat) : Int) = .ret x[0] := rdChar_some hxl
    have hrx' : rdChar (openView x (some c :: rest')).mem 0 = .ret x[0] := hrx
    have e1 : (s : Int) + 1 = ((s + 1 : Nat) : Int) := by omega
    simp only [lposOuter, hsz, hml]
    rw [if_pos (by omega), hrh, Out.ret_bind', hrx', Out.ret_bind']
    have next := ih (s + 1) fuel (by omega) (by omega)
    rw [← e1] at next
    split
    · obtain ⟨r, hr, hcase⟩ := lposInner_unterminated (rest := rest) (rest' := rest') (s := s) hx0 hlast hc0
        hch hb x.length 0 (h.length + 1 + (x.length + 1 + rest'.length) + 2) (by omega) (by omega) (by omega)
      have hr' : lposInner eqExact (termView h rest) (openView x (some c :: rest')) last (s : Int)
          (h.length + 1 + (x.length + 1 + rest'.length) + 2) (s : Int) 0 = .ret r := hr
      rw [hr', Out.ret_bind']
      rcases hcase with rfl | rfl
      · exact next
      · rfl
    · exact next

/-! ## The left search of a range that wraps -/

theorem lposOuter_behind (eq : Byte → Byte → Bool) {h x : List Byte} {rest rest' : List (Cell Byte)}
    {last : Nat} (hx : x ≠ []) (hb : h.length < 9223372036854775808) :
    ∀ (d s fuel : Nat), h.length ≤ s + d → d < fuel → last < s → s < 9223372036854775808 →
      lposOuter eq (openView h rest) (openView x rest') last fuel (s : Int) = .ret (stFalse, -1) := by
  have hxl : 0 < x.length := List.length_pos_iff.2 hx
  have hsz : (openView h rest).size = h.length + 1 := rfl
  intro d
  induction d with
  | zero =>
    intro s fuel hs hf hl hs64
    obtain ⟨fuel, rfl⟩ : ∃ f, fuel = f + 1 := ⟨fuel - 1, by omega⟩
    simp only [lposOuter, hsz]
    rw [if_neg (by omega)]
  | succ d ih =>
    intro s fuel hs hf hl hs64
    obtain ⟨fuel, rfl⟩ : ∃ f, fuel = f + 1 := ⟨fuel - 1, by omega⟩
    simp only [lposOuter, hsz]
    by_cases hsl : s < h.length
    · have hrh : rdChar (openView h rest).mem (s : Int) = .ret h[s] := rdChar_some hsl
      have hrx : rdChar (openView x rest').mem ((0 : Nat) : Int) = .ret x[0] := rdChar_some hxl
      have hrx' : rdChar (openView x rest').mem 0 = .ret x[0] := hrx
      have e1 : (s : Int) + 1 = ((s + 1 : Nat) : Int) := by omega
      rw [if_pos (by omega), hrh, Out.ret_bind', hrx', Out.ret_bind']
      split
      · simp only [lposInner]
        rw [toU64_nat (by omega), if_pos hl]
        rfl
      · rw [e1]
        exact ih (s + 1) fuel (by omega) (by omega) (by omega) (by omega)
    · rw [if_neg (by omega)]

end Zy
