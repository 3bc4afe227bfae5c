import Verif.Lemmas.StringReach

/-!
# Helper lemmas: searching and comparing
-/

namespace Zy

open Spec

/-- Reading a character of a view whose first characters are known. -/
theorem rdChar_some {xs : List Byte} {rest : List (Cell Byte)} {i : Nat} (h : i < xs.length) :
    rdChar (xs.map some ++ rest) (i : Int) = .ret xs[i] := by
  have hr : (xs.map some ++ rest)[i]? = some (some xs[i]) := by
    rw [List.getElem?_append_left (by simpa using h)]; simp [h]
  unfold rdChar
  rw [if_neg (by omega), Int.toNat_natCast, hr]

theorem rdChar_end {xs : List Byte} {c : Byte} {rest : List (Cell Byte)} :
    rdChar (xs.map some ++ some c :: rest) (xs.length : Int) = .ret c := by
  have hr : (xs.map some ++ some c :: rest)[xs.length]? = some (some c) := by
    rw [List.getElem?_append_right (by simp)]; simp
  unfold rdChar
  rw [if_neg (by omega), Int.toNat_natCast, hr]

theorem toU64_nat {n : Nat} (h : n < 18446744073709551616) : toU64 (n : Int) = n := by
  unfold toU64
  omega

theorem toI64_nat {n : Nat} (h : n < 9223372036854775808) : toI64 n = n := by
  unfold toI64
  rw [if_pos h]

/-! ## Left search -/

/-- A view with the characters `x`, terminated, whatever memory follows. -/
def termView (x : List Byte) (rest : List (Cell Byte)) : View :=
  ⟨x.map some ++ some 0#8 :: rest, x.length + 1⟩

/-- The character relation of a search test. -/
def rel (eq : Byte → Byte → Bool) (a b : Byte) : Prop := eq a b = true

theorem lposInner_ok (eq : Byte → Byte → Bool) {h x : List Byte} {rest rest' : List (Cell Byte)} {last s : Nat}
    (hx0 : ∀ c ∈ x, c ≠ 0#8) (hlast : last ≤ h.length) (hb : h.length + x.length + 2 < 9223372036854775808) :
    ∀ (d k fuel : Nat), k + d = x.length → d < fuel → s ≤ h.length →
      (∀ j (hj : j < x.length) (hp : s + j < h.length), j < k → eq h[s + j] x[j] = true) →
      ∃ r, lposInner eq (termView h rest) (termView x rest') last s fuel ((s + k : Nat) : Int) (k : Int) = .ret r ∧
        ((r = some (stTrue, (s : Int)) ∧ s + x.length ≤ last ∧ OccursAt (rel eq) h x s) ∨
         (r = some (stFalse, -1) ∧ last < s + x.length) ∨
         (r = none ∧ ¬ OccursAt (rel eq) h x s)) := by
  intro d
  induction d with
  | zero =>
    intro k fuel hk hf hs hm
    obtain ⟨fuel, rfl⟩ : ∃ f, fuel = f + 1 := ⟨fuel - 1, by omega⟩
    have hk' : k = x.length := by omega
    subst hk'
    simp only [lposInner]
    rw [toU64_nat (by omega)]
    by_cases hl : s + x.length > last
    · rw [if_pos hl]
      exact ⟨_, rfl, Or.inr (Or.inl ⟨rfl, hl⟩)⟩
    · rw [if_neg hl]
      have hr : rdChar (termView x rest').mem (x.length : Int) = .ret 0#8 := rdChar_end
      rw [hr, Out.ret_bind', if_pos rfl]
      refine ⟨_, rfl, Or.inl ⟨rfl, by omega, by omega, ?_⟩⟩
      intro j hj hp
      exact hm j hj hp hj
  | succ d ih =>
    intro k fuel hk hf hs hm
    obtain ⟨fuel, rfl⟩ : ∃ f, fuel = f + 1 := ⟨fuel - 1, by omega⟩
    simp only [lposInner]
    rw [toU64_nat (by omega)]
    by_cases hl : s + k > last
    · rw [if_pos hl]
      exact ⟨_, rfl, Or.inr (Or.inl ⟨rfl, by omega⟩)⟩
    · rw [if_neg hl]
      have hkx : k < x.length := by omega
      have hr : rdChar (termView x rest').mem (k : Int) = .ret x[k] := rdChar_some hkx
      rw [hr, Out.ret_bind', if_neg (hx0 _ (List.getElem_mem hkx))]
      have e1 : ((s + k : Nat) : Int) + 1 = ((s + (k + 1) : Nat) : Int) := by omega
      have e2 : (k : Int) + 1 = ((k + 1 : Nat) : Int) := by omega
      by_cases hsk : s + k < h.length
      · have hrh : rdChar (termView h rest).mem ((s + k : Nat) : Int) = .ret h[s + k] := rdChar_some hsk
        rw [hrh, Out.ret_bind']
        by_cases heq : eq h[s + k] x[k] = true
        · rw [if_pos heq, e1, e2]
          refine ih (k + 1) fuel (by omega) (by omega) hs ?_
          intro j hj hp hjk
          by_cases hjk' : j < k
          · exact hm j hj hp hjk'
          · have : j = k := by omega
            subst this; exact heq
        · rw [if_neg heq]
          refine ⟨_, rfl, Or.inr (Or.inr ⟨rfl, ?_⟩)⟩
          intro ho
          exact heq (ho.2 k hkx hsk)
      · have he : s + k = h.length := by omega
        have hrh : rdChar (termView h rest).mem ((s + k : Nat) : Int) = .ret 0#8 := by
          rw [he]; exact rdChar_end
        rw [hrh, Out.ret_bind']
        by_cases heq : eq 0#8 x[k] = true
        · rw [if_pos heq, e1, e2]
          refine ih (k + 1) fuel (by omega) (by omega) hs ?_
          intro j hj hp hjk
          exact hm j hj hp (by omega)
        · rw [if_neg heq]
          refine ⟨_, rfl, Or.inr (Or.inr ⟨rfl, ?_⟩)⟩
          intro ho
          have := ho.1
          omega

theorem lposOuter_ok (eq : Byte → Byte → Bool) {h x : List Byte} {rest rest' : List (Cell Byte)} {last lo : Nat} (hx : x ≠ [])
    (hx0 : ∀ c ∈ x, c ≠ 0#8) (hlast : last ≤ h.length)
    (hb : h.length + x.length + 2 < 9223372036854775808) :
    ∀ (d s fuel : Nat), s + d = h.length → d < fuel → lo ≤ s →
      (∀ q, lo ≤ q → q < s → q + x.length ≤ last → ¬ OccursAt (rel eq) h x q) →
      ∃ st p, lposOuter eq (termView h rest) (termView x rest') last fuel (s : Int) = .ret (st, p) ∧
        ((st = stTrue ∧ 0 ≤ p ∧ Leftmost (rel eq) h x lo last p.toNat) ∨
         (st = stFalse ∧ p = -1 ∧ Absent (rel eq) h x lo last)) := by
  have hxl : 0 < x.length := List.length_pos_iff.2 hx
  intro d
  induction d with
  | zero =>
    intro s fuel hs hf hlo hno
    obtain ⟨fuel, rfl⟩ : ∃ f, fuel = f + 1 := ⟨fuel - 1, by omega⟩
    have hsz : (termView h rest).size = h.length + 1 := rfl
    simp only [lposOuter, hsz]
    rw [if_neg (by omega)]
    refine ⟨_, _, rfl, Or.inr ⟨rfl, rfl, ?_⟩⟩
    intro q hq hql
    exact hno q hq (by omega) hql
  | succ d ih =>
    intro s fuel hs hf hlo hno
    obtain ⟨fuel, rfl⟩ : ∃ f, fuel = f + 1 := ⟨fuel - 1, by omega⟩
    have hsz : (termView h rest).size = h.length + 1 := rfl
    have hml : (termView x rest').mem.length = x.length + 1 + rest'.length := by
      simp only [termView, List.length_append, List.length_map, List.length_cons]; omega
    have hsl : s < h.length := by omega
    have hrh : rdChar (termView h rest).mem (s : Int) = .ret h[s] := rdChar_some hsl
    have hrx : rdChar (termView x rest').mem ((0 : Nat) : Int) = .ret x[0] := rdChar_some hxl
    have e1 : (s : Int) + 1 = ((s + 1 : Nat) : Int) := by omega
    simp only [lposOuter, hsz, hml]
    rw [if_pos (by omega), hrh, Out.ret_bind']
    have hrx' : rdChar (termView x rest').mem 0 = .ret x[0] := hrx
    rw [hrx', Out.ret_bind']
    have next : ¬ OccursAt (rel eq) h x s →
        ∃ st p, lposOuter eq (termView h rest) (termView x rest') last fuel ((s : Int) + 1) = .ret (st, p) ∧
        ((st = stTrue ∧ 0 ≤ p ∧ Leftmost (rel eq) h x lo last p.toNat) ∨
         (st = stFalse ∧ p = -1 ∧ Absent (rel eq) h x lo last)) := by
      intro hn
      rw [e1]
      refine ih (s + 1) fuel (by omega) (by omega) (by omega) ?_
      intro q hq hqs hql
      by_cases hqs' : q < s
      · exact hno q hq hqs' hql
      · have : q = s := by omega
        subst this; exact hn
    by_cases heq : eq h[s] x[0] = true
    · rw [if_pos heq]
      obtain ⟨r, hr, hcase⟩ := lposInner_ok eq (rest := rest) (rest' := rest') (s := s) hx0 hlast hb x.length 0
        (h.length + 1 + (x.length + 1 + rest'.length) + 2) (by omega) (by omega) (by omega)
        (by intro j hj hp hj0; omega)
      have hr' : lposInner eq (termView h rest) (termView x rest') last (s : Int)
          (h.length + 1 + (x.length + 1 + rest'.length) + 2) (s : Int) 0 = .ret r := hr
      rw [hr', Out.ret_bind']
      rcases hcase with ⟨rfl, hle, ho⟩ | ⟨rfl, hgt⟩ | ⟨rfl, hn⟩
      · refine ⟨_, _, rfl, Or.inl ⟨rfl, by omega, ?_⟩⟩
        rw [Int.toNat_natCast]
        refine ⟨hlo, hle, ho, ?_⟩
        intro q hq hql hoq
        by_cases hqs : q < s
        · exact absurd hoq (hno q hq hqs hql)
        · omega
      · refine ⟨_, _, rfl, Or.inr ⟨rfl, rfl, ?_⟩⟩
        intro q hq hql
        by_cases hqs : q < s
        · exact hno q hq hqs hql
        · omega
      · exact next hn
    · rw [if_neg heq]
      exact next (fun ho => heq (ho.2 0 hxl (by simpa using hsl)))

theorem lpos_ok (eq : Byte → Byte → Bool) {h x : List Byte} {rest rest' : List (Cell Byte)} {i n : Nat} (hx : x ≠ [])
    (hx0 : ∀ c ∈ x, c ≠ 0#8) (hin : i + n ≤ h.length)
    (hb : h.length + x.length + 2 < 9223372036854775808) :
    ∃ st p, strLPosExWith eq (termView h rest) (termView x rest') i n = .ret (st, some p) ∧
      ((st = stTrue ∧ 0 ≤ p ∧ Leftmost (rel eq) h x i (i + n) p.toNat) ∨
       (st = stFalse ∧ p = -1 ∧ Absent (rel eq) h x i (i + n))) := by
  have hxl : 0 < x.length := List.length_pos_iff.2 hx
  have hsz : (termView h rest).size = h.length + 1 := rfl
  have hszx : (termView x rest').size = x.length + 1 := rfl
  unfold strLPosExWith
  rw [hsz, hszx, add64_eq (by omega), if_neg (by omega)]
  by_cases hc : h.length + 1 = 1 ∨ x.length + 1 = 1 ∨ h.length + 1 < x.length + 1
  · rw [if_pos hc]
    refine ⟨_, _, rfl, Or.inr ⟨rfl, rfl, ?_⟩⟩
    intro q hq hql ho
    have := ho.1
    omega
  · rw [if_neg hc, toI64_nat (by omega)]
    obtain ⟨st, p, e, hcase⟩ := lposOuter_ok eq (rest := rest) (rest' := rest') (lo := i) hx hx0 hin hb (h.length - i) i
      (h.length + 1 + 2) (by omega) (by omega) (by omega) (by intro q h1 h2; omega)
    rw [e, Out.ret_bind']
    exact ⟨st, p, rfl, hcase⟩

/-! ## Right search -/

/-- A view whose characters are `x`, whatever memory follows. -/
def openView (x : List Byte) (rest : List (Cell Byte)) : View := ⟨x.map some ++ rest, x.length + 1⟩

theorem rposInner_ok (eq : Byte → Byte → Bool) {h x : List Byte} {rest rest' : List (Cell Byte)}
    {first e : Nat} (he : e ≤ h.length) :
    ∀ (k d fuel : Nat), k + d = x.length → k < fuel →
      (∀ j (hj : j < x.length), k ≤ j → ∃ hp : e + j - x.length < h.length, x.length ≤ e + j ∧
        eq h[e + j - x.length] x[j] = true) →
      ∃ r, rposInner eq (openView h rest) (openView x rest') (first : Int) fuel
          ((e : Int) - d - 1) ((k : Int) - 1) = .ret r ∧
        ((r = some (stTrue, (e : Int) - x.length) ∧ (x ≠ [] → x.length ≤ e) ∧
            (x.length ≤ e → OccursAt (rel eq) h x (e - x.length)) ∧ (0 < k → first + x.length ≤ e)) ∨
         (r = some (stFalse, -1) ∧ e < first + x.length) ∨
         (r = none ∧ ¬ (x.length ≤ e ∧ OccursAt (rel eq) h x (e - x.length)))) := by
  intro k
  induction k with
  | zero =>
    intro d fuel hk hf hm
    obtain ⟨fuel, rfl⟩ : ∃ f, fuel = f + 1 := ⟨fuel - 1, by omega⟩
    have hd : d = x.length := by omega
    subst hd
    simp only [rposInner]
    rw [if_pos (by omega)]
    refine ⟨_, rfl, Or.inl ⟨?_, ?_, ?_, by omega⟩⟩
    · have : (e : Int) - (x.length : Int) - 1 + 1 = (e : Int) - x.length := by omega
      rw [this]
    · intro hx
      have hxl : 0 < x.length := List.length_pos_iff.2 hx
      obtain ⟨_, hh, _⟩ := hm 0 hxl (by omega)
      omega
    · intro hle
      refine ⟨by omega, ?_⟩
      intro j hj hp
      obtain ⟨hp', _, heq⟩ := hm j hj (by omega)
      have : e - x.length + j = e + j - x.length := by omega
      unfold rel
      simp only [this]
      exact heq
  | succ k ih =>
    intro d fuel hk hf hm
    obtain ⟨fuel, rfl⟩ : ∃ f, fuel = f + 1 := ⟨fuel - 1, by omega⟩
    simp only [rposInner]
    rw [if_neg (by omega)]
    by_cases hfi : (e : Int) - d - 1 < first
    · rw [if_pos hfi]
      exact ⟨_, rfl, Or.inr (Or.inl ⟨rfl, by omega⟩)⟩
    · rw [if_neg hfi]
      have e1 : (e : Int) - d - 1 = ((e - d - 1 : Nat) : Int) := by omega
      have e2 : ((k + 1 : Nat) : Int) - 1 = (k : Int) := by omega
      have hpos : e - d - 1 < h.length := by omega
      have hkx : k < x.length := by omega
      have hrh : rdChar (openView h rest).mem ((e : Int) - d - 1) = .ret h[e - d - 1] := by
        rw [e1]; exact rdChar_some hpos
      have hrx : rdChar (openView x rest').mem (((k + 1 : Nat) : Int) - 1) = .ret x[k] := by
        rw [e2]; exact rdChar_some hkx
      rw [hrh, Out.ret_bind', hrx, Out.ret_bind']
      have hidx : e + k - x.length = e - d - 1 := by omega
      by_cases heq : eq h[e - d - 1] x[k] = true
      · rw [if_pos heq]
        have e3 : (e : Int) - d - 1 - 1 = (e : Int) - ((d + 1 : Nat) : Int) - 1 := by omega
        rw [e3, e2]
        obtain ⟨r, hr, hcase⟩ := ih (d + 1) fuel (by omega) (by omega) (by
          intro j hj hkj
          by_cases hjk : j = k
          · subst hjk
            refine ⟨by omega, by omega, ?_⟩
            simp only [hidx]; exact heq
          · exact hm j hj (by omega))
        refine ⟨r, hr, ?_⟩
        rcases hcase with ⟨h1, h2, h3, h4⟩ | h1 | h1
        · refine Or.inl ⟨h1, h2, h3, ?_⟩
          intro _
          by_cases hk0 : 0 < k
          · exact h4 hk0
          · omega
        · exact Or.inr (Or.inl h1)
        · exact Or.inr (Or.inr h1)
      · rw [if_neg heq]
        refine ⟨_, rfl, Or.inr (Or.inr ⟨rfl, ?_⟩)⟩
        intro ⟨hle, ho⟩
        have hp : e - x.length + k < h.length := by omega
        have := ho.2 k hkx hp
        unfold rel at this
        have hi2 : e - x.length + k = e - d - 1 := by omega
        simp only [hi2] at this
        exact heq this

theorem rposOuter_ok (eq : Byte → Byte → Bool) {h x : List Byte} {rest rest' : List (Cell Byte)}
    {first hi : Nat} (hx : x ≠ []) (hhi : hi ≤ h.length) :
    ∀ (e fuel : Nat), e < fuel → e ≤ hi →
      (∀ q, first ≤ q → e < q + x.length → q + x.length ≤ hi → ¬ OccursAt (rel eq) h x q) →
      ∃ st p, rposOuter eq (openView h rest) (openView x rest') (first : Int) fuel ((e : Int) - 1) =
          .ret (st, p) ∧
        ((st = stTrue ∧ 0 ≤ p ∧ Rightmost (rel eq) h x first hi p.toNat) ∨
         (st = stFalse ∧ p = -1 ∧ Absent (rel eq) h x first hi)) := by
  have hxl : 0 < x.length := List.length_pos_iff.2 hx
  have hsz : (openView x rest').size = x.length + 1 := rfl
  intro e
  induction e with
  | zero =>
    intro fuel hf he hno
    obtain ⟨fuel, rfl⟩ : ∃ f, fuel = f + 1 := ⟨fuel - 1, by omega⟩
    simp only [rposOuter]
    rw [if_neg (by omega)]
    refine ⟨_, _, rfl, Or.inr ⟨rfl, rfl, ?_⟩⟩
    intro q hq hql
    exact hno q hq (by omega) hql
  | succ e ih =>
    intro fuel hf he hno
    obtain ⟨fuel, rfl⟩ : ∃ f, fuel = f + 1 := ⟨fuel - 1, by omega⟩
    have e1 : ((e + 1 : Nat) : Int) - 1 = (e : Int) := by omega
    have e2 : ((x.length + 1 : Nat) : Int) - 2 = ((x.length - 1 : Nat) : Int) := by omega
    have hel : e < h.length := by omega
    have hrh : rdChar (openView h rest).mem (e : Int) = .ret h[e] := rdChar_some hel
    have hrx : rdChar (openView x rest').mem ((x.length - 1 : Nat) : Int) =
        .ret (x[x.length - 1]'(by omega)) := rdChar_some (by omega)
    simp only [rposOuter, hsz]
    rw [e1, e2, if_pos (by omega), hrh, Out.ret_bind', hrx, Out.ret_bind']
    have next : ¬ (x.length ≤ e + 1 ∧ OccursAt (rel eq) h x (e + 1 - x.length)) →
        ∃ st p, rposOuter eq (openView h rest) (openView x rest') (first : Int) fuel ((e : Int) - 1) =
          .ret (st, p) ∧
        ((st = stTrue ∧ 0 ≤ p ∧ Rightmost (rel eq) h x first hi p.toNat) ∨
         (st = stFalse ∧ p = -1 ∧ Absent (rel eq) h x first hi)) := by
      intro hn
      refine ih fuel (by omega) (by omega) ?_
      intro q hq hql hqh ho
      by_cases hqe : e + 1 < q + x.length
      · exact hno q hq hqe hqh ho
      · have h1 : q = e + 1 - x.length := by omega
        exact hn ⟨by omega, h1 ▸ ho⟩
    by_cases heq : eq h[e] (x[x.length - 1]'(by omega)) = true
    · rw [if_pos heq]
      obtain ⟨r, hr, hcase⟩ := rposInner_ok eq (h := h) (x := x) (rest := rest) (rest' := rest')
        (first := first) (e := e + 1) (by omega) x.length 0 (x.length + 1 + 2) (by omega) (by omega)
        (by intro j hj hj'; omega)
      have e3 : ((e + 1 : Nat) : Int) - ((0 : Nat) : Int) - 1 = (e : Int) := by omega
      have e4 : (x.length : Int) - 1 = ((x.length - 1 : Nat) : Int) := by omega
      rw [e3, e4] at hr
      rw [hr, Out.ret_bind']
      rcases hcase with ⟨rfl, h2, h3, h4⟩ | ⟨rfl, hgt⟩ | ⟨rfl, hn⟩
      · have hle := h2 hx
        have hfirst := h4 hxl
        have hp : ((e + 1 : Nat) : Int) - x.length = ((e + 1 - x.length : Nat) : Int) := by omega
        refine ⟨_, _, rfl, Or.inl ⟨rfl, by omega, ?_⟩⟩
        rw [hp, Int.toNat_natCast]
        refine ⟨by omega, by omega, h3 hle, ?_⟩
        intro q hq hqh ho
        by_cases hqe : e + 1 < q + x.length
        · exact absurd ho (hno q hq hqe hqh)
        · omega
      · refine ⟨_, _, rfl, Or.inr ⟨rfl, rfl, ?_⟩⟩
        intro q hq hqh
        by_cases hqe : e + 1 < q + x.length
        · exact hno q hq hqe hqh
        · omega
      · exact next hn
    · rw [if_neg heq]
      refine next ?_
      intro ⟨hle, ho⟩
      have hp : e + 1 - x.length + (x.length - 1) < h.length := by omega
      have h1 := ho.2 (x.length - 1) (by omega) hp
      have h2 : e + 1 - x.length + (x.length - 1) = e := by omega
      unfold rel at h1
      simp only [h2] at h1
      exact heq h1

theorem rpos_ok (eq : Byte → Byte → Bool) {h x : List Byte} {rest rest' : List (Cell Byte)}
    {i n : Nat} (hx : x ≠ []) (hin : i ≤ h.length) (hni : n ≤ i) :
    ∃ st p, strRPosExWith eq (openView h rest) (openView x rest') i n = .ret (st, some p) ∧
      ((st = stTrue ∧ 0 ≤ p ∧ Rightmost (rel eq) h x (i - n) i p.toNat) ∨
       (st = stFalse ∧ p = -1 ∧ Absent (rel eq) h x (i - n) i)) := by
  have hxl : 0 < x.length := List.length_pos_iff.2 hx
  have hsz : (openView h rest).size = h.length + 1 := rfl
  have hszx : (openView x rest').size = x.length + 1 := rfl
  unfold strRPosExWith
  rw [hsz, hszx, if_neg (by omega)]
  by_cases hc : i = 0 ∨ n = 0 ∨ h.length + 1 = 1 ∨ x.length + 1 = 1 ∨ h.length + 1 < x.length + 1
  · rw [if_pos hc]
    refine ⟨_, _, rfl, Or.inr ⟨rfl, rfl, ?_⟩⟩
    intro q hq hql ho
    have := ho.1
    omega
  · rw [if_neg hc]
    have e1 : (i : Int) - n = ((i - n : Nat) : Int) := by omega
    obtain ⟨st, p, e, hcase⟩ := rposOuter_ok eq (h := h) (x := x) (rest := rest) (rest' := rest')
      (first := i - n) (hi := i) hx hin i (i + 1) (by omega) (by omega) (by intro q h1 h2 h3; omega)
    rw [e1, e, Out.ret_bind']
    exact ⟨st, p, rfl, hcase⟩

/-! ## The character relations -/

theorem OccursAt.congr {r r' : Byte → Byte → Prop} {h x : List Byte} {p : Nat}
    (hr : ∀ a ∈ h, ∀ b ∈ x, (r a b ↔ r' a b)) : OccursAt r h x p ↔ OccursAt r' h x p := by
  unfold OccursAt
  constructor
  · intro ⟨h1, h2⟩
    exact ⟨h1, fun k hk hp => (hr _ (List.getElem_mem _) _ (List.getElem_mem _)).1 (h2 k hk hp)⟩
  · intro ⟨h1, h2⟩
    exact ⟨h1, fun k hk hp => (hr _ (List.getElem_mem _) _ (List.getElem_mem _)).2 (h2 k hk hp)⟩

theorem Leftmost.congr {r r' : Byte → Byte → Prop} {h x : List Byte} {lo hi p : Nat}
    (hr : ∀ a ∈ h, ∀ b ∈ x, (r a b ↔ r' a b)) (hl : Leftmost r h x lo hi p) :
    Leftmost r' h x lo hi p := by
  obtain ⟨h1, h2, h3, h4⟩ := hl
  exact ⟨h1, h2, (OccursAt.congr hr).1 h3, fun q hq hq' ho => h4 q hq hq' ((OccursAt.congr hr).2 ho)⟩

theorem Rightmost.congr {r r' : Byte → Byte → Prop} {h x : List Byte} {lo hi p : Nat}
    (hr : ∀ a ∈ h, ∀ b ∈ x, (r a b ↔ r' a b)) (hl : Rightmost r h x lo hi p) :
    Rightmost r' h x lo hi p := by
  obtain ⟨h1, h2, h3, h4⟩ := hl
  exact ⟨h1, h2, (OccursAt.congr hr).1 h3, fun q hq hq' ho => h4 q hq hq' ((OccursAt.congr hr).2 ho)⟩

theorem Absent.congr {r r' : Byte → Byte → Prop} {h x : List Byte} {lo hi : Nat}
    (hr : ∀ a ∈ h, ∀ b ∈ x, (r a b ↔ r' a b)) (hl : Absent r h x lo hi) : Absent r' h x lo hi :=
  fun q hq hq' ho => hl q hq hq' ((OccursAt.congr hr).2 ho)

theorem rel_exact (a b : Byte) : rel eqExact a b ↔ a = b := by simp [rel, eqExact]

theorem rel_fold (a b : Byte) : rel eqFold a b ↔ (a = b ∨ a ^^^ 32#8 = b) := by
  simp [rel, eqFold]

instance (a b : Byte) : Decidable (SameLetter a b) := by unfold SameLetter; infer_instance
instance (c : Byte) : Decidable (IsLetter c) := by unfold IsLetter; infer_instance

/-- For every pair except two non-letters differing in bit 5 only, the test of the code is equality up
to letter case. -/
theorem fold_sameLetter : ∀ a : Byte, (IsLetter a → SameLetter a (a ^^^ 32#8)) := by decide +kernel

theorem sameLetter_fold : ∀ a b : Byte, SameLetter a b → (a = b ∨ a ^^^ 32#8 = b) := by decide +kernel

theorem rel_fold_iff {a b : Byte} (h : a ^^^ 32#8 = b → IsLetter a) : rel eqFold a b ↔ SameLetter a b := by
  rw [rel_fold]
  constructor
  · rintro (rfl | rfl)
    · rfl
    · exact fold_sameLetter a (h rfl)
  · exact sameLetter_fold a b

/-! ## Comparing -/

theorem cmpLoop_ok (eq : Byte → Byte → Bool) {x y : List Byte} {rest rest' : List (Cell Byte)}
    (hl : x.length = y.length) (hb : x.length + 1 < 18446744073709551616) :
    ∀ (d i fuel : Nat), i + d = x.length → d < fuel →
      ∃ k, cmpLoop eq (openView x rest) (openView y rest') fuel i = .ret k ∧ i ≤ k ∧ k ≤ x.length ∧
        (∀ j (hj : j < x.length) (hj' : j < y.length), i ≤ j → j < k → eq x[j] y[j] = true) ∧
        (∀ (hk : k < x.length) (hk' : k < y.length), eq x[k] y[k] = false) := by
  intro d
  induction d with
  | zero =>
    intro i fuel hi hf
    obtain ⟨fuel, rfl⟩ : ∃ f, fuel = f + 1 := ⟨fuel - 1, by omega⟩
    have h1 : (openView x rest).size = x.length + 1 := rfl
    have h2 : (openView y rest').size = y.length + 1 := rfl
    simp only [cmpLoop, h1, h2]
    rw [add64_eq (by omega), if_neg (by omega)]
    exact ⟨i, rfl, by omega, by omega, by intro j hj hj' h1 h2; omega, by intro hk; omega⟩
  | succ d ih =>
    intro i fuel hi hf
    obtain ⟨fuel, rfl⟩ : ∃ f, fuel = f + 1 := ⟨fuel - 1, by omega⟩
    have h1 : (openView x rest).size = x.length + 1 := rfl
    have h2 : (openView y rest').size = y.length + 1 := rfl
    have hx : rdChar (openView x rest).mem (i : Int) = .ret (x[i]'(by omega)) := rdChar_some _
    have hy : rdChar (openView y rest').mem (i : Int) = .ret (y[i]'(by omega)) := rdChar_some _
    simp only [cmpLoop, h1, h2]
    rw [add64_eq (by omega), if_pos (by omega), hx, Out.ret_bind', hy, Out.ret_bind']
    by_cases heq : eq (x[i]'(by omega)) (y[i]'(by omega)) = true
    · rw [if_pos heq]
      obtain ⟨k, hk, hk1, hk2, hk3, hk4⟩ := ih (i + 1) fuel (by omega) (by omega)
      refine ⟨k, hk, by omega, hk2, ?_, hk4⟩
      intro j hj hj' hij hjk
      by_cases hji : j = i
      · subst hji; exact heq
      · exact hk3 j hj hj' (by omega) hjk
    · rw [if_neg heq]
      refine ⟨i, rfl, by omega, by omega, by intro j hj hj' h1 h2; omega, ?_⟩
      intro hk hk'
      simpa using heq

/-- What comparing returns for texts of the same length. -/
theorem compare_same (eq : Byte → Byte → Bool) (hrefl : ∀ a, eq a a = true) {x y : List Byte} {rest rest' : List (Cell Byte)}
    (hl : x.length = y.length) (hb : x.length + 1 < 18446744073709551616) :
    (strCompareWith eq (termView x rest) (termView y rest') = .ret (stTrue, 0) ∧
      ∀ j (hj : j < x.length) (hj' : j < y.length), eq x[j] y[j] = true) ∨
    (∃ k, ∃ hk : k < x.length, ∃ hk' : k < y.length, eq x[k] y[k] = false ∧
      (∀ j (hj : j < x.length) (hj' : j < y.length), j < k → eq x[j] y[j] = true) ∧
      strCompareWith eq (termView x rest) (termView y rest') = .ret (stFalse,
        if (x[k] ||| 32#8).toInt < (y[k] ||| 32#8).toInt then -1 else 1)) := by
  have e1 : termView x rest = openView x (some 0#8 :: rest) := rfl
  have e2 : termView y rest' = openView y (some 0#8 :: rest') := rfl
  have h1 : (openView x (some 0#8 :: rest)).size = x.length + 1 := rfl
  have h2 : (openView y (some 0#8 :: rest')).size = y.length + 1 := rfl
  obtain ⟨k, hk, _, hk2, hk3, hk4⟩ := cmpLoop_ok eq (rest := some 0#8 :: rest) (rest' := some 0#8 :: rest') hl hb
    x.length 0 (x.length + 1 + 1) (by omega) (by omega)
  rw [e1, e2]
  unfold strCompareWith
  rw [h1, h2, if_neg (by omega), if_neg (by omega), hk, Out.ret_bind']
  by_cases hke : k = x.length
  · left
    have hx : rdChar (openView x (some 0#8 :: rest)).mem (k : Int) = .ret 0#8 := by
      rw [hke]; exact rdChar_end
    have hy : rdChar (openView y (some 0#8 :: rest')).mem (k : Int) = .ret 0#8 := by
      rw [hke, hl]; exact rdChar_end
    rw [hx, Out.ret_bind', hy, Out.ret_bind', if_pos rfl]
    exact ⟨rfl, fun j hj hj' => hk3 j hj hj' (by omega) (by omega)⟩
  · right
    have hkx : k < x.length := by omega
    have hky : k < y.length := by omega
    have hx : rdChar (openView x (some 0#8 :: rest)).mem (k : Int) = .ret x[k] := rdChar_some hkx
    have hy : rdChar (openView y (some 0#8 :: rest')).mem (k : Int) = .ret y[k] := rdChar_some hky
    have hne : ¬ x[k] = y[k] := by
      intro h
      have := hk4 hkx hky
      rw [h, hrefl] at this
      exact absurd this (by decide)
    refine ⟨k, hkx, hky, hk4 hkx hky, fun j hj hj' hjk => hk3 j hj hj' (by omega) hjk, ?_⟩
    rw [hx, Out.ret_bind', hy, Out.ret_bind', if_neg hne]
    split <;> rfl

theorem compare_shorter (eq : Byte → Byte → Bool) {x y : List Byte} {rest rest' : List (Cell Byte)} (hl : x.length < y.length) :
    strCompareWith eq (termView x rest) (termView y rest') = .ret (stFalse, -1) := by
  unfold strCompareWith
  rw [if_pos (by simpa [termView] using hl)]

theorem compare_longer (eq : Byte → Byte → Bool) {x y : List Byte} {rest rest' : List (Cell Byte)} (hl : y.length < x.length) :
    strCompareWith eq (termView x rest) (termView y rest') = .ret (stFalse, 1) := by
  unfold strCompareWith
  rw [if_neg (by simp only [termView]; omega), if_pos (by simpa [termView] using hl)]

end Zy
