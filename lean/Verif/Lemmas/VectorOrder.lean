import Verif.Lemmas.VectorEach
import Verif.Lemmas.VectorReach
import Verif.Model.VectorOrder
import Verif.Spec.VectorOrder
import Verif.Spec.VectorRun

/-! # Lemmas about programs that reorder vectors -/

namespace Zy

open Spec

variable {α β : Type}

/-! ## Lists -/

theorem exchange_length (l : List β) (i j : Nat) : (exchange l i j).length = l.length := by
  unfold exchange
  split <;> simp

theorem exchanges_length (ps : List (Nat × Nat)) : ∀ l : List β, (exchanges l ps).length = l.length := by
  induction ps with
  | nil => intro l; rfl
  | cons p ps ih => intro l; show (exchanges (exchange l p.1 p.2) ps).length = _; rw [ih, exchange_length]

theorem exchanges_append (l : List β) (ps qs : List (Nat × Nat)) :
    exchanges l (ps ++ qs) = exchanges (exchanges l ps) qs := by
  simp [exchanges, List.foldl_append]

theorem exchange_get (l : List β) {i j : Nat} (hi : i < l.length) (hj : j < l.length) (k : Nat) :
    (exchange l i j)[k]? = if k = j then l[i]? else if k = i then l[j]? else l[k]? := by
  unfold exchange
  simp only [List.getElem?_eq_getElem hi, List.getElem?_eq_getElem hj]
  rw [List.getElem?_set, List.getElem?_set]
  by_cases h1 : k = j
  · subst h1; simp [hj]
  · rw [if_neg (Ne.symm h1), if_neg h1]
    by_cases h2 : k = i
    · subst h2; simp [hi]
    · rw [if_neg (Ne.symm h2), if_neg h2]

theorem perm_cons_set (a : β) : ∀ (r : List β) (k : Nat) (hk : k < r.length), (r[k] :: r.set k a).Perm (a :: r)
  | b :: r, 0, _ => List.Perm.swap a b r
  | b :: r, k + 1, hk => by
    have ih := perm_cons_set a r k (by simpa using hk)
    simp only [List.getElem_cons_succ, List.set_cons_succ]
    exact (List.Perm.swap b _ _).trans ((ih.cons b).trans (List.Perm.swap a b r))

/-- Exchanging the first of the last elements with a later one. -/
theorem exchange_split (d : List β) (a : β) (r : List β) (k : Nat) (hk : k < r.length) :
    exchange (d ++ a :: r) d.length (d.length + 1 + k) = d ++ r[k] :: r.set k a := by
  apply List.ext_getElem?
  intro i
  rw [exchange_get _ (by simp) (by simp; omega)]
  have ha : (d ++ a :: r)[d.length]? = some a := by simp
  have hb : (d ++ a :: r)[d.length + 1 + k]? = some r[k] := by
    rw [List.getElem?_append_right (by omega), show d.length + 1 + k - d.length = k + 1 by omega]
    simp [hk]
  by_cases h1 : i = d.length + 1 + k
  · rw [if_pos h1, ha, h1, List.getElem?_append_right (by omega), show d.length + 1 + k - d.length = k + 1 by omega]
    simp [hk]
  · rw [if_neg h1]
    by_cases h2 : i = d.length
    · rw [if_pos h2, hb, h2]; simp
    · rw [if_neg h2]
      by_cases h3 : i < d.length
      · rw [List.getElem?_append_left h3, List.getElem?_append_left h3]
      · rw [List.getElem?_append_right (by omega), List.getElem?_append_right (by omega)]
        obtain ⟨n, hn⟩ : ∃ n, i - d.length = n + 1 := ⟨i - d.length - 1, by omega⟩
        rw [hn]
        simp only [List.getElem?_cons_succ]
        rw [List.getElem?_set, if_neg (by omega)]

theorem exchange_self (l : List β) (i : Nat) : exchange l i i = l := by
  unfold exchange
  split
  · rename_i x y h1 h2
    rw [h1] at h2
    injection h2 with h2
    subst h2
    apply List.ext_getElem?
    intro k
    have hi : i < l.length := by
      rcases Nat.lt_or_ge i l.length with h | h
      · exact h
      · rw [List.getElem?_eq_none h] at h1; cases h1
    rw [List.getElem?_set, List.getElem?_set, List.length_set]
    by_cases h : i = k
    · subst h
      rw [if_pos rfl, if_pos hi, h1]
    · rw [if_neg h, if_neg h]
  · rfl

theorem exchange_comm (l : List β) {i j : Nat} (hi : i < l.length) (hj : j < l.length) :
    exchange l i j = exchange l j i := by
  apply List.ext_getElem?
  intro k
  rw [exchange_get l hi hj, exchange_get l hj hi]
  by_cases h1 : k = j
  · by_cases h2 : k = i
    · subst h1; subst h2; rfl
    · rw [if_pos h1, if_neg h2, if_pos h1]
  · rw [if_neg h1]
    by_cases h2 : k = i
    · rw [if_pos h2, if_pos h2]
    · rw [if_neg h2, if_neg h2, if_neg h1]

theorem exchange_perm_lt (l : List β) {i j : Nat} (hij : i < j) (hj : j < l.length) : (exchange l i j).Perm l := by
  have hi : i < l.length := by omega
  have e : l = l.take i ++ l[i] :: l.drop (i + 1) := by
    rw [List.getElem_cons_drop, List.take_append_drop]
  have hlen : (l.take i).length = i := by rw [List.length_take]; omega
  have h := exchange_split (l.take i) l[i] (l.drop (i + 1)) (j - i - 1) (by rw [List.length_drop]; omega)
  rw [← e, hlen, show i + 1 + (j - i - 1) = j by omega] at h
  rw [h]
  conv => rhs; rw [e]
  exact (perm_cons_set _ _ _ _).append_left _

theorem exchange_perm (l : List β) (i j : Nat) : (exchange l i j).Perm l := by
  by_cases hi : i < l.length
  · by_cases hj : j < l.length
    · rcases Nat.lt_trichotomy i j with h | h | h
      · exact exchange_perm_lt l h hj
      · subst h; rw [exchange_self]
      · rw [exchange_comm l hi hj]; exact exchange_perm_lt l h hi
    · unfold exchange
      rw [List.getElem?_eq_none (Nat.le_of_not_lt hj)]
      split
      · rename_i h
        cases h
      · exact List.Perm.refl _
  · unfold exchange
    rw [List.getElem?_eq_none (Nat.le_of_not_lt hi)]

theorem exchanges_perm (ps : List (Nat × Nat)) : ∀ l : List β, (exchanges l ps).Perm l := by
  induction ps with
  | nil => intro l; exact List.Perm.refl _
  | cons p ps ih => intro l; exact (ih _).trans (exchange_perm l p.1 p.2)

/-- Each order can be reached by exchanges: one for each element but the last. -/
theorem exchanges_reach : ∀ (ys r : List β) (d : List β), r.Perm ys →
    ∃ ps, ps.length ≤ r.length - 1 ∧ Positions (d ++ r).length ps ∧ exchanges (d ++ r) ps = d ++ ys := by
  intro ys
  induction ys with
  | nil =>
    intro r d hp
    rw [hp.eq_nil]
    exact ⟨[], by simp, by simp [Positions], rfl⟩
  | cons y ys ih =>
    intro r d hp
    cases r with
    | nil => exact absurd hp.length_eq (by simp)
    | cons a r =>
      have hy : y ∈ a :: r := hp.mem_iff.2 (by simp)
      rcases List.mem_cons.1 hy with he | hm
      · subst he
        obtain ⟨ps, h1, h2, h3⟩ := ih r (d ++ [y]) hp.cons_inv
        refine ⟨ps, by simp; omega, ?_, by simpa using h3⟩
        intro p hp
        have := h2 p hp
        simp at this ⊢
        exact this
      · obtain ⟨k, hk, rfl⟩ := List.getElem_of_mem hm
        have h0 := perm_cons_set a r k hk
        obtain ⟨ps, h1, h2, h3⟩ := ih (r.set k a) (d ++ [r[k]]) (h0.trans hp).cons_inv
        refine ⟨(d.length, d.length + 1 + k) :: ps, ?_, ?_, ?_⟩
        · rw [List.length_set] at h1
          simp
          omega
        · intro p hp
          rcases List.mem_cons.1 hp with rfl | hp
          · simp; omega
          · have := h2 p hp
            simp at this ⊢
            exact this
        · show exchanges (exchange (d ++ a :: r) d.length (d.length + 1 + k)) ps = _
          rw [exchange_split d a r k hk]
          simpa using h3

/-- The first `k` exchanges of a reversal. -/
theorem exchanges_reverse_aux (l : List β) : ∀ k, k ≤ l.length / 2 → ∀ i, i < l.length →
    (exchanges l ((List.range k).map fun i => (i, l.length - 1 - i)))[i]? =
      if i < k ∨ l.length - 1 - i < k then l[l.length - 1 - i]? else l[i]? := by
  intro k
  induction k with
  | zero => intro _ i _; simp [exchanges]
  | succ k ih =>
    intro hk i hi
    rw [List.range_succ, List.map_append, exchanges_append]
    have hlen := exchanges_length ((List.range k).map fun i => (i, l.length - 1 - i)) l
    have ih' := fun i hi => ih (by omega) i hi
    generalize exchanges l ((List.range k).map fun i => (i, l.length - 1 - i)) = m at *
    show (exchange m k (l.length - 1 - k))[i]? = _
    rw [exchange_get m (by omega) (by omega), ih' k (by omega), ih' (l.length - 1 - k) (by omega), ih' i hi]
    by_cases h1 : i = l.length - 1 - k
    · rw [if_pos h1, if_neg (by omega), if_pos (by omega), h1, show l.length - 1 - (l.length - 1 - k) = k by omega]
    · rw [if_neg h1]
      by_cases h2 : i = k
      · rw [if_pos h2, if_neg (by omega), if_pos (by omega), h2]
      · rw [if_neg h2]
        by_cases h3 : i < k ∨ l.length - 1 - i < k
        · rw [if_pos h3, if_pos (by omega)]
        · rw [if_neg h3, if_neg (by omega)]

theorem exchanges_reverse (l : List β) :
    exchanges l ((List.range (l.length / 2)).map fun i => (i, l.length - 1 - i)) = l.reverse := by
  apply List.ext_getElem?
  intro i
  by_cases hi : i < l.length
  · rw [exchanges_reverse_aux l _ (Nat.le_refl _) i hi, List.getElem?_reverse hi]
    by_cases h : i < l.length / 2 ∨ l.length - 1 - i < l.length / 2
    · rw [if_pos h]
    · rw [if_neg h]
      congr 1
      omega
  · rw [List.getElem?_eq_none (by rw [exchanges_length]; omega), List.getElem?_eq_none (by simp; omega)]

/-! ## The vector -/

theorem vecSwap_world {s : VS α} {i j : Nat} {r : Status × VS α} (h : vecSwap s i j = .ret r) : r.2.w = s.w := by
  unfold vecSwap at h
  split at h
  · injection h with h; subst h; rfl
  · split at h
    · injection h with h; subst h; rfl
    · cases hd : s.v.data with
      | none => rw [hd] at h; cases h
      | some b =>
        rw [hd, withData_some] at h
        cases h1 : memmoveCells b.cells s.v.size i 1 with
        | ub w => rw [h1] at h; simp at h
        | ret c1 =>
          rw [h1] at h
          simp only [Out.ret_bind'] at h
          cases h2 : memmoveCells c1 i j 1 with
          | ub w => rw [h2] at h; simp at h
          | ret c2 =>
            rw [h2] at h
            simp only [Out.ret_bind'] at h
            cases h3 : memmoveCells c2 j s.v.size 1 with
            | ub w => rw [h3] at h; simp at h
            | ret c3 =>
              rw [h3] at h
              simp only [Out.ret_bind', Out.ret.injEq] at h
              rw [← h]

/-- One exchange on a reachable vector that is not full. -/
theorem swap_exchange {P : Params} {s : VS α} (h : Reach P s) {es : List (Cell α)} (he : contents s = .ret es)
    {i j : Nat} (hi : i < es.length) (hj : j < es.length) (hsp : s.v.size < s.v.cap) :
    ∃ s1, vecSwap s i j = .ret (stSuccess, s1) ∧ Reach P s1 ∧ contents s1 = .ret (exchange es i j) ∧
      s1.v.size = s.v.size ∧ s1.v.cap = s.v.cap ∧ s1.w = s.w := by
  obtain ⟨b, slack, R⟩ := h.rep
  rw [R.contents] at he
  injection he with he
  subst he
  have hne : ¬ (absOf s).elems.length = (absOf s).cap := by rw [← R.size, ← R.cap]; omega
  obtain ⟨junk, st, s1, a1, b1, sl1, _, hstep, hop, R1⟩ := op_ok R (.swap i j) trivial
  simp only [step, List.getElem?_eq_getElem hi, List.getElem?_eq_getElem hj, hne, if_false,
    Prod.mk.injEq] at hstep
  obtain ⟨rfl, rfl⟩ := hstep
  refine ⟨s1, hop, Reach.step h (op := .swap i j) trivial hop, ?_, ?_, ?_, ?_⟩
  · rw [R1.contents]
    unfold exchange
    simp only [List.getElem?_eq_getElem hi, List.getElem?_eq_getElem hj]
  · rw [R1.size, R.size]; simp
  · rw [R1.cap, R.cap]
  · exact vecSwap_world hop

theorem swapAll_ok {P : Params} (ps : List (Nat × Nat)) : ∀ {s : VS α} (_ : Reach P s) {es : List (Cell α)}
    (_ : contents s = .ret es) (_ : Positions es.length ps) (_ : s.v.size < s.v.cap),
    ∃ s1, swapAll s ps = .ret (stSuccess, s1) ∧ Reach P s1 ∧ contents s1 = .ret (exchanges es ps) ∧
      s1.v.size = s.v.size ∧ s1.v.cap = s.v.cap ∧ s1.w = s.w := by
  induction ps with
  | nil => intro s h es he _ _; exact ⟨s, rfl, h, he, rfl, rfl, rfl⟩
  | cons p ps ih =>
    intro s h es he hp hsp
    obtain ⟨h1, h2⟩ := hp p (by simp)
    obtain ⟨s1, e1, r1, c1, z1, k1, w1⟩ := swap_exchange h he h1 h2 hsp
    obtain ⟨s2, e2, r2, c2, z2, k2, w2⟩ := ih r1 c1
      (by intro q hq; rw [exchange_length]; exact hp q (by simp [hq])) (by rw [z1, k1]; exact hsp)
    refine ⟨s2, ?_, r2, c2, z2.trans z1, k2.trans k1, w2.trans w1⟩
    unfold swapAll
    rw [e1]
    simp only [Out.ret_bind']
    exact e2

/-! ## Selection sort -/

theorem getMacro_ok {P : Params} {s : VS α} (h : Reach P s) {es : List (Cell α)} (he : contents s = .ret es)
    {i : Nat} (hi : i < es.length) : vecGetMacro s i = .ret es[i] := by
  obtain ⟨b, slack, R⟩ := h.rep
  rw [R.contents] at he
  injection he with he
  subst he
  have hz := R.size
  unfold vecGetMacro vecGet
  rw [if_neg (by omega)]
  simp only
  unfold vecDeref
  rw [R.data, withData_some, R.cells, List.getElem?_append_left hi, List.getElem?_eq_getElem hi]

theorem minLoop_ok {P : Params} {cmp : Cell α → Cell α → Int} (hc : Comparator cmp) {s : VS α} (h : Reach P s)
    {es : List (Cell α)} (he : contents s = .ret es) (i0 : Nat) : ∀ n best i, i + n = es.length →
    (hb : best < es.length) → i0 ≤ best → best < i →
    (∀ k (hk : k < es.length), i0 ≤ k → k < i → cmp es[best] es[k] ≤ 0) →
    ∃ m, ∃ hm : m < es.length, minLoop cmp s n best i = .ret m ∧ i0 ≤ m ∧
      ∀ k (hk : k < es.length), i0 ≤ k → cmp es[m] es[k] ≤ 0 := by
  intro n
  induction n with
  | zero =>
    intro best i hn hb h0 _ hall
    exact ⟨best, hb, rfl, h0, fun k hk h1 => hall k hk h1 (by omega)⟩
  | succ n ih =>
    intro best i hn hb h0 hbi hall
    have hi : i < es.length := by omega
    unfold minLoop
    rw [getMacro_ok h he hi, getMacro_ok h he hb]
    simp only [Out.ret_bind']
    have refl : ∀ x, cmp x x ≤ 0 := by
      intro x
      rcases Int.le_total (cmp x x) 0 with h | h
      · exact h
      · exact (hc.flip x x).2 h
    by_cases hlt : cmp es[i] es[best] < 0
    · rw [if_pos hlt]
      apply ih i (i + 1) (by omega) hi (by omega) (by omega)
      intro k hk h1 h2
      by_cases hki : k = i
      · subst hki; exact refl _
      · exact hc.trans _ _ _ (Int.le_of_lt hlt) (hall k hk h1 (by omega))
    · rw [if_neg hlt]
      apply ih best (i + 1) (by omega) hb h0 (by omega)
      intro k hk h1 h2
      by_cases hki : k = i
      · subst hki
        exact (hc.flip _ _).2 (by omega)
      · exact hall k hk h1 (by omega)

theorem sortLoop_ok {P : Params} {cmp : Cell α → Cell α → Int} (hc : Comparator cmp) : ∀ n {s : VS α} (_ : Reach P s)
    {d r : List (Cell α)} (_ : contents s = .ret (d ++ r)) (_ : r.length = n) (_ : s.v.size < s.v.cap)
    (_ : Ascending cmp d) (_ : ∀ x ∈ d, ∀ y ∈ r, cmp x y ≤ 0),
    ∃ s1 l, sortLoop cmp n d.length s = .ret (stSuccess, s1) ∧ Reach P s1 ∧ contents s1 = .ret l ∧ Ascending cmp l ∧
      l.Perm (d ++ r) ∧ s1.v.size = s.v.size ∧ s1.v.cap = s.v.cap ∧ s1.w = s.w := by
  intro n
  induction n with
  | zero =>
    intro s h d r he hn _ hd _
    have : r = [] := List.length_eq_zero_iff.1 hn
    subst this
    rw [List.append_nil] at he
    exact ⟨s, d, rfl, h, he, hd, by simp, rfl, rfl, rfl⟩
  | succ n ih =>
    intro s h d r he hn hsp hd hdr
    cases r with
    | nil => simp at hn
    | cons a r =>
      have hrn : r.length = n := by simpa using hn
      have hget : ∀ k (hk : k < r.length), (d ++ a :: r)[d.length + 1 + k]'(by simp; omega) = r[k] := by
        intro k hk
        rw [List.getElem_append_right (by omega)]
        simp only [show d.length + 1 + k - d.length = k + 1 by omega, List.getElem_cons_succ]
      have hgeta : (d ++ a :: r)[d.length]'(by simp) = a := by simp
      obtain ⟨m, hm, e, h0, hmin⟩ := minLoop_ok hc h he d.length n d.length (d.length + 1) (by simp; omega) (by simp)
        (Nat.le_refl _) (by omega) (by
          intro k hk h1 h2
          have : k = d.length := by omega
          subst this
          rcases Int.le_total (cmp ((d ++ a :: r)[d.length]) ((d ++ a :: r)[d.length])) 0 with h | h
          · exact h
          · exact (hc.flip _ _).2 h)
      have key : ∀ (b : Cell α) (r' : List (Cell α)) (s' : VS α), Reach P s' → contents s' = .ret (d ++ b :: r') →
          (b :: r').Perm (a :: r) → (∀ y ∈ a :: r, cmp b y ≤ 0) → s'.v.size = s.v.size → s'.v.cap = s.v.cap →
          s'.w = s.w → ∃ s1 l, sortLoop cmp n (d.length + 1) s' = .ret (stSuccess, s1) ∧ Reach P s1 ∧
            contents s1 = .ret l ∧ Ascending cmp l ∧ l.Perm (d ++ a :: r) ∧ s1.v.size = s.v.size ∧
            s1.v.cap = s.v.cap ∧ s1.w = s.w := by
        intro b r' s' hr hct hp hb hz hk hw
        have hp' : ∀ y ∈ r', y ∈ a :: r := fun y hy => hp.mem_iff.1 (by simp [hy])
        have hbm : b ∈ a :: r := hp.mem_iff.1 (by simp)
        obtain ⟨s1, l, e1, r1, c1, a1, p1, z1, k1, w1⟩ := ih hr (d := d ++ [b]) (r := r') (by simpa using hct)
          (by have := hp.length_eq; simp at this; omega) (by rw [hz, hk]; exact hsp)
          (by
            unfold Ascending
            rw [List.pairwise_append]
            refine ⟨hd, by simp, ?_⟩
            intro x hx y hy
            simp at hy
            subst hy
            exact hdr x hx y hbm)
          (by
            intro x hx y hy
            rcases List.mem_append.1 hx with hx | hx
            · exact hdr x hx y (hp' y hy)
            · simp at hx
              subst hx
              exact hb y (hp' y hy))
        refine ⟨s1, l, by simpa using e1, r1, c1, a1, ?_, z1.trans hz, k1.trans hk, w1.trans hw⟩
        refine p1.trans ?_
        simp only [List.append_assoc, List.singleton_append]
        exact hp.append_left _
      have hall : ∀ y ∈ a :: r, cmp ((d ++ a :: r)[m]) y ≤ 0 := by
        intro y hy
        obtain ⟨k, hk, rfl⟩ := List.getElem_of_mem hy
        have := hmin (d.length + k) (by simp at hk ⊢; omega) (by omega)
        have e2 : (d ++ a :: r)[d.length + k]'(by simp at hk ⊢; omega) = (a :: r)[k] := by
          rw [List.getElem_append_right (by omega)]
          simp
        rw [e2] at this
        exact this
      unfold sortLoop
      rw [e]
      simp only [Out.ret_bind']
      by_cases hmd : m = d.length
      · subst hmd
        rw [if_pos rfl]
        simp only [Out.ret_bind']
        rw [hgeta] at hall
        exact key a r s h he (List.Perm.refl _) hall rfl rfl rfl
      · rw [if_neg hmd]
        obtain ⟨k, rfl⟩ : ∃ k, m = d.length + 1 + k := ⟨m - d.length - 1, by omega⟩
        have hk : k < r.length := by simp at hm; omega
        obtain ⟨s', e', r', c', z', k', w'⟩ := swap_exchange h he (i := d.length) (j := d.length + 1 + k)
          (by simp) hm hsp
        rw [e']
        simp only [Out.ret_bind']
        rw [exchange_split d a r k hk] at c'
        rw [hget k hk] at hall
        exact key r[k] (r.set k a) s' r' c' (perm_cons_set a r k hk) hall z' k' w'

theorem contents_length {P : Params} {s : VS α} (h : Reach P s) {es : List (Cell α)} (he : contents s = .ret es) :
    s.v.size = es.length := by
  obtain ⟨b, slack, R⟩ := h.rep
  rw [R.contents] at he
  injection he with he
  subst he
  exact R.size

/-- Selection sort of a full vector stops at the first exchange. -/
theorem sortLoop_full {P : Params} {cmp : Cell α → Cell α → Int} (hc : Comparator cmp) {s : VS α} (h : Reach P s)
    {es : List (Cell α)} (he : contents s = .ret es) (hfull : s.v.size = s.v.cap) : ∀ n i, i + n = es.length →
    sortLoop cmp n i s = .ret (stInsufficient, s) ∨
      (sortLoop cmp n i s = .ret (stSuccess, s) ∧
        ∀ j k (hj : j < es.length) (hk : k < es.length), i ≤ j → j < k → cmp es[j] es[k] ≤ 0) := by
  intro n
  induction n with
  | zero => intro i hn; exact .inr ⟨rfl, fun j k hj hk h1 h2 => by omega⟩
  | succ n ih =>
    intro i hn
    have hi : i < es.length := by omega
    obtain ⟨m, hm, e, h0, hmin⟩ := minLoop_ok hc h he i n i (i + 1) (by omega) hi (Nat.le_refl _) (by omega) (by
      intro k hk h1 h2
      have : k = i := by omega
      subst this
      rcases Int.le_total (cmp es[k] es[k]) 0 with h | h
      · exact h
      · exact (hc.flip _ _).2 h)
    have hz := contents_length h he
    unfold sortLoop
    rw [e]
    simp only [Out.ret_bind']
    by_cases hmi : m = i
    · subst hmi
      rw [if_pos rfl]
      simp only [Out.ret_bind']
      rcases ih (m + 1) (by omega) with h1 | ⟨h1, h2⟩
      · exact .inl h1
      · refine .inr ⟨h1, fun j k hj hk h3 h4 => ?_⟩
        by_cases hjm : j = m
        · subst hjm; exact hmin k hk (by omega)
        · exact h2 j k hj hk (by omega) h4
    · rw [if_neg hmi]
      have hsw : vecSwap s i m = .ret (stInsufficient, s) := by
        unfold vecSwap
        rw [if_neg (by omega), if_pos hfull]
      rw [hsw]
      simp only [Out.ret_bind']
      exact .inl (if_pos (by decide))

end Zy
