import Verif.Spec.ArgWritten

/-!
# Lemmas: how arguments are written
-/

namespace Zy

open Spec

theorem find_first {β : Type} (p : β × Nat → Bool) : ∀ (l : List β) (j k : Nat) (d : β), l[j]? = some d →
    p (d, j + k) = true → (∀ m, m < j → ∀ e, l[m]? = some e → p (e, m + k) = false) →
    (l.zipIdx k).find? p = some (d, j + k)
  | [], j, _, _, h, _, _ => by simp at h
  | x :: l, 0, k, d, h, hp, _ => by
    simp only [List.getElem?_cons_zero, Option.some.injEq] at h
    subst h
    rw [Nat.zero_add] at hp ⊢
    simp [List.zipIdx_cons, hp]
  | x :: l, j + 1, k, d, h, hp, hn => by
    rw [List.getElem?_cons_succ] at h
    have h0 := hn 0 (by omega) x rfl
    rw [Nat.zero_add] at h0
    rw [List.zipIdx_cons, List.find?_cons_of_neg (by simp [h0])]
    have := find_first p l j (k + 1) d h (by rw [show j + (k + 1) = j + 1 + k by omega]; exact hp) fun m hm e he => by
      have := hn (m + 1) (by omega) e (by rw [List.getElem?_cons_succ]; exact he)
      rwa [show m + 1 + k = m + (k + 1) by omega] at this
    rw [this, show j + (k + 1) = j + 1 + k by omega]

theorem lookup_named {D : List ArgDef} {n : Tok} {flag : Bool} {j : Nat} (h : Named D n flag j) :
    ∃ d, lookup D n = some (d, j) ∧ d.boolean = flag := by
  obtain ⟨d, h1, h2, h3, h4⟩ := h
  refine ⟨d, ?_, h3⟩
  have := find_first (fun p => p.1.name == n) D j 0 d h1 (by simp [h2]) fun m hm e he => by simpa using h4 m hm e he
  exact this

theorem cluster_written {D : List ArgDef} {cs : List Byte} {js : List Nat} (h : FlagChars D cs js) (rest : List Byte) :
    cluster D (cs ++ rest) = (js.map (fun k => Item.opt k none) ++ (cluster D rest).1, (cluster D rest).2) := by
  induction h with
  | nil => rfl
  | cons hc _ ih =>
    obtain ⟨d, h1, h2⟩ := lookup_named hc
    rw [List.cons_append, cluster, h1]
    dsimp only
    rw [if_pos h2, ih]
    rfl

theorem dash_not_dashDash {t : Tok} {x : List Byte} (e : t = dash ++ x) (hx : x.head? ≠ some 45#8) :
    t ≠ dashDash ∧ ¬ dashDash <+: t := by
  have : ¬ dashDash <+: t := by
    rintro ⟨y, hy⟩
    rw [e] at hy
    have : x = 45#8 :: y := by
      have h := congrArg List.tail hy
      exact h.symm
    rw [this] at hx
    exact hx rfl
  refine ⟨fun h => this (h ▸ List.prefix_refl _), this⟩

theorem written_reading {D : List ArgDef} {ts : List Tok} {is : List Item} (h : Written D ts is) :
    reading true D .any ts = (is, none) := by
  induction h with
  | nil => rfl
  | @plain t ts is ht _ ih =>
    have h0 : ¬ (dash <+: t ∧ t ≠ dash) := fun ⟨h1, h2⟩ => ht.elim h2 fun h => h h1
    have h1 : ¬ dashDash <+: t := by
      intro h
      rcases ht with rfl | ht
      · exact absurd h (by decide)
      · exact ht (List.IsPrefix.trans (by decide) h)
    have h2 : t ≠ dashDash := fun h => h1 (h ▸ List.prefix_refl _)
    rw [reading, if_neg h2, if_neg h1, if_neg h0, ih]
    rfl
  | @longFlag t j ts is hd hn hj _ ih =>
    obtain ⟨d, h1, h2⟩ := lookup_named hj
    rw [reading, if_neg hn, if_pos hd, h1]
    dsimp only
    rw [if_pos h2, ih]
    rfl
  | @longValue t v j ts is hd hn hj _ ih =>
    obtain ⟨d, h1, h2⟩ := lookup_named hj
    rw [reading, if_neg hn, if_pos hd, h1]
    dsimp only
    rw [if_neg (by simp [h2]), reading, ih]
    rfl
  | @attached cs v js c j ts is hf hm hj hv _ ih =>
    obtain ⟨d, h1, h2⟩ := lookup_named hj
    have hm' : (cs ++ [c] ++ v).head? ≠ some 45#8 := by
      cases cs <;> exact hm
    have e : dash ++ cs ++ [c] ++ v = dash ++ (cs ++ [c] ++ v) := by simp
    obtain ⟨g1, g2⟩ := dash_not_dashDash e hm'
    have hne : dash ++ cs ++ [c] ++ v ≠ dash := by
      rw [e]
      intro h
      have := congrArg List.length h
      simp [dash] at this
    have ht : (dash ++ cs ++ [c] ++ v).tail = cs ++ (c :: v) := by simp [dash]
    have hc : cluster D (c :: v) = ([.opt j (some v)], .attached) := by
      rw [cluster, h1]
      dsimp only
      rw [if_neg (by simp [h2]), if_neg hv]
    rw [reading, if_neg g1, if_neg g2, if_pos ⟨⟨_, e.symm⟩, hne⟩, ht, cluster_written hf, hc]
    dsimp only
    rw [ih]
    simp [prepend]
  | @next cs v js c j ts is hf hm hj _ ih =>
    obtain ⟨d, h1, h2⟩ := lookup_named hj
    have e : dash ++ cs ++ [c] = dash ++ (cs ++ [c]) := by simp
    obtain ⟨g1, g2⟩ := dash_not_dashDash e hm
    have hne : dash ++ cs ++ [c] ≠ dash := by
      rw [e]
      intro h
      have := congrArg List.length h
      simp [dash] at this
    have ht : (dash ++ cs ++ [c]).tail = cs ++ [c] := by simp [dash]
    have hc : cluster D [c] = ([], .wants j) := by
      rw [cluster, h1]
      dsimp only
      rw [if_neg (by simp [h2]), if_pos rfl]
    rw [reading, if_neg g1, if_neg g2, if_pos ⟨⟨_, e.symm⟩, hne⟩, ht, cluster_written hf, hc]
    dsimp only
    rw [reading, ih]
    simp [prepend]

theorem occurs_iff (is : List Item) (j : Nat) : occurs is j = true ↔ ∃ v, Item.opt j v ∈ is := by
  unfold occurs
  rw [List.any_eq_true]
  constructor
  · rintro ⟨x, hx, h⟩
    cases x with
    | opt k v =>
      have h : (k == j) = true := h
      rw [beq_iff_eq] at h
      subst h
      exact ⟨v, hx⟩
    | plain t => cases h
  · rintro ⟨v, hv⟩
    exact ⟨_, hv, by simp⟩

end Zy
