import Verif.Model.Work
import Verif.Spec.Work
import Verif.Lemmas.ListNodes
import Verif.Lemmas.ListSame
import Verif.Lemmas.VectorSame
import Verif.Lemmas.VectorEach
import Verif.Lemmas.VectorReach

/-!
# Lemmas: work lists
-/

namespace Zy

open Spec

variable {α : Type} {F : (Nat → Status) → Nat × Nat → Prop}

theorem plenty_mono {K : Source} {m m' : Nat} (h : Plenty K m) (hm : m' ≤ m) : Plenty K m' := by
  cases K with
  | dynamic answer => exact ⟨h.1, Nat.lt_of_le_of_lt hm h.2⟩
  | fixed c => exact Nat.le_trans hm h

theorem plenty_next {K : Source} {m len : Nat} (h : Plenty K m) (hl : len + 1 ≤ m) (asked : Nat) : Next K asked len := by
  cases K with
  | dynamic answer => exact h.1 asked
  | fixed c => exact Nat.lt_of_lt_of_le (Nat.lt_of_lt_of_le (Nat.lt_succ_self _) hl) h

theorem plenty_more {K : Source} {m len : Nat} (h : Plenty K m) (hl : len + 1 ≤ m) : OneMore K len := by
  cases K with
  | dynamic answer => exact Nat.lt_of_le_of_lt hl h.2
  | fixed c => trivial

/-- Pushing some elements. -/
theorem pushAll_ok {K : Source} {dt : Bool} {m : Nat} (hp : Plenty K m) : ∀ (xs : List (Cell α)) {s : LS α}
    {ch : List (Nat × Cell α)} {fs : List Nat} {d : Deque α}, LRep F K dt s ch fs d → d.elems.length + xs.length ≤ m →
    ∃ sts s' ch' fs' k, runList s (xs.map .pushBack) = .ret (sts, s') ∧
      LRep F K dt s' ch' fs' ⟨d.elems ++ xs, k, d.dead⟩
  | [], s, ch, fs, d, R, _ => ⟨[], s, ch, fs, d.asked, rfl, by rw [List.append_nil]; exact R⟩
  | x :: xs, s, ch, fs, d, R, hl => by
    rw [List.length_cons] at hl
    obtain ⟨s1, ch1, fs1, h1, R1⟩ := pushBack_ok R (src := .ext x) (Or.inl rfl)
      (fits_len R (plenty_more hp (by omega)))
    rw [addBack_next (plenty_next hp (by omega) _)] at h1 R1
    obtain ⟨sts, s2, ch2, fs2, k, h2, R2⟩ := pushAll_ok hp xs R1 (by
      rw [List.length_append]; simp only [List.length_singleton]; omega)
    refine ⟨stSuccess :: sts, s2, ch2, fs2, k, ?_, ?_⟩
    · rw [List.map_cons, runList]
      show (listPushBack s (.ext x)).bind _ = _
      rw [h1, Out.ret_bind']
      show (runList s1 _).bind _ = _
      rw [h2, Out.ret_bind']
    · simpa using R2

theorem workList_ok {K : Source} {dt : Bool} (hF : FreesOK F K) {f : Cell α → List (Cell α)} {b m : Nat}
    (hb : ∀ x, (f x).length ≤ b) (hp : Plenty K m) : ∀ (n : Nat) {s : LS α} {ch : List (Nat × Cell α)} {fs : List Nat}
    {d : Deque α}, LRep F K dt s ch fs d → d.elems.length + n * b ≤ m →
    ∃ s' ch' fs' k, workList f n s = .ret ((levels f n d.elems).1, s') ∧
      LRep F K dt s' ch' fs' ⟨(levels f n d.elems).2, k, d.dead ++ buried dt (levels f n d.elems).1⟩
  | 0, s, ch, fs, d, R, _ => by
    refine ⟨s, ch, fs, d.asked, rfl, ?_⟩
    have : buried dt ([] : List (Cell α)) = [] := by unfold buried; split <;> rfl
    simp only [levels, this, List.append_nil]
    exact R
  | n + 1, s, ch, fs, d, R, hl => by
    have hh : (listGetHead s).2 = firstOf ch none := R.ends.head
    cases ch with
    | nil =>
      have hd : d.elems = [] := R.elems
      refine ⟨s, [], fs, d.asked, ?_, ?_⟩
      · rw [workList, hh, hd]; rfl
      · have : buried dt ([] : List (Cell α)) = [] := by unfold buried; split <;> rfl
        rw [hd]
        simp only [levels, this, List.append_nil]
        rw [← hd]
        exact R
    | cons x c =>
      have hd : d.elems = x.2 :: c.map Prod.snd := by rw [R.elems]; simp
      have hx : listGet s (some x.1) = .ret x.2 := by
        obtain ⟨nd, h1, h2⟩ := seg_data R.core.seg (k := 0) (x := x) rfl
        rw [get_of_mem h1, h2]
      obtain ⟨s1, fs1, h1, R1⟩ := popFront_ok hF R
      have hz : d.elems.length = (c.map Prod.snd).length + 1 := by rw [hd]; rfl
      have hbx := hb x.2
      rw [Nat.add_mul, Nat.one_mul] at hl
      obtain ⟨sts, s2, ch2, fs2, k2, h2, R2⟩ := pushAll_ok hp (f x.2) R1 (by
        show (c.map Prod.snd).length + _ ≤ m
        omega)
      obtain ⟨s3, ch3, fs3, k3, h3, R3⟩ := workList_ok hF hb hp n R2 (by
        show (c.map Prod.snd ++ f x.2).length + _ ≤ m
        rw [List.length_append]; omega)
      refine ⟨s3, ch3, fs3, k3, ?_, ?_⟩
      · rw [workList, hh, hd]
        show (listGet s (some x.1)).bind _ = _
        rw [hx, Out.ret_bind', h1, Out.ret_bind']
        show (runList s1 _).bind _ = _
        rw [h2, Out.ret_bind']
        show (workList f n s2).bind _ = _
        rw [h3, Out.ret_bind']
        rfl
      · rw [hd]
        have : buried dt (levels f (n + 1) (x.2 :: c.map Prod.snd)).1 =
            buried dt [x.2] ++ buried dt (levels f n (c.map Prod.snd ++ f x.2)).1 := by
          unfold buried; cases dt <;> rfl
        rw [this, ← List.append_assoc]
        exact R3

/-! ## The vector -/

/-- One step of a reachable vector that has all slots it needs. -/
theorem reach_step {P : Params} {s : VS α} (h : Reach P s) (op : VOp α) (hp : Plain op) (hd : InDomain P (absOf s) op)
    (hw : P.allocator.isSome ∨ demand (absOf s).elems op ≤ (absOf s).cap) :
    ∃ s', vecOp s op = .ret ((plainStep (absOf s).elems op).1, s') ∧ Reach P s' ∧
      (absOf s').elems = (plainStep (absOf s).elems op).2.1 ∧
      (absOf s').dead = (absOf s).dead ++ killed P (plainStep (absOf s).elems op).2.2 ∧
      (P.allocator = none → (absOf s').cap = (absOf s).cap) := by
  obtain ⟨b, slack, R⟩ := h.rep
  obtain ⟨junk, st, s', a', b', sl', -, hst, hop, R'⟩ := op_ok R op hd
  obtain ⟨e1, e2, e3, e4⟩ := step_plain junk hp hw
  rw [hst] at e1 e2 e3 e4
  have ha : absOf s' = a' := R'.abs_eq
  dsimp only at e1
  refine ⟨s', by rw [hop, e1], .step h hd hop, by rw [ha]; exact e2, by rw [ha]; exact e3, fun e => by rw [ha]; exact e4 e⟩

theorem fits_fewer {P : Params} {m m' : Nat} (h : Fits P m) (hm : m' ≤ m) : Fits P m' := by
  unfold Fits at h ⊢
  exact Nat.lt_of_le_of_lt (Nat.mul_le_mul_right _ (Nat.mul_le_mul_right _ hm)) h

theorem room_cap {P : Params} {cap cap' m : Nat} (h : RoomFor P cap m) (hc : P.allocator = none → cap' = cap) :
    RoomFor P cap' m := by
  refine ⟨h.1, ?_⟩
  cases e : P.allocator with
  | some a => exact Or.inl rfl
  | none =>
    rw [hc e]
    rcases h.2 with h2 | h2
    · rw [e] at h2; cases h2
    · exact Or.inr h2

theorem killed_nil (P : Params) : killed P ([] : List (Cell α)) = [] := by unfold killed; split <;> rfl

/-- Pushing some elements. -/
theorem pushAllV_ok {P : Params} {m : Nat} : ∀ (xs : List (Cell α)) {s : VS α}, Reach P s → RoomFor P (absOf s).cap m →
    (absOf s).elems.length + xs.length ≤ m →
    ∃ sts s', runVec s (xs.map .push) = .ret (sts, s') ∧ Reach P s' ∧ (absOf s').elems = (absOf s).elems ++ xs ∧
      (absOf s').dead = (absOf s).dead ∧ RoomFor P (absOf s').cap m
  | [], s, h, hr, _ => ⟨[], s, rfl, h, by rw [List.append_nil], rfl, hr⟩
  | x :: xs, s, h, hr, hl => by
    rw [List.length_cons] at hl
    obtain ⟨s1, e1, h1, g1, d1, c1⟩ := reach_step h (.push x) trivial (fits_fewer hr.1 (by omega))
      (hr.2.imp_right fun h => by show (absOf s).elems.length + 1 ≤ _; omega)
    have g1' : (absOf s1).elems = (absOf s).elems ++ [x] := g1
    obtain ⟨sts, s2, e2, h2, g2, d2, r2⟩ := pushAllV_ok xs h1 (room_cap hr c1) (by
      rw [g1', List.length_append]; simp only [List.length_singleton]; omega)
    refine ⟨stSuccess :: sts, s2, ?_, h2, by rw [g2, g1']; simp, ?_, r2⟩
    · rw [List.map_cons, runVec, e1, Out.ret_bind']
      show (runVec s1 _).bind _ = _
      rw [e2, Out.ret_bind']
      rfl
    · rw [d2, d1]
      show _ ++ killed P [] = _
      rw [killed_nil, List.append_nil]

theorem workVec_ok {P : Params} {f : Cell α → List (Cell α)} {b m : Nat} (hb : ∀ x, (f x).length ≤ b) :
    ∀ (n : Nat) {s : VS α}, Reach P s → RoomFor P (absOf s).cap m → (absOf s).elems.length + n * b ≤ m →
    ∃ s', workVec f n s = .ret ((depths f n (absOf s).elems).1, s') ∧ Reach P s' ∧
      (absOf s').elems = (depths f n (absOf s).elems).2 ∧
      (absOf s').dead = (absOf s).dead ++ killed P (depths f n (absOf s).elems).1
  | 0, s, h, _, _ => ⟨s, rfl, h, rfl, by simp only [depths, killed_nil, List.append_nil]⟩
  | n + 1, s, h, hr, hl => by
    obtain ⟨bl, slack, R⟩ := h.rep
    rcases List.eq_nil_or_concat (absOf s).elems with he | ⟨q, x, he⟩
    · have hz : vecGetSize s = 0 := by
        show s.v.size = 0
        rw [R.size, he]; rfl
      refine ⟨s, ?_, h, ?_, ?_⟩
      · rw [workVec, hz, he]; rfl
      · rw [he]; rfl
      · rw [he]
        show _ = _ ++ killed P []
        rw [killed_nil, List.append_nil]
    · rw [List.concat_eq_append] at he
      have hz : vecGetSize s = q.length + 1 := by
        show s.v.size = _
        rw [R.size, he]; simp
      have hx : vecGetMacro s q.length = .ret x := R.getMacro (by rw [he]; simp)
      have hq : (absOf s).elems.length = q.length + 1 := by rw [he]; simp
      have hbx := hb x
      rw [Nat.add_mul, Nat.one_mul] at hl
      obtain ⟨s1, e1, h1, g1, d1, c1⟩ := reach_step h .pop trivial trivial (Or.inr (Nat.zero_le _))
      have hst : plainStep (absOf s).elems .pop = (stSuccess, q, [x]) := by rw [he]; simp [plainStep]
      rw [hst] at e1 g1 d1
      dsimp only at e1 g1 d1
      obtain ⟨sts, s2, e2, h2, g2, d2, r2⟩ := pushAllV_ok (f x) h1 (room_cap hr c1) (by rw [g1]; omega)
      rw [g1] at g2
      obtain ⟨s3, e3, h3, g3, d3⟩ := workVec_ok hb n h2 r2 (by rw [g2, List.length_append]; omega)
      have hdp : depths f (n + 1) (absOf s).elems = (x :: (depths f n (q ++ f x)).1, (depths f n (q ++ f x)).2) := by
        rw [he]; simp [depths]
      rw [g2] at e3 g3 d3
      rw [hdp]
      refine ⟨s3, ?_, h3, g3, ?_⟩
      · rw [workVec, hz, if_neg (Nat.succ_ne_zero _), Nat.add_sub_cancel, hx, Out.ret_bind']
        show (vecOp s .pop).bind _ = _
        rw [e1, Out.ret_bind']
        show (runVec s1 _).bind _ = _
        rw [e2, Out.ret_bind']
        show (workVec f n s2).bind _ = _
        rw [e3, Out.ret_bind']
      · rw [d3, d2, d1, List.append_assoc]
        congr 1
        unfold killed; split <;> rfl

/-! ## The order does not matter -/

/-- Taking any item from a bag and putting back what is found there, until the bag is empty after `n` rounds. -/
inductive Bag {β : Type} (f : β → List β) : Nat → List β → List β → Prop where
  | nil : Bag f 0 [] []
  | take {n : Nat} {q q' t : List β} {x : β} (h : q.Perm (x :: q')) (hb : Bag f n (q' ++ f x) t) : Bag f (n + 1) q (x :: t)

theorem Bag.perm {β : Type} {f : β → List β} {n : Nat} {q r t : List β} (h : Bag f n q t) (hr : r.Perm q) : Bag f n r t := by
  cases h with
  | nil => rw [List.perm_nil.1 hr]; exact .nil
  | take h hb => exact .take (hr.trans h) hb

theorem perm_swap_out {β : Type} {x y : β} {q r : List β} (h : (x :: q).Perm (y :: r)) (hn : x ≠ y) :
    ∃ m, q.Perm (y :: m) ∧ r.Perm (x :: m) := by
  have hy : y ∈ q := by
    have : y ∈ x :: q := h.symm.subset (by simp)
    rcases List.mem_cons.1 this with e | e
    · exact absurd e.symm hn
    · exact e
  obtain ⟨a, c, rfl⟩ := List.append_of_mem hy
  refine ⟨a ++ c, List.perm_middle, ?_⟩
  have h1 : (y :: r).Perm (y :: x :: (a ++ c)) :=
    h.symm.trans ((List.Perm.cons x List.perm_middle).trans (List.Perm.swap y x _))
  exact h1.cons_inv

/-- Any other item could have been taken first. -/
theorem Bag.first {β : Type} {f : β → List β} : ∀ (n : Nat) {q q' t : List β} {y : β}, Bag f (n + 1) q t →
    q.Perm (y :: q') → ∃ t', Bag f n (q' ++ f y) t' ∧ t.Perm (y :: t') := by
  intro n
  induction n with
  | zero =>
    intro q q' t y h hy
    cases h with
    | @take _ _ p t0 x h hb =>
      have hp : (x :: p).Perm (y :: q') := h.symm.trans hy
      have h0 : p ++ f x = [] := by
        cases hp0 : p ++ f x with
        | nil => rfl
        | cons a l => rw [hp0] at hb; cases hb
      have hp0 := (List.append_eq_nil_iff.1 h0).1
      subst hp0
      have hq : q' = [] := by
        have := hp.length_eq
        simp only [List.length_cons, List.length_nil] at this
        exact List.length_eq_zero_iff.1 (by omega)
      subst hq
      have e : x = y := by simpa using hp
      subst e
      exact ⟨t0, hb, .refl _⟩
  | succ n ih =>
    intro q q' t y h hy
    cases h with
    | @take _ _ p t0 x h hb =>
      have hp : (x :: p).Perm (y :: q') := h.symm.trans hy
      by_cases e : x = y
      · subst e
        exact ⟨t0, hb.perm (List.Perm.append_right _ hp.symm.cons_inv), .refl _⟩
      · obtain ⟨m, h1, h2⟩ := perm_swap_out hp e
        obtain ⟨t', b1, b2⟩ := ih hb (y := y) (q' := m ++ f x) (List.Perm.append_right _ h1)
        refine ⟨x :: t', .take (q' := m ++ f y) (List.Perm.append_right _ h2) (b1.perm ?_),
          (List.Perm.cons x b2).trans (.swap y x _)⟩
        rw [List.append_assoc, List.append_assoc]
        exact List.Perm.append_left _ List.perm_append_comm

theorem bag_levels {β : Type} {f : β → List β} : ∀ {n : Nat} {q : List β}, (levels f n q).2 = [] →
    ∃ k, k ≤ n ∧ Bag f k q (levels f n q).1
  | 0, q, h => by
    have : q = [] := h
    subst this
    exact ⟨0, Nat.le_refl _, .nil⟩
  | n + 1, [], _ => ⟨0, Nat.zero_le _, .nil⟩
  | n + 1, x :: q, h => by
    obtain ⟨k, hk, hb⟩ := bag_levels (n := n) (q := q ++ f x) h
    exact ⟨k + 1, Nat.succ_le_succ hk, .take (.refl _) hb⟩

theorem bag_depths {β : Type} {f : β → List β} : ∀ {n k : Nat} {q t : List β}, Bag f k q t → k ≤ n →
    (depths f n q).2 = [] ∧ (depths f n q).1.Perm t
  | 0, k, q, t, h, hk => by
    obtain rfl : k = 0 := by omega
    cases h
    exact ⟨rfl, .refl _⟩
  | n + 1, k, q, t, h, hk => by
    rcases List.eq_nil_or_concat q with rfl | ⟨p, x, rfl⟩
    · cases h with
      | nil => exact ⟨rfl, .refl _⟩
      | take h hb => exact absurd h.length_eq (by simp)
    · rw [List.concat_eq_append] at h ⊢
      have hp : (p ++ [x]).Perm (x :: p) := List.perm_append_comm
      cases k with
      | zero =>
        cases hq : p ++ [x] with
        | nil => simp at hq
        | cons a l => rw [hq] at h; cases h
      | succ k =>
        obtain ⟨t', b1, b2⟩ := Bag.first k h hp
        obtain ⟨e1, e2⟩ := bag_depths (n := n) b1 (by omega)
        have hdp : depths f (n + 1) (p ++ [x]) = (x :: (depths f n (p ++ f x)).1, (depths f n (p ++ f x)).2) := by
          simp [depths]
        rw [hdp]
        exact ⟨e1, (List.Perm.cons x e2).trans b2.symm⟩

end Zy
