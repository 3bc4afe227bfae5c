import Verif.Model.Examples
import Verif.Spec.VectorSorted
import Verif.Props.Vector

/-!
# Lemmas: the example program
-/

namespace Zy

open Spec

variable {α β : Type}

namespace Spec.Comparator

variable {cmp : β → β → Int} (h : Comparator cmp)

theorem refl (h : Comparator cmp) (x : β) : cmp x x = 0 := by
  have := h.flip x x
  omega

theorem le_lt (h : Comparator cmp) {x y z : β} (h1 : cmp x y ≤ 0) (h2 : cmp y z < 0) : cmp x z < 0 := by
  have hz := h.flip z x
  have h3 := h.trans z x y
  have hy := h.flip z y
  omega

theorem lt_le (h : Comparator cmp) {x y z : β} (h1 : cmp x y < 0) (h2 : cmp y z ≤ 0) : cmp x z < 0 := by
  have hz := h.flip z x
  have h3 := h.trans y z x h2
  have hy := h.flip y x
  omega

end Spec.Comparator

theorem Spec.Comparator.consistent {cmp : Cell α → Cell α → Int} (h : Comparator cmp) : Consistent cmp :=
  ⟨h.trans, fun _ _ _ => h.le_lt, h.refl⟩

theorem SortedInto.nil {cmp : β → β → Int} {es : List β} (h : Ascending cmp es) : SortedInto cmp es [] es :=
  ⟨h, by simp, by simp⟩

theorem Ascending.range {cmp : Cell α → Cell α → Int} (hc : Comparator cmp) {es : List (Cell α)}
    (h : Ascending cmp es) : SortedRange cmp es 0 es.length := by
  intro p q hq hpq _ _
  rcases Nat.lt_or_eq_of_le hpq with hlt | rfl
  · exact List.pairwise_iff_getElem.1 h p q (by omega) hq hlt
  · rw [hc.refl]; exact Int.le_refl _

/-- Inserting at the lower bound. -/
theorem SortedInto.insert {cmp : β → β → Int} (hc : Comparator cmp) {es : List β} (h : Ascending cmp es)
    {x : β} {p : Nat} (hp : p ≤ es.length)
    (hlo : ∀ j (hj : j < es.length), j < p → cmp es[j] x < 0)
    (hhi : ∀ j (hj : j < es.length), p ≤ j → 0 ≤ cmp es[j] x) :
    SortedInto cmp es [x] (es.take p ++ [x] ++ es.drop p) := by
  have hlo' : ∀ y ∈ es.take p, cmp y x < 0 := by
    intro y hy
    obtain ⟨j, hj, rfl⟩ := List.mem_iff_getElem.1 hy
    have hjl : j < p ∧ j < es.length := by simp at hj; omega
    rw [List.getElem_take]
    exact hlo j hjl.2 hjl.1
  have hhi' : ∀ y ∈ es.drop p, 0 ≤ cmp y x := by
    intro y hy
    obtain ⟨j, hj, rfl⟩ := List.mem_iff_getElem.1 hy
    have hjl : p + j < es.length := by simp at hj; omega
    rw [List.getElem_drop]
    exact hhi (p + j) hjl (by omega)
  have hsplit : Ascending cmp (es.take p ++ es.drop p) := by rw [List.take_append_drop]; exact h
  unfold Ascending at hsplit
  rw [List.pairwise_append] at hsplit
  refine ⟨?_, ?_, ?_⟩
  · unfold Ascending
    rw [List.append_assoc, List.pairwise_append]
    refine ⟨hsplit.1, ?_, ?_⟩
    · rw [List.singleton_append, List.pairwise_cons]
      exact ⟨fun y hy => (hc.flip x y).2 (hhi' y hy), hsplit.2.1⟩
    · intro y hy z hz
      rw [List.singleton_append, List.mem_cons] at hz
      rcases hz with rfl | hz
      · exact Int.le_of_lt (hlo' y hy)
      · exact hsplit.2.2 y hy z hz
  · have h1 : (es.take p ++ [x] ++ es.drop p).Perm (es.take p ++ es.drop p ++ [x]) := by
      rw [List.append_assoc, List.append_assoc]
      exact (List.perm_append_comm (l₁ := [x])).append_left _
    rw [List.take_append_drop] at h1
    exact h1
  · intro k
    rw [List.filter_append, List.filter_append]
    have he : es.filter (fun x => cmp x k == 0) =
        (es.take p).filter (fun x => cmp x k == 0) ++ (es.drop p).filter (fun x => cmp x k == 0) := by
      rw [← List.filter_append, List.take_append_drop]
    by_cases hx : cmp x k = 0
    · have hnil : (es.take p).filter (fun x => cmp x k == 0) = [] := by
        rw [List.filter_eq_nil_iff]
        intro y hy
        have := hc.lt_le (hlo' y hy) (Int.le_of_eq hx)
        simp; omega
      rw [he, hnil]
      simp [hx]
    · rw [he]
      simp [hx]

theorem SortedInto.trans {cmp : β → β → Int} {es xs ys l m : List β} (h : SortedInto cmp es xs l)
    (h' : SortedInto cmp l ys m) : SortedInto cmp es (xs ++ ys) m := by
  refine ⟨h'.ascending, ?_, ?_⟩
  · rw [← List.append_assoc]
    exact h'.same.trans (h.same.append_right ys)
  · intro k
    rw [h'.order k, h.order k, List.filter_append, List.reverse_append, List.append_assoc]

theorem room_fixed {P : Params} (hfix : P.allocator = none) (c n : Nat) :
    Spec.room P c n = if n ≤ c then some c else none := by
  unfold Spec.room; simp [hfix]

/-- One iteration of the loop. -/
theorem sortedFill_step {P : Params} {s : VS α} (h : Reach P s) {es : List (Cell α)}
    (he : contents s = .ret es) {cmp : Cell α → Cell α → Int} (hc : Comparator cmp) (hs : Ascending cmp es)
    (x : Cell α) (hf : Fits P (es.length + 1)) :
    ∃ st p log, (vecBinarySearch s fun y => cmp y x) = .ret (st, some p, log) ∧ failed st = false ∧
      p ≤ es.length ∧ SortedInto cmp es [x] (es.take p ++ [x] ++ es.drop p) ∧
      ((P.allocator = none ∧ s.v.cap ≤ es.length ∧ vecInsert s p (.ext [x]) = .ret (stInsufficient, s)) ∨
       ((P.allocator = none → es.length < s.v.cap) ∧
        ∃ s', vecInsert s p (.ext [x]) = .ret (stSuccess, s') ∧ Reach P s' ∧
          contents s' = .ret (es.take p ++ [x] ++ es.drop p) ∧
          (P.allocator = none → s'.v.cap = s.v.cap))) := by
  obtain ⟨b, slack, R⟩ := h.rep
  have he' := he
  rw [R.contents] at he'
  injection he' with he'
  have hsz : s.v.size = es.length := he' ▸ R.size
  obtain ⟨st, p, log, hb, -, hp, hlo, hhi, -, hst⟩ := C09_binary_search_lower_bound h he cmp hc.consistent x 0
    es.length (by omega) (Ascending.range hc hs)
  rw [Nat.zero_add] at hp hhi
  have hsort := SortedInto.insert hc hs hp (fun j hj hjp => hlo j hj (by omega) hjp)
    (fun j hj hpj => hhi j hj hpj hj)
  refine ⟨st, p, log, ?_, ?_, hp, hsort, ?_⟩
  · unfold vecBinarySearch; rw [hsz]; exact hb
  · rcases hst with rfl | rfl <;> decide
  have hdom : InDomain P (absOf s) (.insertRange p [x]) := by
    show Fits P _
    rw [he']; exact hf
  obtain ⟨junk, st1, s1, a1, b1, sl1, hj, hstep, hop, R1⟩ := op_ok R (.insertRange p [x]) hdom
  have hni : ¬ p > (absOf s).elems.length := by rw [he']; omega
  have hne : ¬ [x] = [] := by simp
  simp only [step, hne, hni, if_false] at hstep
  have hcap : s.v.cap = (absOf s).cap := R.cap
  have hel : (absOf s).elems.length + [x].length = es.length + 1 := by rw [he']; rfl
  rw [hel] at hstep
  by_cases hroom : P.allocator = none ∧ s.v.cap ≤ es.length
  · left
    rw [room_fixed hroom.1, if_neg (by omega)] at hstep
    cases hstep
    refine ⟨hroom.1, hroom.2, ?_⟩
    have hg := growFor_none R (need := es.length + 1) hf (by
      rw [room_fixed hroom.1, if_neg (by omega)])
    unfold vecInsert vecInsertRange
    rw [if_neg (by simp [Src.isNull]), if_neg (by omega), hsz, add64_eq (hf.mul_growth R.growth255 R.esz1).2.2, hg,
      Out.ret_bind', if_pos (show failed stInsufficient = true by decide)]
  · right
    have hok : ∃ c, Spec.room P (absOf s).cap (es.length + 1) = some c ∧
        (P.allocator = none → c = (absOf s).cap) := by
      cases hal : P.allocator with
      | none =>
        have hlt : ¬ s.v.cap ≤ es.length := fun hh => hroom ⟨hal, hh⟩
        rw [room_fixed hal, if_pos (by omega)]
        exact ⟨_, rfl, fun _ => rfl⟩
      | some a =>
        unfold Spec.room
        split
        · exact ⟨_, rfl, fun hh => by cases hh⟩
        · simp only [hal, Option.isSome_some, if_true]
          exact ⟨_, rfl, fun hh => by cases hh⟩
    obtain ⟨c, hr, hcc⟩ := hok
    simp only [hr, Prod.mk.injEq] at hstep
    obtain ⟨rfl, rfl⟩ := hstep
    refine ⟨fun hn => Nat.lt_of_not_le fun hh => hroom ⟨hn, hh⟩, s1, hop, Reach.step h hdom hop, ?_, ?_⟩
    · rw [R1.contents, he']
    · intro hn
      rw [R1.cap, hcap]
      exact hcc hn

theorem sortedFill_ok {P : Params} {cmp : Cell α → Cell α → Int} (hc : Comparator cmp) (xs : List (Cell α)) :
    ∀ {s : VS α} {es : List (Cell α)}, Reach P s → contents s = .ret es → Ascending cmp es →
    Fits P (es.length + xs.length) →
    ∃ st s' n l, sortedFill cmp s xs = .ret (st, s') ∧ Reach P s' ∧ contents s' = .ret l ∧
      SortedInto cmp es (xs.take n) l ∧ n ≤ xs.length ∧ (n = xs.length → st = stSuccess) ∧
      (n < xs.length → P.allocator = none ∧ st = stInsufficient) ∧
      (P.allocator = none → n = min xs.length (s.v.cap - es.length) ∧ s'.v.cap = s.v.cap) := by
  induction xs with
  | nil =>
    intro s es h he hs _
    refine ⟨stSuccess, s, 0, es, rfl, h, he, SortedInto.nil hs, by simp, fun _ => rfl, by simp, ?_⟩
    intro _; exact ⟨by simp, rfl⟩
  | cons x xs ih =>
    intro s es h he hs hf
    rw [List.length_cons] at hf
    obtain ⟨st, p, log, hb, hst, hp, hsort, hins⟩ := sortedFill_step h he hc hs x (hf.mono (by omega))
    rw [sortedFill, hb, Out.ret_bind', if_neg (by simp [hst])]
    dsimp only
    rcases hins with ⟨hn, hfull, hi⟩ | ⟨hroom, s1, hi, h1, he1, hc1⟩
    · rw [hi, Out.ret_bind', if_pos (show failed stInsufficient = true by decide)]
      refine ⟨_, s, 0, es, rfl, h, he, SortedInto.nil hs, by simp, by simp, fun _ => ⟨hn, rfl⟩, fun _ => ?_⟩
      exact ⟨by omega, rfl⟩
    · rw [hi, Out.ret_bind', if_neg (show ¬ failed stSuccess = true by decide)]
      have hlen : (es.take p ++ [x] ++ es.drop p).length = es.length + 1 := by simp; omega
      obtain ⟨st', s', n, l, hrun, h', he', hl, hn, ha, hb', hfix⟩ := ih h1 he1 hsort.ascending
        (hf.mono (by rw [hlen]; omega))
      refine ⟨st', s', n + 1, l, hrun, h', he', ?_, by simp; omega, ?_, ?_, ?_⟩
      · have := SortedInto.trans hsort hl
        simpa using this
      · intro h; exact ha (by simp at h; exact h)
      · intro h; exact hb' (by simp at h; exact h)
      · intro hn'
        obtain ⟨e1, e2⟩ := hfix hn'
        rw [hc1 hn'] at e1 e2
        rw [hlen] at e1
        have := hroom hn'
        exact ⟨by rw [e1, List.length_cons]; omega, e2⟩

end Zy
