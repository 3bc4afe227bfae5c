import Verif.Spec.Dictionary
import Verif.Lemmas.Examples

/-!
# Lemmas: a sorted vector used as a dictionary
-/

namespace Zy

open Spec

variable {α β : Type}

namespace Spec.Comparator

variable {cmp : β → β → Int}

theorem gt_iff (h : Comparator cmp) (x y : β) : 0 < cmp x y ↔ cmp y x < 0 := by
  have h1 := h.flip x y
  have h2 := h.flip y x
  omega

theorem eq_symm (h : Comparator cmp) {x y : β} (hx : cmp x y = 0) : cmp y x = 0 := by
  have h1 := h.flip x y
  have h2 := h.flip y x
  omega

theorem eq_trans (h : Comparator cmp) {x y z : β} (hx : cmp x y = 0) (hy : cmp y z = 0) : cmp x z = 0 := by
  have h1 := h.trans x y z (by omega) (by omega)
  have h2 := h.trans z y x (Int.le_of_eq (h.eq_symm hy)) (Int.le_of_eq (h.eq_symm hx))
  have h3 := h.flip z x
  omega

/-- Elements with the same key match the same keys. -/
theorem same_key (h : Comparator cmp) {x y : β} (hx : cmp x y = 0) (k : β) : (cmp x k == 0) = (cmp y k == 0) := by
  rw [Bool.eq_iff_iff]
  simp only [beq_iff_eq]
  exact ⟨fun e => h.eq_trans (h.eq_symm hx) e, fun e => h.eq_trans hx e⟩

end Spec.Comparator

section lists

variable {cmp : β → β → Int} (hc : Comparator cmp) {lo hi : List β} {key : β}

include hc

/-- The element with the key is the first one that is not below the key. -/
theorem found_first (hs : StrictlyAscending cmp (lo ++ hi)) (hlo : ∀ x ∈ lo, cmp x key < 0)
    (hhi : ∀ x ∈ hi, 0 ≤ cmp x key) (hf : ∃ x ∈ lo ++ hi, cmp x key = 0) :
    ∃ x0 rest, hi = x0 :: rest ∧ cmp x0 key = 0 := by
  obtain ⟨x, hx, hk⟩ := hf
  rcases List.mem_append.1 hx with h | h
  · have := hlo x h; omega
  · cases hi with
    | nil => cases h
    | cons x0 rest =>
      refine ⟨x0, rest, rfl, ?_⟩
      rcases List.mem_cons.1 h with rfl | hr
      · exact hk
      · have h1 := hhi x0 List.mem_cons_self
        have h2 : cmp x0 x < 0 := by
          have := (List.pairwise_append.1 hs).2.1
          exact (List.pairwise_cons.1 this).1 x hr
        have := hc.lt_le h2 (Int.le_of_eq hk)
        omega

theorem lo_no_match (hlo : ∀ x ∈ lo, cmp x key < 0) {k : β} (hk : cmp key k = 0) :
    lo.find? (fun x => cmp x k == 0) = none := by
  rw [List.find?_eq_none]
  intro x hx
  have := hc.lt_le (hlo x hx) (Int.le_of_eq hk)
  simp only [beq_iff_eq]
  omega

theorem hi_no_match {x0 : β} (hhi : ∀ x ∈ hi, cmp x0 x < 0) {k : β} (hk : cmp x0 k = 0) :
    hi.find? (fun x => cmp x k == 0) = none := by
  rw [List.find?_eq_none]
  intro x hx
  have h1 := hhi x hx
  have h2 : cmp k x < 0 := hc.le_lt (Int.le_of_eq (hc.eq_symm hk)) h1
  have := (hc.gt_iff x k).2 h2
  simp only [beq_iff_eq]
  omega

/-- Replacing the element with the same key. -/
theorem entry_set {x0 x : β} (hs : StrictlyAscending cmp (lo ++ x0 :: hi)) (hlo : ∀ y ∈ lo, cmp y x < 0)
    (h0 : cmp x0 x = 0) :
    StrictlyAscending cmp (lo ++ x :: hi) ∧
    ∀ k, entryIn cmp (lo ++ x :: hi) k = if cmp x k = 0 then some x else entryIn cmp (lo ++ x0 :: hi) k := by
  unfold StrictlyAscending at hs ⊢
  rw [List.pairwise_append, List.pairwise_cons] at hs ⊢
  obtain ⟨h1, ⟨h2, h3⟩, h4⟩ := hs
  refine ⟨⟨h1, ⟨fun y hy => hc.le_lt (Int.le_of_eq (hc.eq_symm h0)) (h2 y hy), h3⟩, ?_⟩, fun k => ?_⟩
  · intro a ha b hb
    rcases List.mem_cons.1 hb with rfl | hb
    · exact hlo a ha
    · exact h4 a ha b (List.mem_cons_of_mem _ hb)
  · unfold entryIn
    rw [List.find?_append, List.find?_append, List.find?_cons, List.find?_cons, hc.same_key h0 k]
    by_cases hk : cmp x k = 0
    · rw [lo_no_match hc hlo hk]; simp [hk]
    · rw [show (cmp x k == 0) = false by simp [hk], if_neg hk]

/-- Inserting an element with a new key. -/
theorem entry_insert {x : β} (hs : StrictlyAscending cmp (lo ++ hi)) (hlo : ∀ y ∈ lo, cmp y x < 0)
    (hhi : ∀ y ∈ hi, 0 ≤ cmp y x) (hn : ¬ ∃ y ∈ lo ++ hi, cmp y x = 0) :
    StrictlyAscending cmp (lo ++ x :: hi) ∧
    ∀ k, entryIn cmp (lo ++ x :: hi) k = if cmp x k = 0 then some x else entryIn cmp (lo ++ hi) k := by
  unfold StrictlyAscending at hs ⊢
  rw [List.pairwise_append] at hs
  rw [List.pairwise_append, List.pairwise_cons]
  obtain ⟨h1, h3, h4⟩ := hs
  refine ⟨⟨h1, ⟨fun y hy => ?_, h3⟩, ?_⟩, fun k => ?_⟩
  · have h5 := hhi y hy
    have h6 : cmp y x ≠ 0 := fun h => hn ⟨y, List.mem_append_right _ hy, h⟩
    exact (hc.gt_iff y x).1 (by omega)
  · intro a ha b hb
    rcases List.mem_cons.1 hb with rfl | hb
    · exact hlo a ha
    · exact h4 a ha b hb
  · unfold entryIn
    rw [List.find?_append, List.find?_append, List.find?_cons]
    by_cases hk : cmp x k = 0
    · rw [lo_no_match hc hlo hk]; simp [hk]
    · rw [show (cmp x k == 0) = false by simp [hk], if_neg hk]

/-- Deleting the element with the key. -/
theorem entry_delete {x0 : β} (hs : StrictlyAscending cmp (lo ++ x0 :: hi)) (h0 : cmp x0 key = 0) :
    StrictlyAscending cmp (lo ++ hi) ∧
    ∀ k, entryIn cmp (lo ++ hi) k = if cmp key k = 0 then none else entryIn cmp (lo ++ x0 :: hi) k := by
  unfold StrictlyAscending at hs ⊢
  rw [List.pairwise_append, List.pairwise_cons] at hs
  rw [List.pairwise_append]
  obtain ⟨h1, ⟨h2, h3⟩, h4⟩ := hs
  refine ⟨⟨h1, h3, fun a ha b hb => h4 a ha b (List.mem_cons_of_mem _ hb)⟩, fun k => ?_⟩
  unfold entryIn
  rw [List.find?_append, List.find?_append, List.find?_cons, hc.same_key h0 k]
  by_cases hk : cmp key k = 0
  · have hk0 := hc.eq_trans h0 hk
    rw [lo_no_match hc (key := x0) (fun y hy => h4 y hy x0 List.mem_cons_self) hk0, hi_no_match hc h2 hk0]
    simp [hk]
  · rw [show (cmp key k == 0) = false by simp [hk], if_neg hk]

/-- Nothing to delete. -/
theorem entry_absent {es : List β} (hn : ¬ ∃ y ∈ es, cmp y key = 0) (k : β) :
    entryIn cmp es k = if cmp key k = 0 then none else entryIn cmp es k := by
  split
  · next hk =>
    unfold entryIn
    rw [List.find?_eq_none]
    intro y hy
    simp only [beq_iff_eq]
    exact fun h => hn ⟨y, hy, hc.eq_trans h (hc.eq_symm hk)⟩
  · rfl

theorem entry_found {x0 : β} (hlo : ∀ y ∈ lo, cmp y key < 0) (h0 : cmp x0 key = 0) :
    entryIn cmp (lo ++ x0 :: hi) key = some x0 := by
  unfold entryIn
  rw [List.find?_append, lo_no_match hc hlo (hc.refl key), List.find?_cons]
  simp [h0]

end lists

/-- The outcome of a command. -/
def DictOK (P : Params) (cmp : Cell α → Cell α → Int) (s : VS α) (es : List (Cell α)) (c : DictCmd (Cell α))
    (ans : List (Option (Cell α))) : Prop :=
  ∃ s' es', dictCmd cmp s c = .ret (stSuccess, s', ans) ∧ Reach P s' ∧ contents s' = .ret es' ∧
    StrictlyAscending cmp es' ∧ es'.length ≤ es.length + 1 ∧ ∀ k, entryIn cmp es' k = dictAfter cmp (entryIn cmp es) c k

section

variable {P : Params} {s : VS α} {es : List (Cell α)} {cmp : Cell α → Cell α → Int}

/-- Where binary search finds the place of a key. -/
theorem dict_search (h : Reach P s) (he : contents s = .ret es) (hc : Comparator cmp)
    (hs : StrictlyAscending cmp es) (key : Cell α) :
    ∃ st lo hi log, (vecBinarySearch s fun x => cmp x key) = .ret (st, some lo.length, log) ∧ es = lo ++ hi ∧
      (∀ x ∈ lo, cmp x key < 0) ∧ (∀ x ∈ hi, 0 ≤ cmp x key) ∧ (st = stTrue ↔ ∃ x ∈ es, cmp x key = 0) := by
  obtain ⟨st, p, log, e, hp, h1, h2, h3, _⟩ := C09_binary_search_whole h he cmp hc.consistent key
    (hs.imp fun h => Int.le_of_lt h)
  refine ⟨st, es.take p, es.drop p, log, ?_, (List.take_append_drop p es).symm, h1, h2, h3⟩
  rw [List.length_take, Nat.min_eq_left hp]
  exact e

theorem dict_elems (h : Reach P s) (he : contents s = .ret es) : (absOf s).elems = es := by
  obtain ⟨b, slack, R⟩ := h.rep
  rw [R.contents] at he
  injection he

theorem dict_set (h : Reach P s) {lo hi : List (Cell α)} {x0 x : Cell α}
    (he : contents s = .ret (lo ++ x0 :: hi)) :
    ∃ s', vecSet s lo.length (.ext [x]) = .ret (stSuccess, s') ∧ Reach P s' ∧ contents s' = .ret (lo ++ x :: hi) := by
  have hel := dict_elems h he
  obtain ⟨b, slack, R⟩ := h.rep
  obtain ⟨junk, st1, s1, a1, b1, sl1, hj, hstep, hop, R1⟩ := op_ok R (.set lo.length x) trivial
  have hat : (absOf s).elems[lo.length]? = some x0 := by rw [hel]; simp
  simp only [step, hat, Prod.mk.injEq] at hstep
  obtain ⟨rfl, rfl⟩ := hstep
  refine ⟨s1, hop, Reach.step (op := .set lo.length x) h trivial hop, ?_⟩
  rw [R1.contents, hel]
  simp

theorem dict_insert (h : Reach P s) (hP : P.allocator.isSome) {lo hi : List (Cell α)} {x : Cell α}
    (he : contents s = .ret (lo ++ hi)) (hf : Fits P ((lo ++ hi).length + 1)) :
    ∃ s', vecInsert s lo.length (.ext [x]) = .ret (stSuccess, s') ∧ Reach P s' ∧
      contents s' = .ret (lo ++ x :: hi) := by
  have hel := dict_elems h he
  obtain ⟨b, slack, R⟩ := h.rep
  have hdom : InDomain P (absOf s) (.insertRange lo.length [x]) := by
    show Fits P _
    rw [hel]; exact hf
  obtain ⟨junk, st1, s1, a1, b1, sl1, hj, hstep, hop, R1⟩ := op_ok R (.insertRange lo.length [x]) hdom
  have hni : ¬ lo.length > (absOf s).elems.length := by rw [hel, List.length_append]; omega
  have hok : ∃ c, Spec.room P (absOf s).cap ((absOf s).elems.length + [x].length) = some c := by
    unfold Spec.room
    split
    · exact ⟨_, rfl⟩
    · exact ⟨_, rfl⟩
  obtain ⟨c, hr⟩ := hok
  simp only [step, show ¬ [x] = [] by simp, hni, if_false, hr, Prod.mk.injEq] at hstep
  obtain ⟨rfl, rfl⟩ := hstep
  refine ⟨s1, hop, Reach.step h hdom hop, ?_⟩
  rw [R1.contents, hel]
  simp

theorem dict_delete (h : Reach P s) {lo hi : List (Cell α)} {x0 : Cell α}
    (he : contents s = .ret (lo ++ x0 :: hi)) :
    ∃ s', vecDelete s lo.length = .ret (stSuccess, s') ∧ Reach P s' ∧ contents s' = .ret (lo ++ hi) := by
  have hel := dict_elems h he
  obtain ⟨b, slack, R⟩ := h.rep
  have hle : lo.length + 1 ≤ (absOf s).elems.length := by rw [hel]; simp
  have hdom : InDomain P (absOf s) (.deleteRange lo.length 1) := by
    show lo.length + 1 < 18446744073709551616
    have := R.len63
    omega
  obtain ⟨junk, st1, s1, a1, b1, sl1, hj, hstep, hop, R1⟩ := op_ok R (.deleteRange lo.length 1) hdom
  simp only [step, show ¬ (1 : Nat) = 0 by decide, show ¬ lo.length + 1 > (absOf s).elems.length by omega, if_false,
    Prod.mk.injEq] at hstep
  obtain ⟨rfl, rfl⟩ := hstep
  refine ⟨s1, hop, Reach.step h hdom hop, ?_⟩
  rw [R1.contents, hel]
  simp

theorem dict_get (h : Reach P s) {lo hi : List (Cell α)} {x0 : Cell α} (he : contents s = .ret (lo ++ x0 :: hi)) :
    vecGet s lo.length = some lo.length ∧ vecDeref s lo.length = .ret x0 := by
  have hel := dict_elems h he
  obtain ⟨b, slack, R⟩ := h.rep
  constructor
  · unfold vecGet
    rw [R.size, hel, if_neg (by simp)]
  · unfold vecDeref
    rw [R.data]
    simp only [withData, R.cells, hel]
    simp

theorem dict_cmd (h : Reach P s) (hP : P.allocator.isSome) (he : contents s = .ret es) (hc : Comparator cmp)
    (hs : StrictlyAscending cmp es) (hf : Fits P (es.length + 1)) (c : DictCmd (Cell α)) :
    DictOK P cmp s es c (match c with | .lookup k => [entryIn cmp es k] | _ => []) := by
  have hTF : stFalse ≠ stTrue := by decide
  cases c with
  | store x =>
    obtain ⟨st, lo, hi, log, e, rfl, hlo, hhi, hst⟩ := dict_search h he hc hs x
    by_cases hfound : st = stTrue
    · obtain ⟨x0, rest, rfl, h0⟩ := found_first hc hs hlo hhi (hst.1 hfound)
      obtain ⟨s', e', h', he'⟩ := dict_set (x := x) h he
      obtain ⟨k1, k2⟩ := entry_set hc hs hlo h0
      refine ⟨s', _, ?_, h', he', k1, by simp, k2⟩
      simp only [dictCmd, e, Out.ret_bind', hfound, if_true, e']
    · obtain ⟨s', e', h', he'⟩ := dict_insert (x := x) h hP he hf
      obtain ⟨k1, k2⟩ := entry_insert hc hs hlo hhi (fun hn => hfound (hst.2 hn))
      refine ⟨s', _, ?_, h', he', k1, by simp; omega, k2⟩
      simp only [dictCmd, e, Out.ret_bind', hfound, if_false, e']
  | discard k =>
    obtain ⟨st, lo, hi, log, e, rfl, hlo, hhi, hst⟩ := dict_search h he hc hs k
    by_cases hfound : st = stTrue
    · obtain ⟨x0, rest, rfl, h0⟩ := found_first hc hs hlo hhi (hst.1 hfound)
      obtain ⟨s', e', h', he'⟩ := dict_delete h he
      obtain ⟨k1, k2⟩ := entry_delete hc hs h0
      refine ⟨s', _, ?_, h', he', k1, by simp; omega, k2⟩
      simp only [dictCmd, e, Out.ret_bind', hfound, if_true, e']
    · refine ⟨s, _, ?_, h, he, hs, by omega, fun k' => entry_absent hc (fun hn => hfound (hst.2 hn)) k'⟩
      simp only [dictCmd, e, Out.ret_bind', hfound, if_false]
  | lookup k =>
    obtain ⟨st, lo, hi, log, e, rfl, hlo, hhi, hst⟩ := dict_search h he hc hs k
    by_cases hfound : st = stTrue
    · obtain ⟨x0, rest, rfl, h0⟩ := found_first hc hs hlo hhi (hst.1 hfound)
      obtain ⟨g1, g2⟩ := dict_get h he
      refine ⟨s, _, ?_, h, he, hs, by omega, fun _ => rfl⟩
      simp only [dictCmd, e, Out.ret_bind', hfound, if_true, g1, g2, entry_found hc hlo h0]
    · refine ⟨s, _, ?_, h, he, hs, by omega, fun _ => rfl⟩
      have := entry_absent hc (fun hn => hfound (hst.2 hn)) k
      rw [if_pos (hc.refl k)] at this
      simp only [dictCmd, e, Out.ret_bind', hfound, if_false, this]

end

theorem dict_run {P : Params} {cmp : Cell α → Cell α → Int} (hP : P.allocator.isSome) (hc : Comparator cmp)
    (cs : List (DictCmd (Cell α))) : ∀ {s : VS α} {es : List (Cell α)}, Reach P s → contents s = .ret es →
    StrictlyAscending cmp es → Fits P (es.length + cs.length) →
    ∃ s' es', dictRun cmp s cs = .ret (stSuccess, s', dictAnswers cmp (entryIn cmp es) cs) ∧ Reach P s' ∧
      contents s' = .ret es' ∧ StrictlyAscending cmp es' ∧
      ∀ k, entryIn cmp es' k = cs.foldl (dictAfter cmp) (entryIn cmp es) k := by
  induction cs with
  | nil => intro s es h he hs _; exact ⟨s, es, rfl, h, he, hs, fun _ => rfl⟩
  | cons c cs ih =>
    intro s es h he hs hf
    rw [List.length_cons] at hf
    obtain ⟨s1, es1, e1, h1, he1, hs1, hl1, k1⟩ := dict_cmd h hP he hc hs (hf.mono (by omega)) c
    obtain ⟨s2, es2, e2, h2, he2, hs2, k2⟩ := ih h1 he1 hs1 (hf.mono (by omega))
    have hm : entryIn cmp es1 = dictAfter cmp (entryIn cmp es) c := funext k1
    rw [hm] at e2 k2
    refine ⟨s2, es2, ?_, h2, he2, hs2, k2⟩
    simp only [dictRun, e1, Out.ret_bind', failed_success, Bool.false_eq_true, if_false, e2]
    cases c <;> rfl

end Zy
