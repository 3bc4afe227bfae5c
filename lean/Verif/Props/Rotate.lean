import Verif.Lemmas.Rotate
import Verif.Props.ListSame

/-!
# Property theorems: turning and mirroring a list (C194)
-/

namespace Zy

open Spec

open Zy.LT (Specified)

variable {α : Type}

/-- **C194**: after any history `ops`, the first element is moved to the end `k` times by appending it and then removing
it. All calls succeed and the elements are turned. A list on a caller buffer needs room for one more element. -/
theorem C194_turn {K : Source} {dt : Bool} {s : LS α} (h : Created K dt s) {ops : List (LOp α)}
    (hs : ∀ op ∈ ops, Specified op) (hg : Serves K 0 [] ops) {xs : List (Cell α)} (hx : (lineRun [] ops).2 = xs)
    (hne : xs ≠ []) (k : Nat) (hl : (ops.map lcost).sum + 2 * k < 18446744073709551616)
    (hn : NextGranted K (wantsAll [] ops) k) (hsp : Spare K xs.length) :
    ∃ s', runList s (ops ++ turns α k) = .ret ((lineRun [] ops).1 ++ List.replicate (2 * k) stSuccess, s') ∧
      forward s' = .ret (rotated xs k) := by
  subst hx
  obtain ⟨s', h1, h2, _⟩ := C185_ample h (ops := ops ++ turns α k)
    (fun o ho => by
      rcases List.mem_append.1 ho with ho | ho
      · exact hs o ho
      · exact turns_specified k o ho)
    (by rw [List.map_append, List.sum_append, turns_cost]; exact hl)
    (serves_append hg (turns_serves k _ _ hne (by rw [Nat.zero_add]; exact hn) hsp))
  rw [lineRun_append, turns_run k _ hne] at h1 h2
  exact ⟨s', h1, h2⟩

/-- **C194**: the same by removing the first element before its copy is appended. Then a full caller buffer will do. -/
theorem C194_carry {K : Source} {dt : Bool} {s : LS α} (h : Created K dt s) {ops : List (LOp α)}
    (hs : ∀ op ∈ ops, Specified op) (hg : Serves K 0 [] ops) {xs : List (Cell α)} (hx : (lineRun [] ops).2 = xs)
    (hne : xs ≠ []) (k : Nat) (hl : (ops.map lcost).sum + 2 * k < 18446744073709551616)
    (hn : NextGranted K (wantsAll [] ops) k) :
    ∃ s', runList s (ops ++ carries xs k) = .ret ((lineRun [] ops).1 ++ List.replicate (2 * k) stSuccess, s') ∧
      forward s' = .ret (rotated xs k) := by
  subst hx
  obtain ⟨s', h1, h2, _⟩ := C185_ample h (ops := ops ++ carries (lineRun [] ops).2 k)
    (fun o ho => by
      rcases List.mem_append.1 ho with ho | ho
      · exact hs o ho
      · exact carries_specified k _ o ho)
    (by
      have := carries_cost k (lineRun [] ops).2
      rw [List.map_append, List.sum_append]
      omega)
    (serves_append hg (carries_serves k _ _ (by rw [Nat.zero_add]; exact hn) (fun n hK => by
      subst hK
      exact served_length hg (Nat.zero_le _))))
  rw [lineRun_append, carries_run k _ hne] at h1 h2
  exact ⟨s', h1, h2⟩

/-- **C194**: after as many moves as there are elements, everything is where it was. -/
theorem C194_around (xs : List (Cell α)) (k : Nat) : rotated xs (k * xs.length) = xs := by
  unfold rotated
  rw [Nat.mul_mod_left]
  simp

/-- **C194**: on a full caller buffer the first way loses an element: the append is refused, and a program that does not
look at its status then removes the element. -/
theorem C194_full {n : Nat} {dt : Bool} {s : LS α} (h : Created (.fixed n) dt s) {ops : List (LOp α)}
    (hs : ∀ op ∈ ops, Specified op) (hg : Serves (.fixed n) 0 [] ops) {x : Cell α} {xs : List (Cell α)}
    (hx : (lineRun [] ops).2 = x :: xs) (hfull : xs.length + 1 = n)
    (hl : (ops.map lcost).sum + 2 < 18446744073709551616) :
    ∃ st s', runList s (ops ++ turns α 1) = .ret ((lineRun [] ops).1 ++ [st, stSuccess], s') ∧ failed st = true ∧
      forward s' = .ret xs := by
  have e : ops ++ turns α 1 = (ops ++ [.pushBackOf 0]) ++ [.popFront] := by simp [turns]
  obtain ⟨sts, s', d', h1, h2, h3, _⟩ := C46_list_is_a_deque h (ops ++ turns α 1)
    (C46_short_histories_fit _ dt _ (by rw [List.map_append, List.sum_append, turns_cost]; omega))
  rw [e] at h2
  obtain ⟨sts₁, d₁, st, rfl, r1, junk, r2⟩ := lruns_snoc h2
  obtain ⟨sts₂, d₂, st₂, rfl, g1, junk₂, g2⟩ := lruns_snoc r1
  obtain ⟨_, e1, e2, e3⟩ := lruns_served g1 hs hg
  rw [show (emptyDeque : Deque α).elems = [] from rfl] at e1 e2 e3
  rw [hx] at e2
  have href := lstep_refused (K := .fixed n) (dt := dt) junk₂ (d := d₂) (op := .pushBackOf 0) trivial (by
    rw [e2]
    intro hgr
    rcases hgr with hgr | hgr
    · simp [wants] at hgr; omega
    · simp [wants] at hgr)
  have hst : lstep (.fixed n) dt junk₂ d₂ (.pushBackOf 0) = addBack (.fixed n) d₂ x := by
    simp only [lstep, e2, List.getElem?_cons_zero]
  have hel : d₁.elems = x :: xs := by
    rw [hst] at href
    rw [hst] at g2
    unfold addBack at href g2
    split at href
    · rename_i hf
      rw [if_pos hf] at g2
      rw [← (Prod.mk.inj g2).2]
      exact e2
    · exact absurd href (by rw [failed_success]; decide)
  rw [g2] at href
  have hpop : lstep (.fixed n) dt junk d₁ .popFront =
      (stSuccess, { d₁ with elems := xs, dead := d₁.dead ++ buried dt [x] }) := by
    simp only [lstep]
    rw [hel]
  rw [hpop] at r2
  obtain ⟨rfl, rfl⟩ := Prod.mk.inj r2
  refine ⟨st₂, s', ?_, href, h3⟩
  rw [h1, e1, List.append_assoc]
  rfl

/-- **C194**: the elements can be put into the reverse order by writing them again, without any memory. -/
theorem C194_mirror {K : Source} {dt : Bool} {s : LS α} (h : Created K dt s) {ops : List (LOp α)}
    (hs : ∀ op ∈ ops, Specified op) (hg : Serves K 0 [] ops) {xs : List (Cell α)} (hx : (lineRun [] ops).2 = xs)
    (hl : (ops.map lcost).sum + xs.length < 18446744073709551616) :
    ∃ s', runList s (ops ++ mirror xs) = .ret ((lineRun [] ops).1 ++ List.replicate xs.length stSuccess, s') ∧
      forward s' = .ret xs.reverse ∧ backward s' = .ret xs := by
  subst hx
  obtain ⟨s', h1, h2, h3, _⟩ := C185_ample h (ops := ops ++ mirror (lineRun [] ops).2)
    (fun o ho => by
      rcases List.mem_append.1 ho with ho | ho
      · exact hs o ho
      · exact mirror_specified _ o ho)
    (by rw [List.map_append, List.sum_append, mirror_cost]; exact hl)
    (serves_append hg (sets_serves _ 0 _ _))
  rw [lineRun_append, mirror_run] at h1 h2 h3
  exact ⟨s', h1, h2, by rw [h3, List.reverse_reverse]⟩

/-! ## Examples -/

/-- Two elements on a buffer for three. -/
def exRotOps : List (LOp Nat) := [.pushBack (some 1), .pushBack (some 2)]

/-- Three elements: the buffer is full. -/
def exRotFull : List (LOp Nat) := [.pushBack (some 1), .pushBack (some 2), .pushBack (some 3)]

theorem exRotOps_served : Serves (.fixed 3) 0 [] exRotOps := by
  simp only [exRotOps, Serves, Granted]
  decide

theorem exRotFull_served : Serves (.fixed 3) 0 [] exRotFull := by
  simp only [exRotFull, Serves, Granted]
  decide

theorem exRot_specified : (∀ op ∈ exRotOps, Specified op) ∧ ∀ op ∈ exRotFull, Specified op := by
  constructor
  · intro op hop
    simp only [exRotOps, List.mem_cons, List.not_mem_nil, or_false] at hop
    rcases hop with rfl | rfl <;> trivial
  · intro op hop
    simp only [exRotFull, List.mem_cons, List.not_mem_nil, or_false] at hop
    rcases hop with rfl | rfl | rfl <;> trivial

example : ∃ s', runList exLFix (exRotOps ++ turns Nat 3) = .ret (List.replicate 8 stSuccess, s') ∧
    forward s' = .ret [some 2, some 1] := by
  obtain ⟨s', h1, h2⟩ := C194_turn exLFix_created exRot_specified.1 exRotOps_served rfl (by decide) 3 (by decide) trivial
    (show 2 < 3 by decide)
  exact ⟨s', h1, h2⟩

example : ∃ s', runList exLFix (exRotFull ++ carries [some 1, some 2, some 3] 4) = .ret (List.replicate 11 stSuccess, s') ∧
    forward s' = .ret [some 2, some 3, some 1] := by
  obtain ⟨s', h1, h2⟩ := C194_carry exLFix_created exRot_specified.2 exRotFull_served rfl (by decide) 4 (by decide) trivial
  exact ⟨s', h1, h2⟩

example : ∃ s', runList exLFix (exRotFull ++ mirror [some 1, some 2, some 3]) = .ret (List.replicate 6 stSuccess, s') ∧
    forward s' = .ret [some 3, some 2, some 1] := by
  obtain ⟨s', h1, h2, _⟩ := C194_mirror exLFix_created exRot_specified.2 exRotFull_served rfl (by decide)
  exact ⟨s', h1, h2⟩

example : ∃ st s', runList exLFix (exRotFull ++ turns Nat 1) = .ret (List.replicate 3 stSuccess ++ [st, stSuccess], s') ∧
    failed st = true ∧ forward s' = .ret [some 2, some 3] :=
  C194_full exLFix_created exRot_specified.2 exRotFull_served rfl rfl (by decide)

end Zy
