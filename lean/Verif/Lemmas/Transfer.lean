import Verif.Model.Transfer
import Verif.Lemmas.Merge
import Verif.Props.ListAccess
import Verif.Lemmas.ListSame

/-!
# Lemmas: copying a list into a vector
-/

namespace Zy

open Spec

variable {α : Type}

/-- A walk over nodes with known addresses and elements appends the elements. -/
theorem walkInto_push {step : LS α → Option Nat → Out (Status × Option Nat)} {l : LS α} {as : List Nat} {xs : List (Cell α)}
    (hl : as.length = xs.length)
    (hs : ∀ i a x, as[i]? = some a → xs[i]? = some x → step l (some a) = .ret (stSuccess, as[i + 1]?) ∧
      listGet l (some a) = .ret x) :
    ∀ (n i : Nat) (v : VS α), xs.length - i ≤ n → walkInto step l n as[i]? v = pushList v (xs.drop i) := by
  intro n
  induction n with
  | zero =>
    intro i v hn
    rw [List.drop_eq_nil_of_le (by omega)]
    rfl
  | succ n ih =>
    intro i v hn
    by_cases hi : i < xs.length
    · obtain ⟨x, hx, hd⟩ := drop_cons_of hi
      have ha : as[i]? = some as[i] := List.getElem?_eq_getElem (by omega)
      obtain ⟨h1, h2⟩ := hs i _ x ha hx
      rw [ha, walkInto, h2, Out.ret_bind', hd, pushList]
      congr 1
      funext v'
      rw [h1, Out.ret_bind']
      dsimp only
      rw [if_neg (by rw [failed_success]; decide)]
      exact ih (i + 1) v' (by omega)
    · rw [List.drop_eq_nil_of_le (by omega), List.getElem?_eq_none (by omega)]
      rfl

theorem pushList_ok {P : Params} {m : Nat} : ∀ (l : List (Cell α)) {s : VS α}, Reach P s → RoomFor P (absOf s).cap m →
    (absOf s).elems.length + l.length ≤ m →
    ∃ s', pushList s l = .ret (stSuccess, s') ∧ Reach P s' ∧ (absOf s').elems = (absOf s).elems ++ l ∧
      (absOf s').dead = (absOf s).dead := by
  intro l
  induction l with
  | nil => intro s h _ _; exact ⟨s, rfl, h, by simp, rfl⟩
  | cons x l ih =>
    intro s h hr hl
    rw [List.length_cons] at hl
    obtain ⟨s1, e1, h1, g1, d1, r1⟩ := checkPush_ok h hr (by omega) x
    obtain ⟨s', e', h', g', d'⟩ := ih h1 r1 (by rw [g1, List.length_append, List.length_singleton]; omega)
    refine ⟨s', ?_, h', by rw [g', g1, List.append_assoc]; rfl, d'.trans d1⟩
    rw [pushList, e1, e']

/-- Both walks are the appending of the elements, in their order and in the opposite order. -/
theorem copies_push {K : Source} {dt : Bool} {s : LS α} (h : Created K dt s) (ops : List (LOp α))
    (hf : LAllFit K dt emptyDeque ops) :
    ∃ sts s' d', runList s ops = .ret (sts, s') ∧ LRuns K dt emptyDeque ops sts d' ∧
      ∀ n v, d'.elems.length ≤ n → copyForwards s' n v = pushList v d'.elems ∧
        copyBackwards s' n v = pushList v d'.elems.reverse := by
  obtain ⟨sts, s', d', as, h1, h2, _, hl, hh, ht, hw⟩ := C116_neighbours h ops hf
  refine ⟨sts, s', d', h1, h2, fun n v hn => ⟨?_, ?_⟩⟩
  · rw [copyForwards, hh]
    exact walkInto_push hl (fun i a x ha hx => ⟨(hw i a x ha hx).1, (hw i a x ha hx).2.2.1⟩) n 0 v (by omega)
  · rw [copyBackwards, ht, ← List.head?_reverse, List.head?_eq_getElem?]
    refine walkInto_push (as := as.reverse) (xs := d'.elems.reverse) (by simp [hl]) (fun i a x ha hx => ?_) n 0 v
      (by simpa using hn)
    have hi : i < as.length := by
      have := (List.getElem?_eq_some_iff.1 ha).1
      simpa using this
    rw [List.getElem?_reverse hi] at ha
    rw [List.getElem?_reverse (by omega)] at hx
    obtain ⟨_, w1, w2, _⟩ := hw (as.length - 1 - i) a x ha (by rw [hl]; exact hx)
    refine ⟨?_, w2⟩
    rw [w1]
    by_cases hz : as.length - 1 - i = 0
    · rw [if_pos hz, List.getElem?_eq_none (by rw [List.length_reverse]; omega)]
    · rw [if_neg hz, List.getElem?_reverse (by omega)]
      congr 3

/-- Appending to a queue that always has memory. -/
theorem lineRun_pushBacks : ∀ (xs pre : List (Cell α)),
    lineRun pre (xs.map .pushBack) = (List.replicate xs.length stSuccess, pre ++ xs) := by
  intro xs
  induction xs with
  | nil => intro pre; simp [lineRun]
  | cons x xs ih => intro pre; simp [lineRun, lineStep, ih, List.replicate_succ]

theorem fillList_run {P : Params} {v : VS α} (h : Reach P v) : ∀ (n i : Nat) {l l' : LS α},
    (absOf v).elems.length - i ≤ n →
    runList l (((absOf v).elems.drop i).map .pushBack) =
      .ret (List.replicate ((absOf v).elems.length - i) stSuccess, l') →
    fillList v n i l = .ret (stSuccess, l') := by
  obtain ⟨b, sl, R⟩ := h.rep
  have hz : vecGetSize v = (absOf v).elems.length := R.size
  intro n
  induction n with
  | zero =>
    intro i l l' hn hr
    rw [List.drop_eq_nil_of_le (by omega)] at hr
    obtain ⟨_, rfl⟩ := Prod.mk.inj (Out.ret.inj hr)
    rfl
  | succ n ih =>
    intro i l l' hn hr
    by_cases hi : i < (absOf v).elems.length
    · obtain ⟨x, hx, hd⟩ := drop_cons_of hi
      rw [hd, List.map_cons, runList, show (absOf v).elems.length - i = ((absOf v).elems.length - (i + 1)) + 1 by omega,
        List.replicate_succ] at hr
      change (listPushBack l (.ext x)).bind _ = _ at hr
      rw [fillList, hz, if_pos hi, R.getMacro hx, Out.ret_bind']
      cases hp : listPushBack l (.ext x) with
      | ub w => rw [hp] at hr; cases hr
      | ret r =>
        rw [hp, Out.ret_bind'] at hr
        rw [Out.ret_bind']
        cases hq : runList r.2 (((absOf v).elems.drop (i + 1)).map .pushBack) with
        | ub w => rw [hq] at hr; cases hr
        | ret q =>
          rw [hq, Out.ret_bind'] at hr
          obtain ⟨e1, e2⟩ := Prod.mk.inj (Out.ret.inj hr)
          obtain ⟨e3, e4⟩ := List.cons.inj e1
          rw [e3, if_neg (by rw [failed_success]; decide)]
          refine ih (i + 1) (by omega) ?_
          rw [hq, ← e4, ← e2]
    · rw [List.drop_eq_nil_of_le (by omega)] at hr
      obtain ⟨_, rfl⟩ := Prod.mk.inj (Out.ret.inj hr)
      rw [fillList, hz, if_neg hi]

end Zy
