import Verif.Lemmas.ViewChain
import Verif.Props.String

/-!
# Property theorems: views of views (C195)

The property is false of the code: `ZyanStringViewInsideViewEx` sets the size of the view to the number of characters, while
the size of all other views includes the terminator (C28). Below is what holds of chains of views, and what does not.
-/

namespace Zy

open Spec

/-- **C195**, as far as it holds: views of views of views, each well inside of the one before, are granted. The memory of
the last one begins with the text that is left by taking the ranges one from the other, and it is the same view that a
single call with the added indices gives. Missing: the ranges that contain the last character of the range before
(`C195_last_refused`), and the size of the view (`C28_negation`). -/
theorem C195_chain_partial {v : View} {x : List Byte} (h : Shows v x) (hb : x.length + 1 < 18446744073709551616)
    {r : Nat × Nat} {rs : List (Nat × Nat)} (hr : r.1 + r.2 ≤ x.length) (hrs : WellInside r.2 rs) :
    ∃ v', viewChain v (r :: rs) = some v' ∧ (cutAll x (r :: rs)).map some <+: v'.mem ∧
      viewInsideViewEx v ((r :: rs).map (·.1)).sum (((r :: rs).map (·.2)).getLast (by simp)) = (stSuccess, some v') := by
  have hsz := h.1
  have hw : WellInside v.size (r :: rs) := ⟨by rw [hsz]; omega, hrs⟩
  have hin : AllInside x.length (r :: rs) := ⟨hr, inside_of_well hrs⟩
  have hlast : (((r :: rs).map (·.2)).getLast?) = some (((r :: rs).map (·.2)).getLast (by simp)) :=
    List.getLast?_eq_some_getLast _
  have hc := viewChain_ok (r :: rs) v (by rw [hsz]; exact hb) hw
  have hx := cutAll_eq (r :: rs) x hin
  have hle := cutAll_eq.inside_le (r :: rs) x.length hin
  rw [hlast, Option.getD_some] at hc hx hle
  refine ⟨_, hc, ?_, insideEx_ok (by rw [hsz]; omega) (by rw [hsz]; exact hb)⟩
  rw [hx]
  obtain ⟨rest, hrest⟩ := h.2
  show _ <+: v.mem.drop _
  rw [← hrest, List.drop_append_of_le_length (by rw [List.length_map]; omega), List.map_take, List.map_drop]
  exact (List.take_prefix _ _).trans (List.prefix_append _ _)

/-- **C195 is false**: a view of a range never gives a view of a part that contains the last character of the range, though
the same part of the text can be had directly. -/
theorem C195_last_refused {v : View} {x : List Byte} (h : Shows v x) (hb : x.length + 1 < 18446744073709551616)
    {i n j m : Nat} (hi : i + n ≤ x.length) (hj : j + m = n) :
    viewChain v [(i, n), (j, m)] = none ∧ (viewInsideViewEx v (i + j) m).1 = stSuccess := by
  have hsz := h.1
  constructor
  · unfold viewChain
    rw [insideEx_ok (by rw [hsz]; show i + n < _; omega) (by rw [hsz]; exact hb)]
    show viewChain ⟨v.mem.drop i, n⟩ [(j, m)] = none
    unfold viewChain
    rw [insideEx_no (by show n ≤ j + m; omega) (by show j + m < _; omega)]
  · rw [insideEx_ok (by rw [hsz]; omega) (by rw [hsz]; exact hb)]

/-- **C195 is false**: a view of the whole view lacks the last character. After `k` of them `k` characters are missing. -/
theorem C195_erodes {v : View} {x : List Byte} (h : Shows v x) (hb : x.length + 1 < 18446744073709551616) {k : Nat}
    (hk : k ≤ x.length) : ∃ v', wholeViews v k = some v' ∧ Shows v' (x.take (x.length - k)) := by
  have hsz := h.1
  refine ⟨_, wholeViews_ok k v (by rw [hsz]; exact hb) (by omega), ?_, ?_⟩
  · show v.size - k = _
    rw [hsz, List.length_take]
    omega
  · rw [List.map_take]
    exact (List.take_prefix _ _).trans h.2

/-- **C195 is false**: one more, and the view claims to have `2^64 - 1` characters. No view of it is granted any more, not
even an empty one. -/
theorem C195_wraps {v : View} {x : List Byte} (h : Shows v x) (hb : x.length + 1 < 18446744073709551616) :
    ∃ v', wholeViews v (x.length + 1) = some v' ∧ viewGetSize v' = 18446744073709551615 ∧
      ∀ i n, (viewInsideViewEx v' i n).1 = stOutOfRange := by
  have hsz := h.1
  refine ⟨_, wholeViews_ok (x.length + 1) v (by rw [hsz]; exact hb) (by omega), ?_, ?_⟩
  · show sub64 (v.size - (x.length + 1)) 1 = _
    rw [hsz, Nat.sub_self]
    rfl
  · intro i n
    unfold viewInsideViewEx
    rw [if_pos (by show _ ≥ v.size - (x.length + 1); rw [hsz, Nat.sub_self]; exact Nat.zero_le _)]

/-- "bcd" of "abcde", then "bc" of it, then nothing of it. -/
example : ∃ v', viewChain (litView (chars ['a', 'b', 'c', 'd', 'e'])) [(1, 3), (0, 2), (1, 0)] = some v' ∧
    viewInsideViewEx (litView (chars ['a', 'b', 'c', 'd', 'e'])) 2 0 = (stSuccess, some v') := by
  obtain ⟨v', h1, _, h2⟩ := C195_chain_partial (v := litView (chars ['a', 'b', 'c', 'd', 'e'])) (r := (1, 3))
    (rs := [(0, 2), (1, 0)]) (x := chars ['a', 'b', 'c', 'd', 'e']) ⟨rfl, by decide +kernel⟩ (by decide +kernel)
    (by decide +kernel) ⟨by decide, by decide, trivial⟩
  exact ⟨v', h1, h2⟩

/-- "bcd" of "abcde", then "cd" of it: refused. -/
example : viewChain (litView (chars ['a', 'b', 'c', 'd', 'e'])) [(1, 3), (1, 2)] = none :=
  (C195_last_refused (v := litView (chars ['a', 'b', 'c', 'd', 'e'])) (i := 1) (n := 3) (j := 1) (m := 2)
    (x := chars ['a', 'b', 'c', 'd', 'e']) ⟨rfl, by decide +kernel⟩ (by decide +kernel)
    (by decide +kernel) rfl).1

example : ∃ v', wholeViews (litView (chars ['a', 'b', 'c'])) 2 = some v' ∧ Shows v' (chars ['a']) :=
  C195_erodes (x := chars ['a', 'b', 'c']) ⟨rfl, by decide +kernel⟩ (by decide +kernel) (by decide +kernel)

example : ∃ v', wholeViews (litView (chars ['a'])) 2 = some v' ∧ viewGetSize v' = 18446744073709551615 := by
  obtain ⟨v', h1, h2, _⟩ := C195_wraps (v := litView (chars ['a'])) (x := chars ['a']) ⟨rfl, by decide +kernel⟩
    (by decide +kernel)
  exact ⟨v', h1, h2⟩

end Zy
