import Verif.Lemmas.VectorEach
import Verif.Lemmas.VectorReach
import Verif.Model.Sieve

/-!
# Lemmas: removing elements while going through a vector
-/

namespace Zy

open Spec

variable {α : Type}

theorem killed_app (P : Params) (xs ys : List (Cell α)) : killed P (xs ++ ys) = killed P xs ++ killed P ys := by
  unfold killed
  split <;> simp

/-- One element is deleted. -/
theorem delete_one {P : Params} {s : VS α} (h : Reach P s) {pre post : List (Cell α)} {x : Cell α}
    (he : (absOf s).elems = pre ++ x :: post) :
    ∃ s', vecDelete s pre.length = .ret (stSuccess, s') ∧ Reach P s' ∧ (absOf s').elems = pre ++ post ∧
      (absOf s').dead = (absOf s).dead ++ killed P [x] := by
  obtain ⟨b, slack, R⟩ := h.rep
  have hlen : (absOf s).elems.length = pre.length + (post.length + 1) := by rw [he]; simp
  have hd : InDomain P (absOf s) (.deleteRange pre.length 1) := by
    show pre.length + 1 < 18446744073709551616
    have hf := R.fits
    unfold Fits at hf
    have h1 : (absOf s).elems.length * 255 ≤ (absOf s).elems.length * 255 * P.esz := Nat.le_mul_of_pos_right _ R.esz1
    omega
  obtain ⟨junk, st, s', a', b', sl', -, hst, hop, R'⟩ := op_ok R (.deleteRange pre.length 1) hd
  have hr : Reach P s' := .step h hd hop
  have ha : absOf s' = a' := R'.abs_eq
  simp only [step] at hst
  rw [if_neg (by decide), if_neg (by omega)] at hst
  cases hst
  refine ⟨s', hop, hr, ?_, ?_⟩
  · rw [ha]; simp [he]
  · rw [ha]; simp [he]

theorem sieveUp_ok {P : Params} (p : Cell α → Bool) : ∀ (n : Nat) (rest kept : List (Cell α)) {s : VS α}, Reach P s →
    (absOf s).elems = kept ++ rest → rest.length ≤ n →
    ∃ s', sieveUp p n kept.length s = .ret (s', s'.v.size) ∧ Reach P s' ∧
      (absOf s').elems = kept ++ rest.filter (fun x => !p x) ∧
      (absOf s').dead = (absOf s).dead ++ killed P (rest.filter p)
  | n, [], kept, s, h, he, _ => by
    obtain ⟨b, slack, R⟩ := h.rep
    have hs : s.v.size = kept.length := by rw [R.size, he, List.append_nil]
    refine ⟨s, ?_, h, by simpa using he, by simp [killed]⟩
    cases n with
    | zero => rw [sieveUp, hs]
    | succ n => rw [sieveUp, vecGetSize, hs, if_neg (Nat.lt_irrefl _)]
  | 0, x :: rest, kept, s, h, he, hn => by simp at hn
  | n + 1, x :: rest, kept, s, h, he, hn => by
    obtain ⟨b, slack, R⟩ := h.rep
    have hs : s.v.size = kept.length + (rest.length + 1) := by rw [R.size, he]; simp
    have hx : (absOf s).elems[kept.length]? = some x := by rw [he]; simp
    have hn' : rest.length ≤ n := by simpa using hn
    rw [sieveUp, vecGetSize, if_pos (by omega), R.getMacro hx, Out.ret_bind']
    by_cases hp : p x
    · obtain ⟨s1, e1, h1, he1, hd1⟩ := delete_one h he
      obtain ⟨s2, e2, h2, he2, hd2⟩ := sieveUp_ok p n rest kept h1 he1 hn'
      refine ⟨s2, ?_, h2, ?_, ?_⟩
      · rw [if_pos hp, e1, Out.ret_bind']; exact e2
      · rw [he2]; simp [hp]
      · rw [hd2, hd1, List.append_assoc, ← killed_app]; simp [hp]
    · obtain ⟨s2, e2, h2, he2, hd2⟩ := sieveUp_ok p n rest (kept ++ [x]) h (by rw [he]; simp) hn'
      rw [List.length_append, List.length_singleton] at e2
      refine ⟨s2, ?_, h2, ?_, ?_⟩
      · rw [if_neg hp]; exact e2
      · rw [he2]; simp [hp]
      · rw [hd2]; simp [hp]

theorem sieveDown_ok {P : Params} (p : Cell α → Bool) : ∀ (i : Nat) (rest kept : List (Cell α)) {s : VS α}, Reach P s →
    (absOf s).elems = rest ++ kept → rest.length = i →
    ∃ s', sieveDown p i s = .ret s' ∧ Reach P s' ∧
      (absOf s').elems = rest.filter (fun x => !p x) ++ kept ∧
      (absOf s').dead = (absOf s).dead ++ killed P (rest.filter p).reverse
  | 0, rest, kept, s, h, he, hi => by
    rw [List.length_eq_zero_iff.1 hi] at he ⊢
    exact ⟨s, rfl, h, he, by simp [killed]⟩
  | i + 1, rest, kept, s, h, he, hi => by
    obtain ⟨b, slack, R⟩ := h.rep
    rcases List.eq_nil_or_concat rest with h0 | ⟨front, x, h0⟩
    · rw [h0] at hi; simp at hi
    · subst h0
      rw [List.concat_eq_append] at hi he ⊢
      have hi' : front.length = i := by simpa using hi
      have he' : (absOf s).elems = front ++ x :: kept := by rw [he]; simp
      have hx : (absOf s).elems[i]? = some x := by rw [he', ← hi']; simp
      rw [sieveDown, R.getMacro hx, Out.ret_bind']
      by_cases hp : p x
      · obtain ⟨s1, e1, h1, he1, hd1⟩ := delete_one h he'
        rw [hi'] at e1
        obtain ⟨s2, e2, h2, he2, hd2⟩ := sieveDown_ok p i front kept h1 he1 hi'
        refine ⟨s2, ?_, h2, ?_, ?_⟩
        · rw [if_pos hp, e1, Out.ret_bind']; exact e2
        · rw [he2]; simp [List.filter_append, hp]
        · rw [hd2, hd1, List.append_assoc, ← killed_app]; simp [List.filter_append, hp]
      · obtain ⟨s2, e2, h2, he2, hd2⟩ := sieveDown_ok p i front (x :: kept) h he' hi'
        refine ⟨s2, ?_, h2, ?_, ?_⟩
        · rw [if_neg hp]; exact e2
        · rw [he2]; simp [List.filter_append, hp]
        · rw [hd2]; simp [List.filter_append, hp]

/-- The loop has more rounds than there are elements left. -/
theorem sieve_beyond {P : Params} (p : Cell α → Bool) : ∀ (n i : Nat) {s : VS α}, Reach P s → 1 ≤ n →
    (absOf s).elems.length < i + n → eachLoop (sieveBody p) n i s i = .ub .null
  | 0, _, _, _, h1, _ => by omega
  | n + 1, i, s, h, _, hlt => by
    obtain ⟨b, slack, R⟩ := h.rep
    rw [eachLoop]
    by_cases hi : (absOf s).elems.length ≤ i
    · rw [R.getMacro_none hi]; rfl
    · have hi' : i < (absOf s).elems.length := by omega
      rw [R.getMacro (List.getElem?_eq_getElem hi'), Out.ret_bind']
      unfold sieveBody
      by_cases hp : p (absOf s).elems[i]
      · rw [if_pos hp]
        have hlen : ((absOf s).elems.take i).length = i := by rw [List.length_take]; omega
        obtain ⟨s1, e1, h1, he1, -⟩ := delete_one h (pre := (absOf s).elems.take i) (x := (absOf s).elems[i])
          (post := (absOf s).elems.drop (i + 1)) (by rw [List.getElem_cons_drop, List.take_append_drop])
        rw [hlen] at e1
        rw [e1, Out.ret_bind', Out.ret_bind']
        refine sieve_beyond p n (i + 1) h1 (by omega) ?_
        rw [he1, List.length_append, List.length_take, List.length_drop]
        omega
      · rw [if_neg hp, Out.ret_bind']
        exact sieve_beyond (s := s) p n (i + 1) h (by omega) (by omega)

theorem sieve_each {P : Params} (p : Cell α → Bool) : ∀ (rest seen : List (Cell α)) {s : VS α}, Reach P s →
    (absOf s).elems = seen ++ rest → (∃ x ∈ rest.dropLast, p x = true) →
    eachLoop (sieveBody p) rest.length seen.length s seen.length = .ub .null
  | [], _, _, _, _, h => by obtain ⟨x, hx, -⟩ := h; cases hx
  | [y], _, _, _, _, h => by obtain ⟨x, hx, -⟩ := h; cases hx
  | y :: z :: rest, seen, s, h, he, hex => by
    obtain ⟨b, slack, R⟩ := h.rep
    have hx : (absOf s).elems[seen.length]? = some y := by rw [he]; simp
    rw [List.length_cons, eachLoop, R.getMacro hx, Out.ret_bind']
    unfold sieveBody
    by_cases hp : p y
    · obtain ⟨s1, e1, h1, he1, -⟩ := delete_one h he
      rw [if_pos hp, e1, Out.ret_bind', Out.ret_bind']
      refine sieve_beyond p _ _ h1 (by simp) ?_
      rw [he1]
      simp only [List.length_append, List.length_cons]
      omega
    · rw [if_neg hp, Out.ret_bind']
      have := sieve_each p (z :: rest) (seen ++ [y]) h (by rw [he]; simp) (by
        obtain ⟨x, hx, hpx⟩ := hex
        rw [List.dropLast_cons_cons, List.mem_cons] at hx
        rcases hx with hx | hx
        · rw [hx] at hpx; exact absurd hpx hp
        · exact ⟨x, hx, hpx⟩)
      rw [List.length_append, List.length_singleton] at this
      exact this

theorem sieve_last {P : Params} (p : Cell α → Bool) : ∀ (rest seen : List (Cell α)) {s : VS α}, Reach P s →
    (absOf s).elems = seen ++ rest → (∀ x ∈ rest.dropLast, p x = false) →
    ∃ s', eachLoop (sieveBody p) rest.length seen.length s seen.length = .ret (s', seen.length + rest.length) ∧
      Reach P s' ∧ (absOf s').elems = seen ++ rest.filter (fun x => !p x) ∧
      (absOf s').dead = (absOf s).dead ++ killed P (rest.filter p)
  | [], seen, s, h, he, _ => ⟨s, rfl, h, he, by simp [killed]⟩
  | y :: rest, seen, s, h, he, hno => by
    obtain ⟨b, slack, R⟩ := h.rep
    have hx : (absOf s).elems[seen.length]? = some y := by rw [he]; simp
    rw [List.length_cons, eachLoop, R.getMacro hx, Out.ret_bind']
    unfold sieveBody
    by_cases hp : p y
    · cases rest with
      | nil =>
        obtain ⟨s1, e1, h1, he1, hd1⟩ := delete_one h he
        refine ⟨s1, ?_, h1, ?_, ?_⟩
        · rw [if_pos hp, e1, Out.ret_bind', Out.ret_bind']; rfl
        · rw [he1]; simp [hp]
        · rw [hd1]; simp [hp]
      | cons z rest =>
        have := hno y (by simp)
        rw [this] at hp
        cases hp
    · rw [if_neg hp, Out.ret_bind']
      obtain ⟨s2, e2, h2, he2, hd2⟩ := sieve_last p rest (seen ++ [y]) h (by rw [he]; simp) (fun x hx => hno x (by
        cases rest with
        | nil => cases hx
        | cons z rest => rw [List.dropLast_cons_cons]; exact List.mem_cons_of_mem _ hx))
      rw [List.length_append, List.length_singleton] at e2
      refine ⟨s2, ?_, h2, ?_, ?_⟩
      · rw [show seen.length + (rest.length + 1) = seen.length + 1 + rest.length by omega]
        exact e2
      · rw [he2]; simp [hp]
      · rw [hd2]; simp [hp]

end Zy
