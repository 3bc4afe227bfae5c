import Verif.Model.VectorEach
import Verif.Lemmas.VectorBounds

/-!
# Lemmas about the loop macros
-/

namespace Zy

open Spec

variable {α σ : Type}

theorem Rep.getMacro {P : Params} {s : VS α} {a : LState α} {b : Block α} {slack : List (Cell α)}
    (R : Rep P s a b slack) {i : Nat} {x : Cell α} (h : a.elems[i]? = some x) : vecGetMacro s i = .ret x := by
  obtain ⟨hi, _⟩ := List.getElem?_eq_some_iff.1 h
  have h1 : ¬ i ≥ s.v.size := by rw [R.size]; omega
  have h2 : b.cells[i]? = some x := by rw [R.cells, List.getElem?_append_left hi]; exact h
  simp [vecGetMacro, vecGet, h1, vecDeref, R.data, withData, h2]

/-- A loop whose body keeps the vector usable and does not shorten it. -/
theorem eachLoop_defined {P : Params} {body : Cell α → VS α → σ → Out (VS α × σ)}
    (hb : ∀ x s a, Reach P s → ∃ s' a', body x s a = .ret (s', a') ∧ Reach P s' ∧ s.v.size ≤ s'.v.size) :
    ∀ n i {s : VS α} (a : σ), Reach P s → i + n ≤ s.v.size →
      ∃ s' a', eachLoop body n i s a = .ret (s', a') ∧ Reach P s' ∧ s.v.size ≤ s'.v.size
  | 0, i, s, a, h, _ => ⟨s, a, rfl, h, Nat.le_refl _⟩
  | n + 1, i, s, a, h, hi => by
    obtain ⟨b, sl, R⟩ := h.rep
    have hlt : i < (absOf s).elems.length := by rw [← R.size]; omega
    obtain ⟨s1, a1, e1, h1, l1⟩ := hb (absOf s).elems[i] s a h
    obtain ⟨s2, a2, e2, h2, l2⟩ := eachLoop_defined hb n (i + 1) a1 h1 (by omega)
    refine ⟨s2, a2, ?_, h2, by omega⟩
    rw [eachLoop, R.getMacro (List.getElem?_eq_getElem hlt), Out.ret_bind', e1, Out.ret_bind', e2]

/-- A loop whose body only changes the local variables. -/
theorem eachLoop_fold {P : Params} {s : VS α} {l : LState α} {b : Block α} {slack : List (Cell α)}
    (R : Rep P s l b slack) (g : σ → Cell α → σ) :
    ∀ (rest done : List (Cell α)) (a : σ), l.elems = done ++ rest →
      eachLoop (fun x s a => .ret (s, g a x)) rest.length done.length s a = .ret (s, rest.foldl g a)
  | [], done, a, _ => rfl
  | x :: rest, done, a, h => by
    have hx : l.elems[done.length]? = some x := by rw [h]; simp
    rw [List.length_cons, eachLoop, R.getMacro hx, Out.ret_bind', Out.ret_bind']
    have := eachLoop_fold R g rest (done ++ [x]) (g a x) (by rw [h]; simp)
    rw [List.length_append] at this
    exact this

/-- A loop that pushes one element in each round. -/
theorem eachLoop_push {P : Params} (hdyn : P.allocator.isSome) (f : Cell α → Cell α) (rest : List (Cell α)) :
    ∀ (done tail : List (Cell α)) {s : VS α} {l : LState α} {b : Block α} {slack : List (Cell α)},
      Rep P s l b slack → l.elems = done ++ rest ++ tail → Fits P (l.elems.length + rest.length) →
      ∃ s' l' b' sl', eachLoop (fun x s (a : Unit) =>
          (vecPushBack s (.ext [f x])).bind fun r => .ret (r.2, a)) rest.length done.length s () = .ret (s', ()) ∧
        Rep P s' l' b' sl' ∧ l'.elems = l.elems ++ rest.map f := by
  induction rest with
  | nil => intro done tail s l b slack R _ _; exact ⟨s, l, b, slack, rfl, R, by simp⟩
  | cons x rest ih =>
    intro done tail s l b slack R h hf
    have hx : l.elems[done.length]? = some x := by rw [h]; simp
    simp only [List.length_cons] at hf
    obtain ⟨s1, b1, sl1, e1, R1, _⟩ := push_calls R hdyn (f x) (hf.mono (by omega))
    obtain ⟨s2, l2, b2, sl2, e2, R2, h2⟩ := ih (done ++ [x]) (tail ++ [f x]) R1
      (by simp [h]) (by
        have : (l.elems ++ [f x]).length + rest.length = l.elems.length + (rest.length + 1) := by simp; omega
        simp only [this]; exact hf)
    refine ⟨s2, l2, b2, sl2, ?_, R2, by rw [h2]; simp⟩
    rw [List.length_cons, eachLoop, R.getMacro hx, Out.ret_bind', e1, Out.ret_bind', Out.ret_bind']
    rw [List.length_append] at e2
    exact e2

theorem Rep.getMacro_none {P : Params} {s : VS α} {a : LState α} {b : Block α} {slack : List (Cell α)}
    (R : Rep P s a b slack) {i : Nat} (h : a.elems.length ≤ i) : vecGetMacro s i = .ub .null := by
  have h1 : i ≥ s.v.size := by rw [R.size]; exact h
  simp [vecGetMacro, vecGet, h1]

/-- A loop that pops one element in each round, with as many rounds as elements left. -/
theorem eachLoop_pop {P : Params} (n : Nat) :
    ∀ (i : Nat) {s : VS α} {l : LState α} {b : Block α} {slack : List (Cell α)}, Rep P s l b slack →
      l.elems.length = n → 1 ≤ n → 2 ≤ i + n →
      eachLoop (fun _ s (a : Unit) => (vecPopBack s).bind fun r => .ret (r.2, a)) n i s () = .ub .null := by
  induction n with
  | zero => intro i s l b slack _ _ h1; omega
  | succ n ih =>
    intro i s l b slack R h h1 h2
    by_cases hi : l.elems.length ≤ i
    · rw [eachLoop, R.getMacro_none hi]; rfl
    · have hx : l.elems[i]? = some l.elems[i] := List.getElem?_eq_getElem (by omega)
      obtain ⟨junk, st, s', l', b', sl', _, hstep, hop, R'⟩ := op_ok R .pop trivial
      have hne : l.elems ≠ [] := by intro h0; rw [h0] at h; simp at h
      simp only [step, if_neg hne, Prod.mk.injEq] at hstep
      have hop' : vecPopBack s = .ret (st, s') := hop
      have hl : l'.elems.length = n := by rw [← hstep.2]; simp; omega
      rw [eachLoop, R.getMacro hx, Out.ret_bind', hop', Out.ret_bind', Out.ret_bind']
      exact ih (i + 1) R' hl (by omega) (by omega)

theorem Rep.getMutable {P : Params} {s : VS α} {a : LState α} {b : Block α} {slack : List (Cell α)}
    (R : Rep P s a b slack) {i : Nat} (h : i < a.elems.length) : vecGetMutable s i = some ⟨b.id, i⟩ := by
  have h1 : ¬ i ≥ s.v.size := by rw [R.size]; omega
  simp [vecGetMutable, vecGet, h1, R.data]

/-- Writing through a fresh pointer to an element. -/
theorem Rep.update {P : Params} {s : VS α} {a : LState α} {b : Block α} {slack : List (Cell α)}
    (R : Rep P s a b slack) {i : Nat} {x : Cell α} (h : a.elems[i]? = some x) (f : Cell α → Cell α) :
    ∃ s' b', updateThrough (some ⟨b.id, i⟩) f s = .ret s' ∧
      Rep P s' { a with elems := a.elems.set i (f x) } b' slack := by
  obtain ⟨hi, _⟩ := List.getElem?_eq_some_iff.1 h
  have h2 : b.cells[i]? = some x := by rw [R.cells, List.getElem?_append_left hi]; exact h
  refine ⟨{ s with v := { s.v with data := some { b with cells := b.cells.set i (f x) } } },
    { b with cells := b.cells.set i (f x) }, ?_, ?_⟩
  · simp only [updateThrough, R.data, withData, if_true, h2]
  · exact { R with
      size := by simp only [List.length_set]; exact R.size
      data := rfl
      cells := by simp only [R.cells]; rw [List.set_append_left _ _ hi]
      room := by simp only [List.length_set]; exact R.room
      dyn := by intro h; simp only [List.length_set]; exact R.dyn h
      fits := by simp only [List.length_set]; exact R.fits
      len := by simp only [List.length_set]; exact R.len
      alloc := by have := R.alloc; unfold AllocOK at *; exact this }

/-- A loop that replaces each element. -/
theorem eachMutLoop_map {P : Params} (f : Cell α → Cell α) (rest : List (Cell α)) :
    ∀ (done : List (Cell α)) {s : VS α} {l : LState α} {b : Block α} {slack : List (Cell α)},
      Rep P s l b slack → l.elems = done ++ rest →
      ∃ s' b', eachMutLoop (fun p s (a : Unit) => (updateThrough p f s).bind fun s => .ret (s, a))
          rest.length done.length s () = .ret (s', ()) ∧
        Rep P s' { l with elems := done ++ rest.map f } b' slack := by
  induction rest with
  | nil =>
    intro done s l b slack R h
    refine ⟨s, b, rfl, ?_⟩
    have : ({ l with elems := done ++ [].map f } : LState α) = l := by
      cases l; simp only at h; subst h; simp
    rw [this]; exact R
  | cons x rest ih =>
    intro done s l b slack R h
    have hx : l.elems[done.length]? = some x := by rw [h]; simp
    obtain ⟨s1, b1, e1, R1⟩ := R.update hx f
    obtain ⟨s2, b2, e2, R2⟩ := ih (done ++ [f x]) R1 (by simp [h])
    refine ⟨s2, b2, ?_, by simpa using R2⟩
    rw [List.length_cons, eachMutLoop, R.getMutable (by rw [h]; simp), e1, Out.ret_bind', Out.ret_bind']
    rw [List.length_append] at e2
    exact e2

theorem memcpyIn_id {b b' : Block α} {i n : Nat} {src : Src α} (h : memcpyIn b i src n = .ret b') :
    b'.id = b.id := by
  have key : ∀ {o : Out (List (Cell α))} {cs : List (Cell α)},
      (o.bind fun xs => (writeRange cs i xs).bind fun cs => .ret { b with cells := cs }) = .ret b' →
        b'.id = b.id := by
    intro o cs h
    cases o with
    | ub w => simp at h
    | ret xs =>
      rw [Out.ret_bind'] at h
      cases hw : writeRange cs i xs with
      | ub w => rw [hw] at h; simp at h
      | ret ys => rw [hw, Out.ret_bind', Out.ret.injEq] at h; rw [← h]
  unfold memcpyIn at h
  cases src with
  | null => simp at h
  | ext cells => exact key h
  | self blk j =>
    simp only at h
    split at h
    · split at h
      · simp at h
      · exact key h
    · simp at h

/-- A push onto a full vector moves the elements to another block. -/
theorem push_full_moves {P : Params} {s s' : VS α} {a : LState α} {b : Block α} {slack : List (Cell α)}
    (R : Rep P s a b slack) (hdyn : P.allocator.isSome) (hfull : a.elems.length = a.cap) {x : Cell α} {st : Status}
    (hf : Fits P (a.elems.length + 1)) (hop : vecPushBack s (.ext [x]) = .ret (st, s')) :
    ∃ b', s'.v.data = some b' ∧ b'.id ≠ b.id := by
  have hlt := (hf.mul_growth R.growth255 R.esz1).2.2
  obtain ⟨al, hal⟩ := Option.isSome_iff_exists.1 hdyn
  have hA := R.alloc
  simp only [AllocOK, hal] at hA
  simp only [vecPushBack, Src.isNull, R.size, add64_eq hlt, growFor, shouldGrow, R.cap] at hop
  rw [if_neg (by simp), if_pos (by simp; omega)] at hop
  have hnz : ¬ (max 1 (mul64 (a.elems.length + 1) s.v.growth) < 1) := by omega
  simp only [reallocate, R.allocator, hal, hnz, if_false, reallocTo, R.data, withData,
    reallocBlock, R.reliable_now, World.log, Bool.false_eq_true, Out.ret_bind', failed_success] at hop
  cases hm2 : memcpyIn _ s.v.size (.ext [x]) 1 with
  | ub w => rw [hm2] at hop; simp at hop
  | ret b3 =>
    have hid := memcpyIn_id hm2
    rw [hm2] at hop
    simp at hop
    refine ⟨b3, by rw [← hop.2], ?_⟩
    rw [hid]
    exact Nat.ne_of_gt hA.2

end Zy
