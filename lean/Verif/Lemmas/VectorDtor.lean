import Verif.Model.VectorDtor
import Verif.Spec.VectorDtor
import Verif.Lemmas.VectorReach

/-!
# Lemmas: destructors that modify the elements
-/

namespace Zy

open Spec

variable {α : Type}

theorem remains_length (d : DtorFn α) : ∀ (xs : List (Cell α)) (k : Nat), (remains d k xs).length = xs.length
  | [], _ => rfl
  | _ :: xs, k => by simp [remains, remains_length d xs (k + 1)]

theorem destroyLoopBy_ok (d : DtorFn α) : ∀ {mid : List (Cell α)} {s : VS α} {b : Block α} {pre post : List (Cell α)},
    s.v.data = some b → b.cells = pre ++ mid ++ post →
    destroyLoopBy d s pre.length mid.length =
      .ret ⟨{ s.v with data := some { b with cells := pre ++ remains d s.w.trace.length mid ++ post } },
        { s.w with trace := s.w.trace ++ mid.map Event.destroy }⟩ := by
  intro mid
  induction mid with
  | nil =>
    intro s b pre post hd h
    have : b = { b with cells := pre ++ [] ++ post } := by cases b; simp_all
    simp only [List.length_nil, destroyLoopBy, remains, ← this, ← hd]
    simp
  | cons x mid ih =>
    intro s b pre post hd h
    have hx : b.cells[pre.length]? = some x := by rw [h]; simp
    simp only [List.length_cons, destroyLoopBy, hd, withData, hx]
    have := ih (s := ⟨{ s.v with data := some { b with cells := b.cells.set pre.length (d s.w.trace.length x) } },
      s.w.log (.destroy x)⟩) (b := { b with cells := b.cells.set pre.length (d s.w.trace.length x) })
      (pre := pre ++ [d s.w.trace.length x]) (post := post) rfl (by simp [h])
    rw [List.length_append, List.length_singleton] at this
    rw [this]
    simp [World.log, remains]

/-- What the loop leaves in the slots of `mid`. -/
def leftIn (d : DtorFn α) (P : Params) (s : VS α) (mid : List (Cell α)) : List (Cell α) :=
  if P.dtor then remains d s.w.trace.length mid else mid

theorem leftIn_length (d : DtorFn α) (P : Params) (s : VS α) (mid : List (Cell α)) :
    (leftIn d P s mid).length = mid.length := by
  unfold leftIn; split
  · exact remains_length d mid _
  · rfl

/-- After the loop over `mid`, the vector has other elements in the place of `mid`. -/
theorem runDtorsBy_ok (d : DtorFn α) {P : Params} {s : VS α} {a : LState α} {b : Block α} {slack : List (Cell α)}
    (R : Rep P s a b slack) {pre mid post : List (Cell α)} (h : a.elems = pre ++ mid ++ post)
    {lo hi : Nat} (hlo : lo = pre.length) (hhi : hi = lo + mid.length) :
    ∃ s', runDtorsBy d s lo hi = .ret s' ∧
      Rep P s' { a with elems := pre ++ leftIn d P s mid ++ post, dead := a.dead ++ killed P mid }
        { b with cells := pre ++ leftIn d P s mid ++ post ++ slack } slack := by
  subst hlo
  have hn : hi - pre.length = mid.length := by omega
  unfold runDtorsBy leftIn
  rw [R.dtor, hn]
  by_cases hd : P.dtor
  · rw [if_pos hd, destroyLoopBy_ok d R.data (mid := mid) (pre := pre) (post := post ++ slack)
      (by rw [R.cells, h]; simp)]
    refine ⟨_, rfl, ?_⟩
    simp only [hd, if_true]
    have hel : (pre ++ remains d s.w.trace.length mid ++ post).length = a.elems.length := by
      rw [h]; simp [remains_length]
    have hbl : (pre ++ remains d s.w.trace.length mid ++ post ++ slack).length = b.cells.length := by
      rw [R.cells, h]; simp [remains_length]
    exact { R with
      size := by simp only [hel]; exact R.size
      data := by simp
      cells := rfl
      room := by simp only [hbl]; exact R.room
      dyn := by intro h; simp only [hbl]; exact R.dyn h
      fits := by simp only [hel]; exact R.fits
      len := by simp only [hel]; exact R.len
      alloc := by
        have := R.alloc
        unfold AllocOK at *
        split at this
        · simpa [replay_destroys] using this
        · exact ⟨this.1, onlyDestroys_append this.2 _⟩
      dead := by simp [R.dead, killed, hd, destroyedOf_map] }
  · rw [if_neg hd]
    refine ⟨s, rfl, ?_⟩
    have hb : b = { b with cells := pre ++ mid ++ post ++ slack } := by
      have := R.cells; rw [h] at this; cases b; simp_all
    simp only [killed, hd, Bool.false_eq_true, if_false, List.append_nil, ← h]
    rw [← h] at hb
    rw [← hb]
    exact R

/-- The operation on the concrete state does what the list specification says. -/
def OpByOK (d : DtorFn α) (P : Params) (s : VS α) (a : LState α) (op : VOp α) : Prop :=
  ∃ junk st s' a' b' slack', junk.length = junkLen a op ∧ step P junk a op = (st, a') ∧
    vecOpBy d s op = .ret (st, s') ∧ Rep P s' a' b' slack'

theorem setBy_ok (d : DtorFn α) {P : Params} {s : VS α} {a : LState α} {b : Block α} {slack : List (Cell α)}
    (R : Rep P s a b slack) (i : Nat) (x : Cell α) : OpByOK d P s a (.set i x) := by
  refine ⟨[], ?_⟩
  by_cases hi : i < a.elems.length
  · obtain ⟨pre, old, post, he, hl⟩ : ∃ pre old post, a.elems = pre ++ [old] ++ post ∧
        pre.length = i := by
      refine ⟨a.elems.take i, a.elems[i], a.elems.drop (i + 1), ?_, by simp; omega⟩
      rw [List.append_assoc, List.singleton_append, ← List.drop_eq_getElem_cons hi,
        List.take_append_drop]
    have hget : a.elems[i]? = some old := by
      rw [he, List.append_assoc, List.getElem?_append_right (by omega), hl]; simp
    have hset : a.elems.set i x = pre ++ [x] ++ post := by
      rw [he, List.append_assoc, List.set_append_right _ _ (by omega), hl]; simp
    obtain ⟨s', e, R'⟩ := runDtorsBy_ok d R (mid := [old]) he (lo := i) (hi := i + 1) hl.symm rfl
    let b' : Block α := { b with cells := pre ++ [x] ++ (post ++ slack) }
    refine ⟨stSuccess, { s' with v := { s'.v with data := some b' } },
      { a with elems := pre ++ [x] ++ post, dead := a.dead ++ killed P [old] }, b', slack, rfl, ?_, ?_, ?_⟩
    · simp only [step, hget, hset]
    · simp only [vecOpBy, vecSetBy, Src.isNull, R.size]
      rw [if_neg (by simp), if_neg (by omega)]
      simp only [e, Out.ret_bind', R'.data, withData]
      rw [memcpyIn_ext (n := 1) (xs := [x]) (pre := pre) (mid := leftIn d P s [old]) (post := post ++ slack)
        (by simp) (by rw [leftIn_length]; rfl) hl.symm rfl]
      simp [b']
    · have hbl : b'.cells.length = b.cells.length := by rw [R.cells, he]; simp [b']
      have hel : (pre ++ [x] ++ post).length = a.elems.length := by rw [he]; simp
      have hsz : s'.v.size = a.elems.length := by rw [R'.size, he]; simp [leftIn_length]; omega
      exact { R' with
        size := by simp only [hel]; exact hsz
        data := rfl
        cells := by simp [b']
        room := by rw [hbl]; exact R.room
        dyn := by intro h; rw [hbl]; exact R.dyn h
        fits := by simp only [hel]; exact R.fits
        len := by simp only [hel]; exact R.len
        alloc := by have := R'.alloc; unfold AllocOK at *; exact this }
  · refine ⟨stOutOfRange, s, a, b, slack, rfl, ?_, ?_, R⟩
    · have : a.elems[i]? = none := List.getElem?_eq_none (by omega)
      simp [step, this]
    · simp [vecOpBy, vecSetBy, Src.isNull, R.size]; omega

theorem deleteRangeBy_ok (d : DtorFn α) {P : Params} {s : VS α} {a : LState α} {b : Block α} {slack : List (Cell α)}
    (R : Rep P s a b slack) (i n : Nat) (hd : InDomain P a (.deleteRange i n)) :
    OpByOK d P s a (.deleteRange i n) := by
  have hlt : i + n < 18446744073709551616 := hd
  have hadd : add64 i n = i + n := add64_eq hlt
  have hlen64 := (R.fits.mul_growth R.growth255 R.esz1).2.2
  refine ⟨[], ?_⟩
  by_cases hn : n = 0
  · subst hn
    exact ⟨stInvalidArgument, s, a, b, slack, rfl, by simp [step], by simp [vecOpBy, vecDeleteRangeBy], R⟩
  by_cases hr : i + n > a.elems.length
  · refine ⟨stOutOfRange, s, a, b, slack, rfl, by simp [step, hn, hr], ?_, R⟩
    simp only [vecOpBy, vecDeleteRangeBy, hadd, R.size]
    rw [if_neg hn, if_pos hr]
  obtain ⟨pre, mid, suf, he, hl, hm⟩ : ∃ pre mid suf, a.elems = pre ++ mid ++ suf ∧
      pre.length = i ∧ mid.length = n := by
    refine ⟨a.elems.take i, (a.elems.drop i).take n, a.elems.drop (i + n), ?_, ?_, ?_⟩
    · rw [List.append_assoc, ← List.drop_drop, List.take_append_drop, List.take_append_drop]
    · simp; omega
    · simp; omega
  have htake : a.elems.take i = pre := by
    rw [he, List.append_assoc, ← hl]; exact List.take_left
  have hdrop : a.elems.drop (i + n) = suf := by
    rw [he, ← hl, ← hm, ← List.length_append]; exact List.drop_left
  have hmid : (a.elems.drop i).take n = mid := by
    rw [he, List.append_assoc, ← hl, List.drop_left, ← hm]; exact List.take_left
  obtain ⟨s1, e1, R1⟩ := runDtorsBy_ok d R he (lo := i) (hi := i + n) hl.symm (by omega)
  obtain ⟨mid', hm', hmid'⟩ : ∃ mid', mid' = leftIn d P s mid ∧ mid'.length = n :=
    ⟨_, rfl, by rw [leftIn_length]; exact hm⟩
  rw [← hm'] at R1
  have hsz : s1.v.size = (pre ++ mid' ++ suf).length := R1.size
  have hsz' : s1.v.size = a.elems.length := by rw [hsz, he]; simp; omega
  have hbl : (pre ++ mid' ++ suf ++ slack).length = b.cells.length := by rw [R.cells, he]; simp; omega
  -- closing the gap
  have hshift : ∃ sl2, (if i + n < s1.v.size then shiftLeft s1 i n else .ret s1) =
        .ret ⟨{ s1.v with data := some ⟨b.id, pre ++ suf ++ sl2⟩ }, s1.w⟩ ∧
        (pre ++ suf ++ sl2).length = b.cells.length := by
    by_cases h : i + n < s1.v.size
    · refine ⟨(mid' ++ suf ++ slack).drop suf.length, ?_, ?_⟩
      · rw [if_pos h]
        have h2 : sub64 (sub64 s1.v.size i) n = suf.length := by
          have h3 : s1.v.size < 18446744073709551616 := by rw [hsz']; exact hlen64
          rw [sub64_eq (a := s1.v.size) (by omega) h3, sub64_eq (by omega) (by omega), hsz]
          simp; omega
        simp only [shiftLeft, R1.data, withData, hadd, h2]
        rw [← hl, ← hmid', memmove_left]
        simp only [Out.ret_bind']
      · rw [← hbl]; simp; omega
    · have : suf = [] := by
        rw [hsz] at h
        simp at h
        exact List.eq_nil_of_length_eq_zero (by omega)
      subst this
      refine ⟨mid' ++ slack, ?_, ?_⟩
      · rw [if_neg h]
        have : s1.v.data = some ⟨b.id, pre ++ [] ++ (mid' ++ slack)⟩ := by rw [R1.data]; simp
        rw [← this]
      · rw [← hbl]; simp
  obtain ⟨sl2, e2, hlen2⟩ := hshift
  have hel : (pre ++ suf).length = a.elems.length - n := by rw [he]; simp; omega
  have R2 : Rep P ⟨{ s1.v with data := some ⟨b.id, pre ++ suf ++ sl2⟩, size := (pre ++ suf).length }, s1.w⟩
      { a with elems := pre ++ suf, dead := a.dead ++ killed P mid } ⟨b.id, pre ++ suf ++ sl2⟩ sl2 :=
    { R1 with
      size := rfl
      data := rfl
      cells := rfl
      room := by simp only [hlen2]; exact R.room
      dyn := by intro h; simp only [hlen2]; exact R.dyn h
      fits := by simp only [hel]; exact R.fits.mono (by omega)
      len := by have := R.len; simp only [hel]; omega
      alloc := by have := R1.alloc; unfold AllocOK at *; exact this }
  obtain ⟨s3, b3, sl3, e3, R3⟩ := shrinkAfter_ok R2
  refine ⟨stSuccess, s3, _, b3, sl3, rfl, ?_, ?_, R3⟩
  · simp only [step, htake, hdrop, hmid, hel]
    rw [if_neg hn, if_neg hr]
  · simp only [vecOpBy, vecDeleteRangeBy, hadd, R.size]
    rw [if_neg hn, if_neg hr]
    simp only [e1, Out.ret_bind', e2]
    have : sub64 s1.v.size n = (pre ++ suf).length := by
      rw [hsz', sub64_eq (by omega) hlen64, hel]
    simp only [this]
    exact e3

theorem popBy_ok (d : DtorFn α) {P : Params} {s : VS α} {a : LState α} {b : Block α} {slack : List (Cell α)}
    (R : Rep P s a b slack) : OpByOK d P s a .pop := by
  refine ⟨[], ?_⟩
  by_cases h0 : a.elems = []
  · refine ⟨stOutOfRange, s, a, b, slack, rfl, by simp [step, h0], ?_, R⟩
    have : s.v.size = 0 := by rw [R.size, h0]; rfl
    simp [vecOpBy, vecPopBackBy, this]
  · obtain ⟨last, hlast⟩ : ∃ l, a.elems = a.elems.dropLast ++ [l] :=
      ⟨a.elems.getLast h0, (List.dropLast_concat_getLast h0).symm⟩
    have hgl : a.elems.getLast? = some last := by rw [hlast]; simp
    have hpos : a.elems.length ≠ 0 := by simpa using h0
    have hdl : a.elems.dropLast.length = a.elems.length - 1 := by simp
    obtain ⟨s1, e1, R1⟩ := runDtorsBy_ok d R (pre := a.elems.dropLast) (mid := [last]) (post := [])
      (by rw [List.append_nil]; exact hlast) (lo := a.elems.length - 1) (hi := a.elems.length)
      hdl.symm (by simp; omega)
    have R2 := R1.truncate (keep := a.elems.dropLast) (gone := leftIn d P s [last]) (by simp)
      (n := a.elems.length - 1) hdl.symm
    obtain ⟨s3, b3, sl3, e3, R3⟩ := shrinkAfter_ok R2
    refine ⟨stSuccess, s3, _, b3, sl3, rfl, ?_, ?_, R3⟩
    · simp only [step, hgl, hdl]
      rw [if_neg h0]; rfl
    · simp only [vecOpBy, vecPopBackBy, R.size]
      rw [if_neg hpos]
      have : s1.v.size = a.elems.length := by
        rw [R1.size]; simp [leftIn_length]; omega
      simp only [e1, Out.ret_bind', this]
      exact e3

theorem resizeBy_shrink (d : DtorFn α) {P : Params} {s : VS α} {a : LState α} {b : Block α} {slack : List (Cell α)}
    (R : Rep P s a b slack) {n : Nat} (hn : n < a.elems.length) (init : Src α) :
    ∃ s' b' sl', vecResizeExBy d s n init = .ret (stSuccess, s') ∧
      Rep P s' { elems := a.elems.take n, cap := trim P a.cap n,
                 dead := a.dead ++ killed P (a.elems.drop n) } b' sl' := by
  have hcap := R.len
  have htl : (a.elems.take n).length = n := by simp; omega
  obtain ⟨s1, e1, R1⟩ := runDtorsBy_ok d R (pre := a.elems.take n) (mid := a.elems.drop n) (post := [])
    (by simp) (lo := n) (hi := a.elems.length) htl.symm (by simp; omega)
  have R2 := R1.truncate (keep := a.elems.take n) (gone := leftIn d P s (a.elems.drop n)) (by simp) (n := n) htl.symm
  have hroom : Spec.room P a.cap n = some a.cap := by
    unfold Spec.room; rw [if_pos (by omega)]
  obtain ⟨_, s3, b3, sl3, e3, R3⟩ := resizeRealloc_some R2 (n := n) (c := a.cap)
    (R.fits.mono (by omega)) (by simp only [htl]; omega) hroom
  have hle : n ≤ a.cap := by omega
  simp only [hle, if_true] at R3
  rw [resizeRealloc_size] at e3
  cases hrr : resizeRealloc s1 n with
  | ub w => rw [hrr] at e3; simp at e3
  | ret r =>
    rw [hrr] at e3
    simp only [Out.ret_bind', Out.ret.injEq, Prod.mk.injEq] at e3
    refine ⟨s3, b3, sl3, ?_, R3⟩
    have hq : vecResizeExBy d s n init = if n = s.v.size then .ret (stSuccess, s)
      else
        (if n < s.v.size then runDtorsBy d s n s.v.size else .ret s).bind fun s =>
        (resizeRealloc s n).bind fun r =>
        if failed r.1 then .ret r
        else if ¬ init.isNull ∧ n > r.2.v.size then
          withData r.2.v.data fun b =>
          (fillLoop b init r.2.v.size (n - r.2.v.size)).bind fun b' =>
          .ret (stSuccess, ⟨{ r.2.v with data := some b', size := n }, r.2.w⟩)
        else .ret (stSuccess, ⟨{ r.2.v with size := n }, r.2.w⟩) := rfl
    rw [hq, R.size, if_neg (by omega), if_pos hn, e1]
    simp only [Out.ret_bind', hrr, e3.1, failed_success]
    have hsz : r.2.v.size = a.elems.length := by
      have h1 : s1.v.size = a.elems.length := by rw [R1.size]; simp [leftIn_length]; omega
      have h2 : resizeRealloc s1 n = _ := resizeRealloc_size s1 s1.v.size n
      rw [hrr] at h2
      simp only [Out.ret_bind'] at h2
      simp only [Out.ret.injEq] at h2
      rw [← h1]
      have := congrArg (fun x => x.2.v.size) h2
      exact this
    rw [hsz]
    simp [← e3.2]
    intro _ h; omega

theorem resizeBy_same (d : DtorFn α) {s : VS α} {n : Nat} (h : s.v.size ≤ n) (init : Src α) :
    vecResizeExBy d s n init = vecResizeEx s n init := by
  unfold vecResizeExBy vecResizeEx
  rw [if_neg (c := n < s.v.size) (by omega), if_neg (c := n < s.v.size) (by omega)]

theorem clearBy_ok (d : DtorFn α) {P : Params} {s : VS α} {a : LState α} {b : Block α} {slack : List (Cell α)}
    (R : Rep P s a b slack) : OpByOK d P s a .clear := by
  by_cases h0 : a.elems = []
  · refine ⟨[], stSuccess, s, a, b, slack, rfl, by simp [step, h0], ?_, R⟩
    have : s.v.size = 0 := by rw [R.size, h0]; rfl
    simp [vecOpBy, vecClearBy, vecResizeExBy, this]
  · have hpos : 0 < a.elems.length := List.length_pos_iff.2 h0
    obtain ⟨s', b', sl', e, R'⟩ := resizeBy_shrink d R hpos .null
    simp only [List.take_zero, List.drop_zero] at R'
    exact ⟨[], stSuccess, s', _, b', sl', rfl, by simp only [step, h0, if_false], e, R'⟩

theorem resizeBy_ok (d : DtorFn α) {P : Params} {s : VS α} {a : LState α} {b : Block α} {slack : List (Cell α)}
    (R : Rep P s a b slack) (n : Nat) (init : Option (Cell α)) (hd : InDomain P a (.resize n init)) :
    OpByOK d P s a (.resize n init) := by
  by_cases hn : n < a.elems.length
  · obtain ⟨s', b', sl', e, R'⟩ := resizeBy_shrink d R hn (initSrc init)
    refine ⟨[], stSuccess, s', _, b', sl', by simp [junkLen]; omega, ?_, e, R'⟩
    have hroom : Spec.room P a.cap n = some a.cap := by
      unfold Spec.room; rw [if_pos (by have := R.len; omega)]
    simp only [step, hroom]
    rw [if_neg (by omega), if_pos (by omega)]
  · obtain ⟨junk, st, s', a', b', sl', h1, h2, h3, h4⟩ := resize_ok R n init hd
    refine ⟨junk, st, s', a', b', sl', h1, h2, ?_, h4⟩
    simp only [vecOpBy]
    rw [resizeBy_same d (by rw [R.size]; omega)]
    exact h3

theorem opBy_ok (d : DtorFn α) {P : Params} {s : VS α} {a : LState α} {b : Block α} {slack : List (Cell α)}
    (R : Rep P s a b slack) (op : VOp α) (hd : InDomain P a op) : OpByOK d P s a op := by
  cases op with
  | set i x => exact setBy_ok d R i x
  | deleteRange i n => exact deleteRangeBy_ok d R i n hd
  | pop => exact popBy_ok d R
  | clear => exact clearBy_ok d R
  | resize n init => exact resizeBy_ok d R n init hd
  | push x => exact push_ok R x hd
  | insertRange i xs => exact insertRange_ok R i xs hd
  | emplace i c => exact emplace_ok R i c hd
  | swap i j => exact swap_ok R i j
  | reserve c => exact reserve_ok R c hd
  | shrinkToFit => exact shrinkToFit_ok R

theorem runVecBy_ok (d : DtorFn α) {P : Params} (ops : List (VOp α)) : ∀ {s : VS α} {a : LState α} {b : Block α}
    {slack : List (Cell α)}, Rep P s a b slack → AllInDomain P a ops →
    ∃ sts s' a' b' slack', runVecBy d s ops = .ret (sts, s') ∧ Runs P a ops sts a' ∧
      Rep P s' a' b' slack' := by
  induction ops with
  | nil =>
    intro s a b slack R _
    exact ⟨[], s, a, b, slack, rfl, .nil a, R⟩
  | cons op ops ih =>
    intro s a b slack R hd
    cases hd with
    | cons hd ht =>
      obtain ⟨junk, st, s1, a1, b1, sl1, hj, hstep, hop, R1⟩ := opBy_ok d R op hd
      have ht' := ht junk hj
      rw [hstep] at ht'
      obtain ⟨sts, s', a', b', sl', hrun, hruns, R'⟩ := ih R1 ht'
      refine ⟨st :: sts, s', a', b', sl', ?_, .cons junk hj hstep hruns, R'⟩
      simp [runVecBy, hop, hrun]

/-- Vectors that a program can obtain when the destructor is `d`. -/
theorem ReachBy.rep {d : DtorFn α} {P : Params} {s : VS α} (h : ReachBy d P s) :
    ∃ b slack, Rep P s (absOf s) b slack := by
  obtain ⟨s0, ops, sts, h0, hd, hr⟩ := h
  obtain ⟨b, slack, R⟩ := h0.rep
  obtain ⟨sts', s', a', b', sl', hr', _, R'⟩ := runVecBy_ok d ops R hd
  rw [hr] at hr'
  cases hr'
  rw [R'.abs_eq]
  exact ⟨b', sl', R'⟩

theorem destroyBy_rep (d : DtorFn α) {P : Params} {s : VS α} {a : LState α} {b : Block α} {slack : List (Cell α)}
    (R : Rep P s a b slack) :
    ∃ s' rest, vecDestroyBy d s = .ret (stSuccess, s', rest) ∧ s'.v.data = none ∧
      destroyedOf s'.w.trace = a.dead ++ killed P a.elems ∧
      (P.allocator.isSome → replay s'.w.trace = some none) ∧
      (P.allocator = none → s'.w.calls = 0 ∧ onlyDestroys s'.w.trace ∧
        rest = some { b with cells := leftIn d P s a.elems ++ slack }) := by
  obtain ⟨s1, e1, R1⟩ := runDtorsBy_ok d R (pre := []) (mid := a.elems) (post := []) (by simp)
    (lo := 0) (hi := a.elems.length) rfl (by simp)
  simp only [vecDestroyBy, R.size, e1, Out.ret_bind', R1.allocator]
  have hA := R1.alloc
  cases hal : P.allocator with
  | none =>
    simp only [AllocOK, hal] at hA
    refine ⟨_, _, rfl, rfl, R1.dead, by simp, fun _ => ⟨hA.1, hA.2, ?_⟩⟩
    rw [R1.data]; simp
  | some al =>
    simp only [AllocOK, hal] at hA
    have hcap : s1.v.cap ≠ 0 := by rw [R1.cap]; have := R1.cap1; omega
    simp only [R1.data, withData, deallocate, R1.reliable_now, World.log]
    rw [if_pos hcap, if_neg (by simp [R1.reliable_now]), if_neg (by simp)]
    refine ⟨_, _, rfl, rfl, ?_, ?_, by simp⟩
    · simp [R1.dead]
    · intro _
      simp [hA.1, replayStep, R1.cap, R1.esz]

/-- Nothing is reallocated after a deletion in a vector on a caller buffer. -/
theorem shrinkAfter_fixed {s : VS α} (h : s.v.shrink = 0) : shrinkAfter s = .ret (stSuccess, s) := by
  unfold shrinkAfter shouldShrink
  simp [h]

/-- Storage after `delete` on a caller buffer. -/
theorem deleteBy_storage (d : DtorFn α) {P : Params} {s : VS α} {a : LState α} {b' : Block α}
    {slack' : List (Cell α)} (R : Rep P s a b' slack') (hf : P.allocator = none)
    (hdt : P.dtor = true) {b : Block α} (hb : s.v.data = some b) {pre mid suf slack : List (Cell α)}
    (hc : b.cells = pre ++ mid ++ suf ++ slack) (hs : s.v.size = (pre ++ mid ++ suf).length) (hm : mid ≠ []) :
    ∃ s', vecDeleteRangeBy d s pre.length mid.length = .ret (stSuccess, s') ∧
      s'.v.data = some { b with cells :=
        pre ++ suf ++ (remains d s.w.trace.length mid ++ suf ++ slack).drop suf.length } := by
  have hlen64 := (R.fits.mul_growth R.growth255 R.esz1).2.2
  rw [← R.size, hs] at hlen64
  simp only [List.length_append] at hlen64 hs
  have hadd : add64 pre.length mid.length = pre.length + mid.length := add64_eq (by omega)
  have hm0 : mid.length ≠ 0 := by simpa using hm
  have hshr : s.v.shrink = 0 := by rw [R.shrink]; exact (R.fixed hf).2
  have hdt' : s.v.hasDtor = true := by rw [R.dtor]; exact hdt
  have e1 := destroyLoopBy_ok d (mid := mid) (pre := pre) (post := suf ++ slack) hb (by rw [hc]; simp)
  unfold vecDeleteRangeBy runDtorsBy
  rw [if_neg hm0, hadd, if_neg (by omega), hdt', if_pos rfl, Nat.add_sub_cancel_left, e1]
  simp only [Out.ret_bind']
  by_cases hsuf : pre.length + mid.length < s.v.size
  · rw [if_pos hsuf]
    have h2 : sub64 (sub64 s.v.size pre.length) mid.length = suf.length := by
      rw [sub64_eq (a := s.v.size) (by omega) (by omega), sub64_eq (by omega) (by omega), hs]; omega
    have e2 := memmove_left (pre := pre) (mid := remains d s.w.trace.length mid) (suf := suf) (slack := slack)
    rw [remains_length] at e2
    simp only [shiftLeft, withData, hadd, h2, ← List.append_assoc, e2, Out.ret_bind']
    rw [shrinkAfter_fixed (by exact hshr)]
    exact ⟨_, rfl, by simp⟩
  · rw [if_neg hsuf]
    have : suf = [] := List.eq_nil_of_length_eq_zero (by omega)
    subst this
    simp only [Out.ret_bind']
    rw [shrinkAfter_fixed (by exact hshr)]
    exact ⟨_, rfl, by simp⟩

/-- Storage after `pop` on a caller buffer. -/
theorem popBy_storage (d : DtorFn α) {P : Params} {s : VS α} {a : LState α} {b' : Block α}
    {slack' : List (Cell α)} (R : Rep P s a b' slack') (hf : P.allocator = none)
    (hdt : P.dtor = true) {b : Block α} (hb : s.v.data = some b) {pre slack : List (Cell α)} {x : Cell α}
    (hc : b.cells = pre ++ x :: slack) (hs : s.v.size = pre.length + 1) :
    ∃ s', vecPopBackBy d s = .ret (stSuccess, s') ∧
      s'.v.data = some { b with cells := pre ++ d s.w.trace.length x :: slack } := by
  have hshr : s.v.shrink = 0 := by rw [R.shrink]; exact (R.fixed hf).2
  have hdt' : s.v.hasDtor = true := by rw [R.dtor]; exact hdt
  have e1 := destroyLoopBy_ok d (mid := [x]) (pre := pre) (post := slack) hb (by rw [hc]; simp)
  unfold vecPopBackBy runDtorsBy
  rw [if_neg (by omega), hdt', if_pos rfl, hs, Nat.add_sub_cancel, Nat.add_sub_cancel_left,
    show (1 : Nat) = [x].length from rfl, e1]
  simp only [Out.ret_bind']
  rw [shrinkAfter_fixed (by exact hshr)]
  exact ⟨_, rfl, by simp [remains]⟩

/-- Storage after `clear` on a caller buffer. -/
theorem clearBy_storage (d : DtorFn α) {P : Params} {s : VS α} {a : LState α} {b' : Block α}
    {slack' : List (Cell α)} (R : Rep P s a b' slack') (hf : P.allocator = none)
    (hdt : P.dtor = true) {b : Block α} (hb : s.v.data = some b) {es slack : List (Cell α)}
    (hc : b.cells = es ++ slack) (hs : s.v.size = es.length) :
    ∃ s', vecClearBy d s = .ret (stSuccess, s') ∧
      s'.v.data = some { b with cells := remains d s.w.trace.length es ++ slack } := by
  have hshr : s.v.shrink = 0 := by rw [R.shrink]; exact (R.fixed hf).2
  have hdt' : s.v.hasDtor = true := by rw [R.dtor]; exact hdt
  by_cases h0 : es = []
  · subst h0
    refine ⟨s, by simp [vecClearBy, vecResizeExBy, hs], ?_⟩
    rw [hb]; cases b; simp_all [remains]
  · have hpos : 0 < es.length := List.length_pos_iff.2 h0
    have e1 := destroyLoopBy_ok d (mid := es) (pre := []) (post := slack) hb (by rw [hc]; simp)
    unfold vecClearBy vecResizeExBy runDtorsBy
    rw [if_neg (by omega), if_pos (by omega), hdt', if_pos rfl, hs, Nat.sub_zero]
    rw [show destroyLoopBy d s 0 es.length = _ from e1]
    simp [shouldGrow, shouldShrink, hshr, failed_success, Src.isNull]

/-- Storage after `destroy` on a caller buffer. -/
theorem destroyBy_storage (d : DtorFn α) {P : Params} {s : VS α} {a : LState α} {b' : Block α}
    {slack' : List (Cell α)} (R : Rep P s a b' slack') (hf : P.allocator = none)
    (hdt : P.dtor = true) {b : Block α} (hb : s.v.data = some b) {es slack : List (Cell α)}
    (hc : b.cells = es ++ slack) (hs : s.v.size = es.length) :
    ∃ s', vecDestroyBy d s =
      .ret (stSuccess, s', some { b with cells := remains d s.w.trace.length es ++ slack }) := by
  have hdt' : s.v.hasDtor = true := by rw [R.dtor]; exact hdt
  have e1 := destroyLoopBy_ok d (mid := es) (pre := []) (post := slack) hb (by rw [hc]; simp)
  unfold vecDestroyBy runDtorsBy
  rw [hdt', if_pos rfl, hs, Nat.sub_zero, show destroyLoopBy d s 0 es.length = _ from e1]
  simp only [Out.ret_bind', R.allocator, hf]
  exact ⟨_, rfl⟩

end Zy
