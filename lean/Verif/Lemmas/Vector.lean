import Verif.Model.Vector
import Verif.Spec.VectorRun

/-!
# Helper lemmas: the representation relation of vectors and one lemma per operation
-/

namespace Zy

open Spec

variable {α : Type}

@[simp] theorem destroyedOf_nil : destroyedOf ([] : List (Event α)) = [] := rfl
@[simp] theorem destroyedOf_append (t u : List (Event α)) :
    destroyedOf (t ++ u) = destroyedOf t ++ destroyedOf u := by simp [destroyedOf]
@[simp] theorem destroyedOf_destroy (x : Cell α) : destroyedOf [Event.destroy x] = [x] := rfl
@[simp] theorem destroyedOf_alloc (a b c d : Nat) : destroyedOf [Event.alloc (α := α) a b c d] = [] := rfl
@[simp] theorem destroyedOf_realloc (a b c d e : Nat) :
    destroyedOf [Event.realloc (α := α) a b c d e] = [] := rfl
@[simp] theorem destroyedOf_dealloc (a b c d : Nat) :
    destroyedOf [Event.dealloc (α := α) a b c d] = [] := rfl
@[simp] theorem destroyedOf_refused (a : Nat) : destroyedOf [Event.refused (α := α) a] = [] := rfl

@[simp] theorem replay_append_one (t : List (Event α)) (e : Event α) :
    replay (t ++ [e]) = replayStep (replay t) e := by simp [replay]

/-- What the trace says about the storage block. -/
def AllocOK (P : Params) (w : World α) (b : Block α) (cap : Nat) : Prop :=
  match P.allocator with
  | some a => replay w.trace = some (some ⟨a, b.id, P.esz, cap⟩) ∧ b.id < w.nextBlk
  | none => w.calls = 0 ∧ onlyDestroys w.trace

/-- The concrete vector state `s` represents the abstract vector `a`. -/
structure Rep (P : Params) (s : VS α) (a : LState α) (b : Block α) (slack : List (Cell α)) :
    Prop where
  allocator : s.v.allocator = P.allocator
  growth : s.v.growth = P.growth
  shrink : s.v.shrink = P.thr
  esz : s.v.esz = P.esz
  dtor : s.v.hasDtor = P.dtor
  growth1 : 1 ≤ P.growth
  growth255 : P.growth ≤ 255
  thr255 : P.thr ≤ 255
  esz1 : 1 ≤ P.esz
  esz64 : P.esz < 18446744073709551616
  fixed : P.allocator = none → P.growth = 1 ∧ P.thr = 0
  size : s.v.size = a.elems.length
  cap : s.v.cap = a.cap
  cap1 : 1 ≤ a.cap
  data : s.v.data = some b
  cells : b.cells = a.elems ++ slack
  room : a.cap ≤ b.cells.length
  dyn : P.allocator.isSome → b.cells.length = a.cap
  fits : Fits P a.elems.length
  len : a.elems.length ≤ a.cap
  reliable : ∀ k, s.w.calls ≤ k → failed (s.w.oracle k) = false
  alloc : AllocOK P s.w b a.cap
  dead : destroyedOf s.w.trace = a.dead

theorem Rep.reliable_now {P : Params} {s : VS α} {a : LState α} {b : Block α}
    {slack : List (Cell α)} (R : Rep P s a b slack) : failed (s.w.oracle s.w.calls) = false :=
  R.reliable _ (Nat.le_refl _)

theorem Spec.Fits.mul_growth {P : Params} {n g : Nat} (h : Fits P n) (hg : g ≤ 255) (he : 1 ≤ P.esz) :
    n * g * P.esz < 18446744073709551616 ∧ n * g < 18446744073709551616 ∧
      n < 18446744073709551616 := by
  unfold Fits at h
  have h1 : n * g ≤ n * 255 := Nat.mul_le_mul_left _ hg
  have h2 : n * g * P.esz ≤ n * 255 * P.esz := Nat.mul_le_mul_right _ h1
  have h3 : n * 255 ≤ n * 255 * P.esz := Nat.le_mul_of_pos_right _ he
  omega

theorem Spec.Fits.mono {P : Params} {n m : Nat} (h : Fits P n) (hm : m ≤ n) : Fits P m := by
  unfold Fits at *
  exact Nat.lt_of_le_of_lt (Nat.mul_le_mul_right _ (Nat.mul_le_mul_right _ hm)) h

theorem grantedCells_eq {esz n : Nat} (he : 1 ≤ esz) (h : n * esz < 18446744073709551616) :
    grantedCells esz n = n := by
  unfold grantedCells
  rw [mul64_eq (by rw [Nat.mul_comm]; exact h)]
  exact Nat.mul_div_cancel_left n he

/-! ## Reallocation -/

theorem reallocTo_ok {P : Params} {s : VS α} {a : LState α} {b : Block α} {slack : List (Cell α)}
    (R : Rep P s a b slack) {al c : Nat} (hal : P.allocator = some al) (hc1 : 1 ≤ c)
    (hc : c * P.esz < 18446744073709551616) (hlen : a.elems.length ≤ c) :
    ∃ s' b' slack', reallocTo s al c = .ret (stSuccess, s') ∧
      Rep P s' { a with cap := c } b' slack' := by
  have hg : grantedCells P.esz c = c :=  grantedCells_eq R.esz1 hc
  have hA := R.alloc
  simp only [AllocOK, hal] at hA
  have hb : b.cells.length = a.cap := R.dyn (by simp [hal])
  let b' : Block α :=
    ⟨s.w.nextBlk, b.cells.take c ++ List.replicate (c - b.cells.length) none⟩
  let w' : World α := { oracle := s.w.oracle, calls := s.w.calls + 1, nextBlk := s.w.nextBlk + 1,
                        trace := s.w.trace ++ [.realloc al b.id s.w.nextBlk P.esz c] }
  refine ⟨⟨{ s.v with cap := c, data := some b' }, w'⟩, b',
    (slack.take (c - a.elems.length)) ++ List.replicate (c - b.cells.length) none, ?_, ?_⟩
  · simp [reallocTo, R.data, withData, reallocBlock, R.reliable_now, b', w', World.log, R.esz, hg]
  · have hcells := R.cells
    have htake : List.take c b.cells = a.elems ++ slack.take (c - a.elems.length) := by
      rw [hcells, List.take_append, List.take_of_length_le hlen]
    exact { R with
      cap := rfl
      cap1 := hc1
      data := rfl
      cells := by simp [b', htake]
      room := by simp [b']; omega
      dyn := by intro _; simp [b']; omega
      len := hlen
      reliable := fun k hk => R.reliable k (Nat.le_of_succ_le hk)
      alloc := by
        simp only [AllocOK, hal]
        simp [hA.1, replayStep, w', b']
        exact Nat.ne_of_gt hA.2
      dead := by simp [w', R.dead] }

theorem reallocate_dyn {P : Params} {s : VS α} {a : LState α} {b : Block α} {slack : List (Cell α)}
    (R : Rep P s a b slack) (hdyn : P.allocator.isSome) {c : Nat}
    (hc : c * P.esz < 18446744073709551616) (hlen : a.elems.length ≤ c) :
    ∃ s' b' slack', reallocate s c = .ret (stSuccess, s') ∧
      Rep P s' { a with cap := max 1 c } b' slack' := by
  obtain ⟨al, hal⟩ := Option.isSome_iff_exists.1 hdyn
  simp only [reallocate, R.allocator, hal]
  split
  · split
    · have : max 1 c = 1 := by omega
      rw [this]
      obtain ⟨s', b', sl, h1, h2⟩ := reallocTo_ok R hal (c := 1) (by omega)
        (by have := R.esz64; omega) (by omega)
      exact ⟨s', b', sl, h1, h2⟩
    · refine ⟨s, b, slack, rfl, ?_⟩
      have : max 1 c = a.cap := by have := R.cap; have := R.cap1; omega
      rw [this]; exact R
  · have : max 1 c = c := by omega
    rw [this]
    exact reallocTo_ok R hal (by omega) hc hlen

theorem reallocate_fixed {P : Params} {s : VS α} {a : LState α} {b : Block α}
    {slack : List (Cell α)} (R : Rep P s a b slack) (hfix : P.allocator = none) (c : Nat) :
    reallocate s c = if a.cap < c then .ret (stInsufficient, s) else .ret (stSuccess, s) := by
  simp only [reallocate, R.allocator, hfix, R.cap]

theorem growFor_none {P : Params} {s : VS α} {a : LState α} {b : Block α} {slack : List (Cell α)}
    (R : Rep P s a b slack) {need : Nat} (hf : Fits P need) (h : Spec.room P a.cap need = none) :
    growFor s need = .ret (stInsufficient, s) := by
  unfold Spec.room at h
  split at h
  · simp at h
  · split at h
    · simp at h
    · rename_i h1 h2
      have hfix : P.allocator = none := by simpa using h2
      have hg := (R.fixed hfix).1
      have hm := hf.mul_growth R.growth255 R.esz1
      have h3 : mul64 need s.v.growth = need := by
        rw [R.growth, hg, mul64_eq (by omega), Nat.mul_one]
      simp only [growFor, shouldGrow, R.cap, h3, reallocate_fixed R hfix]
      have : need > a.cap := by omega
      have h4 : a.cap < max 1 need := by omega
      simp [this, h4]

theorem growFor_some {P : Params} {s : VS α} {a : LState α} {b : Block α} {slack : List (Cell α)}
    (R : Rep P s a b slack) {need c : Nat} (hf : Fits P need) (hn : a.elems.length ≤ need)
    (h : Spec.room P a.cap need = some c) :
    need ≤ c ∧ ∃ s' b' slack', growFor s need = .ret (stSuccess, s') ∧
      Rep P s' { a with cap := c } b' slack' := by
  unfold Spec.room at h
  split at h
  · rename_i hle
    injection h with h; subst h
    refine ⟨hle, s, b, slack, ?_, R⟩
    simp [growFor, shouldGrow, R.cap]; omega
  · split at h
    · rename_i h1 hdyn
      injection h with h; subst h
      have hm := hf.mul_growth R.growth255 R.esz1
      have hge : need ≤ need * P.growth := Nat.le_mul_of_pos_right _ R.growth1
      refine ⟨hge, ?_⟩
      have h0 := R.cap1
      have hmax : max 1 (mul64 need s.v.growth) = need * P.growth := by
        rw [R.growth, mul64_eq hm.2.1]; omega
      obtain ⟨s', b', sl, e, R'⟩ := reallocate_dyn R hdyn (c := need * P.growth) hm.1 (by omega)
      refine ⟨s', b', sl, ?_, ?_⟩
      · simp only [growFor, shouldGrow, hmax, R.cap]
        rw [if_pos (by simp; omega), e]
      · have : max 1 (need * P.growth) = need * P.growth := by omega
        rw [this] at R'; exact R'
    · simp at h

theorem shrinkAfter_ok {P : Params} {s : VS α} {a : LState α} {b : Block α}
    {slack : List (Cell α)} (R : Rep P s a b slack) :
    ∃ s' b' slack', shrinkAfter s = .ret (stSuccess, s') ∧
      Rep P s' { a with cap := trim P a.cap a.elems.length } b' slack' := by
  have hm := R.fits.mul_growth R.growth255 R.esz1
  have ht := R.fits.mul_growth R.thr255 R.esz1
  unfold trim shrinkAfter shouldShrink
  rw [R.size, R.cap, R.shrink, R.growth, mul64_eq hm.2.1, mul64_eq ht.2.1]
  by_cases h1 : P.thr ≠ 0 ∧ a.elems.length * P.thr < a.cap
  · by_cases hdyn : P.allocator.isSome
    · obtain ⟨s', b', sl, e, R'⟩ := reallocate_dyn R hdyn (c := max 1 (a.elems.length * P.growth))
        (by have := R.esz64
            by_cases h0 : a.elems.length * P.growth ≤ 1
            · rw [Nat.max_eq_left h0]; omega
            · rw [Nat.max_eq_right (by omega)]; exact hm.1)
        (by have := Nat.le_mul_of_pos_right a.elems.length R.growth1; omega)
      refine ⟨s', b', sl, ?_, ?_⟩
      · simpa [h1] using e
      · have : max 1 (max 1 (a.elems.length * P.growth)) = max 1 (a.elems.length * P.growth) := by
          omega
        rw [this] at R'
        simpa [h1, hdyn] using R'
    · have hfix : P.allocator = none := by simpa using hdyn
      exact absurd (R.fixed hfix).2 h1.1
  · refine ⟨s, b, slack, ?_, ?_⟩
    · simp only [Bool.and_eq_true, decide_eq_true_eq]
      rw [if_neg h1]
    · rw [if_neg (by intro h; exact h1 h.2)]; exact R

/-! ## Memory lemmas -/

theorem writeRange_at {pre mid post xs : List (Cell α)} (h : xs.length = mid.length) :
    writeRange (pre ++ mid ++ post) pre.length xs = .ret (pre ++ xs ++ post) := by
  unfold writeRange
  rw [if_pos (by simp; omega)]
  have : (pre ++ mid ++ post).drop (pre.length + xs.length) = post := by
    rw [h, ← List.length_append]; exact List.drop_left
  rw [this, List.append_assoc pre mid, List.take_left]

theorem readRange_at {pre mid post : List (Cell α)} {n i : Nat} (hi : i = pre.length)
    (h : n = mid.length) : readRange (pre ++ mid ++ post) i n = .ret mid := by
  subst h; subst hi
  unfold readRange
  rw [if_pos (by simp), List.append_assoc, List.drop_left, List.take_left]

/-- Moving a suffix to the right opens a gap. -/
theorem memmove_right {pre suf slack : List (Cell α)} {n : Nat} (hn : n ≤ slack.length) :
    memmoveCells (pre ++ suf ++ slack) (pre.length + n) pre.length suf.length =
      .ret (pre ++ (suf ++ slack).take n ++ suf ++ slack.drop n) := by
  unfold memmoveCells
  rw [readRange_at rfl rfl]
  simp only [Out.ret_bind']
  have hs : pre ++ suf ++ slack =
      (pre ++ (suf ++ slack).take n) ++ ((suf ++ slack).drop n).take suf.length ++
        slack.drop n := by
    have h1 : ((suf ++ slack).drop n).drop suf.length = slack.drop n := by
      rw [List.drop_drop, Nat.add_comm, ← List.drop_drop, List.drop_left]
    rw [List.append_assoc pre, List.append_assoc pre, List.append_assoc pre, ← h1,
      List.append_assoc (List.take n _), List.take_append_drop, List.take_append_drop]
  have hl : pre.length + n = (pre ++ (suf ++ slack).take n).length := by simp; omega
  rw [hs, hl, writeRange_at (by simp; omega)]

/-- Moving a suffix to the left closes a gap. -/
theorem memmove_left {pre mid suf slack : List (Cell α)} :
    memmoveCells (pre ++ mid ++ suf ++ slack) pre.length (pre.length + mid.length) suf.length =
      .ret (pre ++ suf ++ (mid ++ suf ++ slack).drop suf.length) := by
  unfold memmoveCells
  rw [readRange_at (by simp) rfl]
  simp only [Out.ret_bind']
  have hs : pre ++ mid ++ suf ++ slack =
      pre ++ (mid ++ suf ++ slack).take suf.length ++ (mid ++ suf ++ slack).drop suf.length := by
    rw [List.append_assoc pre (List.take _ _), List.take_append_drop]; simp
  rw [hs, writeRange_at (by simp; omega)]

theorem memmove_one {cells : List (Cell α)} {d i : Nat} (hd : d < cells.length)
    (hi : i < cells.length) : memmoveCells cells d i 1 = .ret (cells.set d cells[i]) := by
  unfold memmoveCells readRange
  rw [if_pos (by omega)]
  simp only [Out.ret_bind']
  have : (cells.drop i).take 1 = [cells[i]] := by
    rw [List.drop_eq_getElem_cons hi, List.take_succ_cons, List.take_zero]
  rw [this]
  unfold writeRange
  rw [if_pos (by simp; omega), List.set_eq_take_append_cons_drop, if_pos hd]
  simp

/-! ## Destructor loops -/

theorem destroyLoop_ok {s : VS α} {b : Block α} (hd : s.v.data = some b) :
    ∀ {mid pre post : List (Cell α)}, b.cells = pre ++ mid ++ post →
    destroyLoop s pre.length mid.length =
      .ret { s with w := { s.w with trace := s.w.trace ++ mid.map Event.destroy } } := by
  intro mid
  induction mid generalizing s with
  | nil => intro pre post h; simp [destroyLoop]
  | cons x mid ih =>
    intro pre post h
    have hx : b.cells[pre.length]? = some x := by rw [h]; simp
    simp only [List.length_cons, destroyLoop, hd, withData, hx]
    have := ih (s := { s with w := s.w.log (.destroy x) }) hd (pre := pre ++ [x]) (post := post)
      (by simp [h])
    rw [List.length_append, List.length_singleton] at this
    rw [this]
    simp [World.log]

theorem onlyDestroys_append {t : List (Event α)} (h : onlyDestroys t) (xs : List (Cell α)) :
    onlyDestroys (t ++ xs.map Event.destroy) := by
  intro e he
  rcases List.mem_append.1 he with h1 | h1
  · exact h e h1
  · obtain ⟨x, _, hx⟩ := List.mem_map.1 h1
    exact ⟨x, hx.symm⟩

theorem replay_destroys (t : List (Event α)) (xs : List (Cell α)) :
    replay (t ++ xs.map Event.destroy) = replay t := by
  induction xs generalizing t with
  | nil => simp
  | cons x xs ih =>
    have : t ++ List.map Event.destroy (x :: xs) = (t ++ [Event.destroy x]) ++ xs.map .destroy := by
      simp
    rw [this, ih, replay_append_one]
    unfold replayStep
    split <;> simp_all

theorem destroyedOf_map (xs : List (Cell α)) : destroyedOf (xs.map Event.destroy) = xs := by
  induction xs with
  | nil => rfl
  | cons x xs ih =>
    have : List.map Event.destroy (x :: xs) = [Event.destroy x] ++ xs.map .destroy := rfl
    rw [this, destroyedOf_append, ih]; simp

/-- After the destructor loop over `mid`, the same vector is represented with `mid` recorded. -/
theorem runDtors_ok {P : Params} {s : VS α} {a : LState α} {b : Block α} {slack : List (Cell α)}
    (R : Rep P s a b slack) {pre mid post : List (Cell α)} (h : a.elems = pre ++ mid ++ post)
    {lo hi : Nat} (hlo : lo = pre.length) (hhi : hi = lo + mid.length) :
    ∃ s', runDtors s lo hi = .ret s' ∧
      Rep P s' { a with dead := a.dead ++ killed P mid } b slack := by
  subst hlo
  have hn : hi - pre.length = mid.length := by omega
  unfold runDtors
  rw [R.dtor, hn]
  by_cases hd : P.dtor
  · rw [if_pos hd, destroyLoop_ok R.data (mid := mid) (pre := pre) (post := post ++ slack)
      (by rw [R.cells, h]; simp)]
    refine ⟨_, rfl, ?_⟩
    exact { R with
      alloc := by
        have := R.alloc
        unfold AllocOK at *
        split at this
        · simpa [replay_destroys] using this
        · exact ⟨this.1, onlyDestroys_append this.2 _⟩
      dead := by simp [R.dead, killed, hd, destroyedOf_map] }
  · rw [if_neg hd]
    refine ⟨s, rfl, ?_⟩
    simp [killed, hd]
    exact R

/-! ## One lemma per operation -/

/-- The operation `op` on the concrete state does what the list specification says. -/
def OpOK (P : Params) (s : VS α) (a : LState α) (op : VOp α) : Prop :=
  ∃ junk st s' a' b' slack', junk.length = junkLen a op ∧ step P junk a op = (st, a') ∧
    vecOp s op = .ret (st, s') ∧ Rep P s' a' b' slack'

theorem memcpyIn_ext {b : Block α} {pre mid post xs : List (Cell α)} (hb : b.cells = pre ++ mid ++ post)
    (h : xs.length = mid.length) {i n : Nat} (hi : i = pre.length) (hn : n = xs.length) :
    memcpyIn b i (.ext xs) n = .ret { b with cells := pre ++ xs ++ post } := by
  subst hi; subst hn
  have h1 : readRange xs 0 xs.length = .ret xs := by simp [readRange]
  simp only [memcpyIn, h1, hb, writeRange_at h, Out.ret_bind']

theorem push_ok {P : Params} {s : VS α} {a : LState α} {b : Block α} {slack : List (Cell α)}
    (R : Rep P s a b slack) (x : Cell α) (hd : InDomain P a (.push x)) : OpOK P s a (.push x) := by
  have hf : Fits P (a.elems.length + 1) := hd
  have hlt := (hf.mul_growth R.growth255 R.esz1).2.2
  have hadd : add64 a.elems.length 1 = a.elems.length + 1 := add64_eq hlt
  refine ⟨[], ?_⟩
  cases hr : Spec.room P a.cap (a.elems.length + 1) with
  | none =>
    refine ⟨stInsufficient, s, a, b, slack, rfl, by simp [step, hr], ?_, R⟩
    simp [vecOp, vecPushBack, Src.isNull, R.size, hadd, growFor_none R hf hr]
  | some c =>
    obtain ⟨hc, s', b', sl, e, R'⟩ := growFor_some R hf (by omega) hr
    have hroom := R'.room
    rw [R'.cells] at hroom
    simp at hroom
    obtain ⟨y, rest, hsl⟩ : ∃ y rest, sl = y :: rest := by
      cases sl with
      | nil => simp at hroom; omega
      | cons y rest => exact ⟨y, rest, rfl⟩
    have hcells : b'.cells = a.elems ++ [y] ++ rest := by rw [R'.cells, hsl]; simp
    let b'' : Block α := { b' with cells := a.elems ++ [x] ++ rest }
    refine ⟨stSuccess, { s' with v := { s'.v with data := some b'', size := a.elems.length + 1 } },
      { a with elems := a.elems ++ [x], cap := c }, b'', rest, rfl, by simp [step, hr], ?_, ?_⟩
    · have hsz : s'.v.size = a.elems.length := R'.size
      simp only [vecOp, vecPushBack, Src.isNull, R.size, hadd, e, Out.ret_bind', failed_success, R'.data,
        withData, hsz]
      rw [memcpyIn_ext (n := 1) (xs := [x]) hcells rfl rfl rfl]
      simp [b'']
    · exact { R' with
        size := by simp
        data := rfl
        cells := by simp [b'']
        room := by have := R'.room; rw [hcells] at this; simpa [b''] using this
        dyn := by intro h; have := R'.dyn h; rw [hcells] at this; simpa [b''] using this
        fits := by simpa using hf
        len := by simpa using hc
        alloc := by have := R'.alloc; unfold AllocOK at *; exact this }

/-- The gap-opening step of the insertion functions. -/
theorem shift_ok {P : Params} {s : VS α} {a : LState α} {b : Block α} {slack : List (Cell α)}
    (R : Rep P s a b slack) {i n : Nat} (hi : i ≤ a.elems.length) (hn : a.elems.length + n ≤ a.cap)
    (hlt : a.elems.length + n < 18446744073709551616) :
    ∃ junk, junk.length = n ∧
      (if i < s.v.size then shiftRight s i n else .ret s) =
        .ret ⟨{ s.v with data := some ⟨b.id, a.elems.take i ++ junk ++ a.elems.drop i ++ slack.drop n⟩ },
          s.w⟩ := by
  have hroom := R.room
  rw [R.cells] at hroom
  simp at hroom
  have hsl : n ≤ slack.length := by omega
  by_cases h : i < s.v.size
  · have hpre : (a.elems.take i).length = i := by simp; omega
    refine ⟨(a.elems.drop i ++ slack).take n, by simp; omega, ?_⟩
    rw [if_pos h]
    have hm := memmove_right (pre := a.elems.take i) (suf := a.elems.drop i) (slack := slack) hsl
    rw [List.take_append_drop, ← R.cells, hpre] at hm
    have h1 : add64 i n = i + n := add64_eq (by omega)
    have h2 : sub64 s.v.size i = (a.elems.drop i).length := by
      rw [sub64_eq (by omega) (by rw [R.size]; omega), R.size]; simp
    simp only [shiftRight, R.data, withData, h1, h2, hm, Out.ret_bind']
  · have hi' : i = a.elems.length := by rw [R.size] at h; omega
    refine ⟨slack.take n, by simp; omega, ?_⟩
    rw [if_neg h]
    subst hi'
    have : b = { b with cells := a.elems ++ slack } := by rw [← R.cells]
    simp
    rw [← this, ← R.data]

theorem insertRange_ok {P : Params} {s : VS α} {a : LState α} {b : Block α} {slack : List (Cell α)}
    (R : Rep P s a b slack) (i : Nat) (xs : List (Cell α)) (hd : InDomain P a (.insertRange i xs)) :
    OpOK P s a (.insertRange i xs) := by
  have hf : Fits P (a.elems.length + xs.length) := hd
  have hlt := (hf.mul_growth R.growth255 R.esz1).2.2
  have hadd : add64 a.elems.length xs.length = a.elems.length + xs.length := add64_eq hlt
  refine ⟨[], ?_⟩
  by_cases hx : xs = []
  · subst hx
    exact ⟨stInvalidArgument, s, a, b, slack, rfl, by simp [step],
      by simp [vecOp, vecInsertRange], R⟩
  have hxl : xs.length ≠ 0 := by simpa using hx
  by_cases hi : i > a.elems.length
  · refine ⟨stOutOfRange, s, a, b, slack, rfl, by simp [step, hx, hi], ?_, R⟩
    simp [vecOp, vecInsertRange, Src.isNull, hx, R.size, hi]
  cases hr : Spec.room P a.cap (a.elems.length + xs.length) with
  | none =>
    refine ⟨stInsufficient, s, a, b, slack, rfl, by simp [step, hr, hx, hi], ?_, R⟩
    simp only [vecOp, vecInsertRange, Src.isNull, hadd, growFor_none R hf hr, R.size]
    simp [hx, hi]
  | some c =>
    obtain ⟨hc, s', b', sl, e, R'⟩ := growFor_some R hf (by omega) hr
    obtain ⟨junk, hj, hsh⟩ := shift_ok R' (i := i) (n := xs.length) (by simp; omega) hc hlt
    have hlen' := R'.room
    rw [R'.cells] at hlen'
    simp at hlen'
    let b'' : Block α :=
      { b' with cells := a.elems.take i ++ xs ++ (a.elems.drop i ++ sl.drop xs.length) }
    refine ⟨stSuccess,
      { s' with v := { s'.v with data := some b'', size := a.elems.length + xs.length } },
      { a with elems := a.elems.take i ++ xs ++ a.elems.drop i, cap := c }, b'', sl.drop xs.length,
      rfl, by simp [step, hr, hx, hi], ?_, ?_⟩
    · simp only [vecOp, vecInsertRange, Src.isNull, hadd, R.size, e]
      rw [if_neg (by simp [hx]), if_neg hi]
      simp only [Out.ret_bind', failed_success, hsh, withData]
      rw [memcpyIn_ext (xs := xs) (pre := a.elems.take i) (mid := junk)
        (post := a.elems.drop i ++ sl.drop xs.length) (by simp) (by omega) (by simp; omega) rfl]
      have hsz : s'.v.size = a.elems.length := R'.size
      simp [b'', hsz, add64_eq hlt]
    · have hbl : b''.cells.length = b'.cells.length := by
        rw [R'.cells]; simp [b'']; omega
      exact { R' with
        size := by simp; omega
        data := rfl
        cells := by simp [b'']
        room := by rw [hbl]; exact R'.room
        dyn := by intro h; rw [hbl]; exact R'.dyn h
        fits := by
          have : (a.elems.take i ++ xs ++ a.elems.drop i).length = a.elems.length + xs.length := by
            simp; omega
          simp only [this]; exact hf
        len := by simp; omega
        alloc := by have := R'.alloc; unfold AllocOK at *; exact this }

theorem emplace_ok {P : Params} {s : VS α} {a : LState α} {b : Block α} {slack : List (Cell α)}
    (R : Rep P s a b slack) (i : Nat) (ctor : Ctor α) (hd : InDomain P a (.emplace i ctor)) :
    OpOK P s a (.emplace i ctor) := by
  obtain ⟨hf, hnf⟩ := hd
  have hlt := (hf.mul_growth R.growth255 R.esz1).2.2
  have hadd : add64 a.elems.length 1 = a.elems.length + 1 := add64_eq hlt
  by_cases hi : i > a.elems.length
  · refine ⟨[none], stOutOfRange, s, a, b, slack, rfl, by simp [step, hi], ?_, R⟩
    simp [vecOp, vecEmplaceEx, R.size, hi]
  cases hr : Spec.room P a.cap (a.elems.length + 1) with
  | none =>
    refine ⟨[none], stInsufficient, s, a, b, slack, rfl, by simp [step, hr, hi], ?_, R⟩
    simp only [vecOp, vecEmplaceEx, hadd, growFor_none R hf hr, R.size]
    simp [hi]
  | some c =>
    obtain ⟨hc, s', b', sl, e, R'⟩ := growFor_some R hf (by omega) hr
    obtain ⟨junk, hj, hsh⟩ := shift_ok R' (i := i) (n := 1) (by simp; omega) hc hlt
    obtain ⟨x, rfl⟩ : ∃ x, junk = [x] := List.length_eq_one_iff.1 hj
    have hlen' := R'.room
    rw [R'.cells] at hlen'
    simp at hlen'
    have hsz : s'.v.size = a.elems.length := R'.size
    simp only [OpOK, vecOp, vecEmplaceEx, hadd, R.size, e, hi, if_false, Out.ret_bind',
      failed_success, hsh]
    have hfin : ∀ y : Cell α, Rep P
        { s' with v := { s'.v with
            data := some { b' with cells := a.elems.take i ++ [y] ++ a.elems.drop i ++ sl.drop 1 },
            size := add64 s'.v.size 1 } }
        { a with elems := a.elems.take i ++ [y] ++ a.elems.drop i, cap := c }
        { b' with cells := a.elems.take i ++ [y] ++ a.elems.drop i ++ sl.drop 1 } (sl.drop 1) := by
      intro y
      have hbl : (a.elems.take i ++ [y] ++ a.elems.drop i ++ sl.drop 1).length = b'.cells.length := by
        rw [R'.cells]; simp; omega
      exact { R' with
        size := by simp [hsz, add64_eq hlt]; omega
        data := rfl
        cells := rfl
        room := by simp only [hbl]; exact R'.room
        dyn := by intro h; simp only [hbl]; exact R'.dyn h
        fits := by
          have : (a.elems.take i ++ [y] ++ a.elems.drop i).length = a.elems.length + 1 := by
            simp; omega
          simp only [this]; exact hf
        len := by simp; omega
        alloc := by have := R'.alloc; unfold AllocOK at *; exact this }
    cases ctor with
    | none =>
      exact ⟨[x], stSuccess, _, _, _, _, rfl, by simp only [step, hr, hi, if_false], rfl, hfin x⟩
    | some f =>
      have hpre : (a.elems.take i).length = i := by simp; omega
      have hget : (a.elems.take i ++ [x] ++ a.elems.drop i ++ sl.drop 1)[i]? = some x := by
        rw [List.append_assoc, List.append_assoc, List.getElem?_append_right (by omega), hpre]
        simp
      have hset : ∀ y, (a.elems.take i ++ [x] ++ a.elems.drop i ++ sl.drop 1).set i y =
          a.elems.take i ++ [y] ++ a.elems.drop i ++ sl.drop 1 := by
        intro y
        rw [List.append_assoc, List.append_assoc, List.set_append_right _ _ (by omega), hpre]
        simp
      simp only [withData, hget, hset]
      by_cases hfl : failed (f x).1
      · have hi' : i = a.elems.length := by
          rcases Nat.lt_or_ge i a.elems.length with h | h
          · rw [hnf f rfl h x] at hfl; simp at hfl
          · omega
        subst hi'
        let b'' : Block α := ⟨b'.id, a.elems ++ ([(f x).2] ++ sl.drop 1)⟩
        have hbl : b''.cells.length = b'.cells.length := by
          rw [R'.cells]; simp [b'']; omega
        refine ⟨[x], (f x).1, ⟨{ s'.v with data := some b'' }, s'.w⟩, { a with cap := c }, b'',
          [(f x).2] ++ sl.drop 1, rfl, ?_, ?_, ?_⟩
        · simp [step, hr, hfl]
        · rw [if_pos hfl]; simp [b'']
        · exact { R' with
            data := rfl
            cells := rfl
            room := by rw [hbl]; exact R'.room
            dyn := by intro h; rw [hbl]; exact R'.dyn h
            alloc := by have := R'.alloc; unfold AllocOK at *; exact this }
      · refine ⟨[x], stSuccess, _, _, _, _, rfl, ?_, ?_, hfin (f x).2⟩
        · simp [step, hr, hi, hfl]
        · rw [if_neg hfl]; rfl

theorem set_ok {P : Params} {s : VS α} {a : LState α} {b : Block α} {slack : List (Cell α)}
    (R : Rep P s a b slack) (i : Nat) (x : Cell α) : OpOK P s a (.set i x) := by
  refine ⟨[], ?_⟩
  by_cases hi : i < a.elems.length
  · obtain ⟨pre, old, post, he, hl⟩ : ∃ pre old post, a.elems = pre ++ [old] ++ post ∧
        pre.length = i := by
      refine ⟨a.elems.take i, a.elems[i], a.elems.drop (i + 1), ?_, by simp; omega⟩
      rw [List.append_assoc, List.singleton_append, ← List.drop_eq_getElem_cons hi,
        List.take_append_drop]
    have hget : a.elems[i]? = some old := by
      rw [he, List.append_assoc, List.getElem?_append_right (by omega), hl]; simp
    have hset : a.elems.set i x = pre ++ [x] ++ post := by
      rw [he, List.append_assoc, List.set_append_right _ _ (by omega), hl]; simp
    obtain ⟨s', e, R'⟩ := runDtors_ok R (mid := [old]) he (lo := i) (hi := i + 1) hl.symm rfl
    let b' : Block α := { b with cells := pre ++ [x] ++ (post ++ slack) }
    refine ⟨stSuccess, { s' with v := { s'.v with data := some b' } },
      { a with elems := pre ++ [x] ++ post, dead := a.dead ++ killed P [old] }, b', slack, rfl, ?_, ?_, ?_⟩
    · simp only [step, hget, hset]
    · simp only [vecOp, vecSet, Src.isNull, R.size]
      rw [if_neg (by simp), if_neg (by omega)]
      simp only [e, Out.ret_bind', R'.data, withData]
      rw [memcpyIn_ext (n := 1) (xs := [x]) (pre := pre) (mid := [old]) (post := post ++ slack)
        (by rw [R'.cells]; simp [he]) rfl hl.symm rfl]
      simp [b']
    · have hbl : b'.cells.length = b.cells.length := by rw [R.cells, he]; simp [b']
      have hel : (pre ++ [x] ++ post).length = a.elems.length := by rw [he]; simp
      exact { R' with
        size := by simp only [hel]; exact R'.size
        data := rfl
        cells := by simp [b']
        room := by rw [hbl]; exact R.room
        dyn := by intro h; rw [hbl]; exact R.dyn h
        fits := by simp only [hel]; exact R.fits
        len := by simp only [hel]; exact R.len
        alloc := by have := R'.alloc; unfold AllocOK at *; exact this }
  · refine ⟨stOutOfRange, s, a, b, slack, rfl, ?_, ?_, R⟩
    · have : a.elems[i]? = none := List.getElem?_eq_none (by omega)
      simp [step, this]
    · simp [vecOp, vecSet, Src.isNull, R.size]; omega

theorem swap_ok {P : Params} {s : VS α} {a : LState α} {b : Block α} {slack : List (Cell α)}
    (R : Rep P s a b slack) (i j : Nat) : OpOK P s a (.swap i j) := by
  refine ⟨[], ?_⟩
  by_cases hij : i ≥ a.elems.length ∨ j ≥ a.elems.length
  · refine ⟨stOutOfRange, s, a, b, slack, rfl, ?_, ?_, R⟩
    · simp only [step]
      rcases hij with h | h
      · rw [List.getElem?_eq_none h]
      · rw [List.getElem?_eq_none h]
        split <;> simp_all
    · simp only [vecOp, vecSwap, R.size]; rw [if_pos hij]
  · have hi : i < a.elems.length := by omega
    have hj : j < a.elems.length := by omega
    by_cases hcap : a.elems.length = a.cap
    · refine ⟨stInsufficient, s, a, b, slack, rfl, ?_, ?_, R⟩
      · simp [step, List.getElem?_eq_getElem hi, List.getElem?_eq_getElem hj, hcap]
      · simp only [vecOp, vecSwap, R.size, R.cap]; rw [if_neg hij, if_pos hcap]
    · have hroom := R.room
      have hlen := R.len
      rw [R.cells] at hroom
      obtain ⟨y, rest, hsl⟩ : ∃ y rest, slack = y :: rest := by
        cases slack with
        | nil => simp at hroom; omega
        | cons y rest => exact ⟨y, rest, rfl⟩
      subst hsl
      have hb : b.cells.length = a.elems.length + (rest.length + 1) := by rw [R.cells]; simp
      let es' := (a.elems.set i a.elems[j]).set j a.elems[i]
      let b' : Block α := { b with cells := es' ++ a.elems[i] :: rest }
      refine ⟨stSuccess, { s with v := { s.v with data := some b' } },
        { a with elems := es' }, b', a.elems[i] :: rest, rfl, ?_, ?_, ?_⟩
      · simp [step, List.getElem?_eq_getElem hi, List.getElem?_eq_getElem hj, hcap, es']
      · simp only [vecOp, vecSwap, R.size, R.cap, R.data, withData]
        rw [if_neg hij, if_neg hcap]
        have e1 : b.cells.set a.elems.length (b.cells[i]'(by omega)) =
            a.elems ++ a.elems[i] :: rest := by
          have : b.cells[i]'(by omega) = a.elems[i] := by
            simp only [R.cells]; exact List.getElem_append_left hi
          rw [this, R.cells, List.set_append_right _ _ (by omega)]; simp
        rw [memmove_one (by omega) (by omega), e1]
        simp only [Out.ret_bind']
        rw [memmove_one (by simp; omega) (by simp; omega)]
        simp only [Out.ret_bind']
        have e2 : (a.elems ++ a.elems[i] :: rest)[j]'(by simp; omega) = a.elems[j] :=
          List.getElem_append_left hj
        rw [e2, List.set_append_left _ _ hi]
        rw [memmove_one (by simp; omega) (by simp)]
        simp only [Out.ret_bind']
        have e3 : (a.elems.set i a.elems[j] ++ a.elems[i] :: rest)[a.elems.length]'(by simp) =
            a.elems[i] := by
          rw [List.getElem_append_right (by simp)]; simp
        rw [e3, List.set_append_left _ _ (by simpa using hj)]
      · have hel : es'.length = a.elems.length := by simp [es']
        have hbl : b'.cells.length = b.cells.length := by rw [R.cells]; simp [b', hel]
        exact { R with
          size := by simp only [hel]; exact R.size
          data := rfl
          cells := rfl
          room := by rw [hbl]; exact R.room
          dyn := by intro h; rw [hbl]; exact R.dyn h
          fits := by simp only [hel]; exact R.fits
          len := by simp only [hel]; exact R.len
          alloc := by have := R.alloc; unfold AllocOK at *; exact this }

/-- Forgetting the elements behind the first `n`. -/
theorem Rep.truncate {P : Params} {s : VS α} {a : LState α} {b : Block α} {slack : List (Cell α)}
    (R : Rep P s a b slack) {keep gone : List (Cell α)} (h : a.elems = keep ++ gone) {n : Nat}
    (hn : n = keep.length) :
    Rep P ⟨{ s.v with size := n }, s.w⟩ { a with elems := keep } b (gone ++ slack) := by
  have hl : keep.length ≤ a.elems.length := by rw [h]; simp
  exact { R with
    size := hn
    cells := by rw [R.cells, h]; simp
    fits := R.fits.mono hl
    len := Nat.le_trans hl R.len
    alloc := by have := R.alloc; unfold AllocOK at *; exact this }

theorem deleteRange_ok {P : Params} {s : VS α} {a : LState α} {b : Block α} {slack : List (Cell α)}
    (R : Rep P s a b slack) (i n : Nat) (hd : InDomain P a (.deleteRange i n)) :
    OpOK P s a (.deleteRange i n) := by
  have hlt : i + n < 18446744073709551616 := hd
  have hadd : add64 i n = i + n := add64_eq hlt
  have hlen64 := (R.fits.mul_growth R.growth255 R.esz1).2.2
  refine ⟨[], ?_⟩
  by_cases hn : n = 0
  · subst hn
    exact ⟨stInvalidArgument, s, a, b, slack, rfl, by simp [step], by simp [vecOp, vecDeleteRange], R⟩
  by_cases hr : i + n > a.elems.length
  · refine ⟨stOutOfRange, s, a, b, slack, rfl, by simp [step, hn, hr], ?_, R⟩
    simp only [vecOp, vecDeleteRange, hadd, R.size]
    rw [if_neg hn, if_pos hr]
  obtain ⟨pre, mid, suf, he, hl, hm⟩ : ∃ pre mid suf, a.elems = pre ++ mid ++ suf ∧
      pre.length = i ∧ mid.length = n := by
    refine ⟨a.elems.take i, (a.elems.drop i).take n, a.elems.drop (i + n), ?_, ?_, ?_⟩
    · rw [List.append_assoc, ← List.drop_drop, List.take_append_drop, List.take_append_drop]
    · simp; omega
    · simp; omega
  have htake : a.elems.take i = pre := by
    rw [he, List.append_assoc, ← hl]; exact List.take_left
  have hdrop : a.elems.drop (i + n) = suf := by
    rw [he, ← hl, ← hm, ← List.length_append]; exact List.drop_left
  have hmid : (a.elems.drop i).take n = mid := by
    rw [he, List.append_assoc, ← hl, List.drop_left, ← hm]; exact List.take_left
  obtain ⟨s1, e1, R1⟩ := runDtors_ok R he (lo := i) (hi := i + n) hl.symm (by omega)
  -- closing the gap
  have hshift : ∃ sl2, (if i + n < s1.v.size then shiftLeft s1 i n else .ret s1) =
        .ret ⟨{ s1.v with data := some ⟨b.id, pre ++ suf ++ sl2⟩ }, s1.w⟩ ∧
        (pre ++ suf ++ sl2).length = b.cells.length := by
    have hsz : s1.v.size = (pre ++ mid ++ suf).length := by rw [← he]; exact R1.size
    by_cases h : i + n < s1.v.size
    · refine ⟨(mid ++ suf ++ slack).drop suf.length, ?_, ?_⟩
      · rw [if_pos h]
        have h2 : sub64 (sub64 s1.v.size i) n = suf.length := by
          have h3 : s1.v.size < 18446744073709551616 := by rw [R1.size]; exact hlen64
          rw [sub64_eq (a := s1.v.size) (by omega) h3, sub64_eq (by omega) (by omega), hsz]
          simp; omega
        have hc : b.cells = pre ++ mid ++ suf ++ slack := by rw [R.cells, he]
        simp only [shiftLeft, R1.data, withData, hadd, h2, hc]
        rw [← hl, ← hm, memmove_left]
        simp only [Out.ret_bind']
      · rw [R.cells, he]; simp; omega
    · have : suf = [] := by
        rw [hsz] at h
        simp at h
        exact List.eq_nil_of_length_eq_zero (by omega)
      subst this
      refine ⟨mid ++ slack, ?_, ?_⟩
      · rw [if_neg h]
        have : b = ⟨b.id, pre ++ [] ++ (mid ++ slack)⟩ := by
          have := R.cells; rw [he] at this
          cases b; simp_all
        rw [← this, ← R1.data]
      · rw [R.cells, he]; simp
  obtain ⟨sl2, e2, hlen2⟩ := hshift
  have hel : (pre ++ suf).length = a.elems.length - n := by rw [he]; simp; omega
  have R2 : Rep P ⟨{ s1.v with data := some ⟨b.id, pre ++ suf ++ sl2⟩, size := (pre ++ suf).length }, s1.w⟩
      { a with elems := pre ++ suf, dead := a.dead ++ killed P mid } ⟨b.id, pre ++ suf ++ sl2⟩ sl2 :=
    { R1 with
      size := rfl
      data := rfl
      cells := rfl
      room := by simp only [hlen2]; exact R.room
      dyn := by intro h; simp only [hlen2]; exact R.dyn h
      fits := by simp only [hel]; exact R.fits.mono (by omega)
      len := by have := R.len; simp only [hel]; omega
      alloc := by have := R1.alloc; unfold AllocOK at *; exact this }
  obtain ⟨s3, b3, sl3, e3, R3⟩ := shrinkAfter_ok R2
  refine ⟨stSuccess, s3, _, b3, sl3, rfl, ?_, ?_, R3⟩
  · simp only [step, htake, hdrop, hmid, hel]
    rw [if_neg hn, if_neg hr]
  · simp only [vecOp, vecDeleteRange, hadd, R.size]
    rw [if_neg hn, if_neg hr]
    simp only [e1, Out.ret_bind', e2]
    have : sub64 s1.v.size n = (pre ++ suf).length := by
      have h3 : s1.v.size = a.elems.length := R1.size
      rw [h3, sub64_eq (by omega) hlen64, hel]
    simp only [this]
    exact e3

theorem pop_ok {P : Params} {s : VS α} {a : LState α} {b : Block α} {slack : List (Cell α)}
    (R : Rep P s a b slack) : OpOK P s a .pop := by
  refine ⟨[], ?_⟩
  by_cases h0 : a.elems = []
  · refine ⟨stOutOfRange, s, a, b, slack, rfl, by simp [step, h0], ?_, R⟩
    have : s.v.size = 0 := by rw [R.size, h0]; rfl
    simp [vecOp, vecPopBack, this]
  · obtain ⟨last, hlast⟩ : ∃ l, a.elems = a.elems.dropLast ++ [l] :=
      ⟨a.elems.getLast h0, (List.dropLast_concat_getLast h0).symm⟩
    have hgl : a.elems.getLast? = some last := by rw [hlast]; simp
    have hpos : a.elems.length ≠ 0 := by simpa using h0
    have hdl : a.elems.dropLast.length = a.elems.length - 1 := by simp
    obtain ⟨s1, e1, R1⟩ := runDtors_ok R (pre := a.elems.dropLast) (mid := [last]) (post := [])
      (by rw [List.append_nil]; exact hlast) (lo := a.elems.length - 1) (hi := a.elems.length)
      hdl.symm (by simp; omega)
    have R2 := R1.truncate (keep := a.elems.dropLast) (gone := [last]) hlast
      (n := a.elems.length - 1) hdl.symm
    obtain ⟨s3, b3, sl3, e3, R3⟩ := shrinkAfter_ok R2
    refine ⟨stSuccess, s3, _, b3, sl3, rfl, ?_, ?_, R3⟩
    · simp only [step, hgl, hdl]
      rw [if_neg h0]; rfl
    · simp only [vecOp, vecPopBack, R.size]
      rw [if_neg hpos]
      have : s1.v.size = a.elems.length := R1.size
      simp only [e1, Out.ret_bind', this]
      exact e3

/-- The reallocation step of `ZyanVectorResizeEx`. -/
def resizeRealloc (s : VS α) (n : Nat) : Out (Status × VS α) :=
  if shouldGrow n s.v.cap || shouldShrink n s.v.cap s.v.shrink then
    reallocate s (mul64 n s.v.growth)
  else .ret (stSuccess, s)

theorem reallocate_size (s : VS α) (k c : Nat) :
    reallocate ⟨{ s.v with size := k }, s.w⟩ c =
      (reallocate s c).bind fun r => .ret (r.1, ⟨{ r.2.v with size := k }, r.2.w⟩) := by
  have h : ∀ a c, reallocTo ⟨{ s.v with size := k }, s.w⟩ a c =
      (reallocTo s a c).bind fun r => .ret (r.1, ⟨{ r.2.v with size := k }, r.2.w⟩) := by
    intro a c
    unfold reallocTo
    cases s.v.data with
    | none => rfl
    | some b =>
      simp only [withData]
      split <;> rfl
  unfold reallocate
  cases hal : s.v.allocator with
  | none => simp only; split <;> rfl
  | some a =>
    simp only
    split
    · split
      · exact h a 1
      · rfl
    · exact h a c

theorem resizeRealloc_size (s : VS α) (k n : Nat) :
    resizeRealloc ⟨{ s.v with size := k }, s.w⟩ n =
      (resizeRealloc s n).bind fun r => .ret (r.1, ⟨{ r.2.v with size := k }, r.2.w⟩) := by
  unfold resizeRealloc
  simp only
  split
  · exact reallocate_size s k _
  · rfl

theorem resizeRealloc_none {P : Params} {s : VS α} {a : LState α} {b : Block α}
    {slack : List (Cell α)} (R : Rep P s a b slack) {n : Nat} (hf : Fits P n)
    (h : Spec.room P a.cap n = none) : resizeRealloc s n = .ret (stInsufficient, s) := by
  unfold Spec.room at h
  split at h
  · simp at h
  · split at h
    · simp at h
    · rename_i h1 h2
      have hfix : P.allocator = none := by simpa using h2
      have hg := (R.fixed hfix).1
      have hm := hf.mul_growth R.growth255 R.esz1
      have h3 : mul64 n s.v.growth = n := by
        rw [R.growth, hg, mul64_eq (by omega), Nat.mul_one]
      simp only [resizeRealloc, shouldGrow, R.cap, h3, reallocate_fixed R hfix]
      have : n > a.cap := by omega
      have h4 : a.cap < n := by omega
      simp [this]

theorem resizeRealloc_some {P : Params} {s : VS α} {a : LState α} {b : Block α}
    {slack : List (Cell α)} (R : Rep P s a b slack) {n c : Nat} (hf : Fits P n)
    (hn : a.elems.length ≤ n) (h : Spec.room P a.cap n = some c) :
    n ≤ (if n ≤ a.cap then trim P a.cap n else c) ∧
    ∃ s' b' slack', resizeRealloc s n = .ret (stSuccess, s') ∧
      Rep P s' { a with cap := if n ≤ a.cap then trim P a.cap n else c } b' slack' := by
  have hm := hf.mul_growth R.growth255 R.esz1
  have ht := hf.mul_growth R.thr255 R.esz1
  have hge : n ≤ n * P.growth := Nat.le_mul_of_pos_right _ R.growth1
  by_cases hle : n ≤ a.cap
  · simp only [hle, if_true]
    by_cases h1 : P.thr ≠ 0 ∧ n * P.thr < a.cap
    · by_cases hdyn : P.allocator.isSome
      · obtain ⟨s', b', sl, e, R'⟩ := reallocate_dyn R hdyn (c := n * P.growth) hm.1 (by omega)
        have htrim : trim P a.cap n = max 1 (n * P.growth) := by
          unfold trim; rw [if_pos ⟨hdyn, h1⟩]
        rw [htrim]
        refine ⟨by omega, s', b', sl, ?_, R'⟩
        unfold resizeRealloc shouldShrink
        rw [R.cap, R.shrink, R.growth, mul64_eq hm.2.1, mul64_eq ht.2.1, if_pos (by simp [h1])]
        exact e
      · have hfix : P.allocator = none := by simpa using hdyn
        exact absurd (R.fixed hfix).2 h1.1
    · have htrim : trim P a.cap n = a.cap := by
        unfold trim; rw [if_neg (by intro h; exact h1 h.2)]
      rw [htrim]
      refine ⟨hle, s, b, slack, ?_, R⟩
      unfold resizeRealloc shouldShrink shouldGrow
      rw [R.cap, R.shrink, mul64_eq ht.2.1, if_neg]
      simp only [Bool.or_eq_true, decide_eq_true_eq, Bool.and_eq_true]
      intro h; rcases h with h | h
      · omega
      · exact h1 h
  · simp only [hle, if_false]
    unfold Spec.room at h
    rw [if_neg hle] at h
    split at h
    · rename_i hdyn
      injection h with h; subst h
      obtain ⟨s', b', sl, e, R'⟩ := reallocate_dyn R hdyn (c := n * P.growth) hm.1 (by omega)
      have hmax : max 1 (n * P.growth) = n * P.growth := by have := R.cap1; omega
      rw [hmax] at R'
      refine ⟨hge, s', b', sl, ?_, R'⟩
      unfold resizeRealloc shouldGrow
      rw [R.cap, R.growth, mul64_eq hm.2.1, if_pos (by simp; omega)]
      exact e
    · simp at h

theorem fillLoop_ok (x : Cell α) : ∀ {n : Nat} {b : Block α} {pre mid post : List (Cell α)},
    b.cells = pre ++ mid ++ post → mid.length = n →
    fillLoop b (.ext [x]) pre.length n =
      .ret { b with cells := pre ++ List.replicate n x ++ post } := by
  intro n
  induction n with
  | zero =>
    intro b pre mid post h hm
    have : mid = [] := List.eq_nil_of_length_eq_zero hm
    subst this
    simp only [fillLoop, List.replicate]
    rw [← h]
  | succ n ih =>
    intro b pre mid post h hm
    cases mid with
    | nil => simp at hm
    | cons y mid =>
      simp only [fillLoop]
      rw [memcpyIn_ext (n := 1) (xs := [x]) (pre := pre) (mid := [y]) (post := mid ++ post)
        (by rw [h]; simp) rfl rfl rfl]
      simp only [Out.ret_bind']
      have := ih (b := { b with cells := pre ++ [x] ++ (mid ++ post) }) (pre := pre ++ [x])
        (mid := mid) (post := post) (by simp) (by simpa using hm)
      rw [List.length_append, List.length_singleton] at this
      rw [this]
      simp [List.replicate_succ]

/-- `vecResizeEx` in terms of `resizeRealloc`. -/
theorem vecResizeEx_eq (s : VS α) (size : Nat) (init : Src α) :
    vecResizeEx s size init =
      if size = s.v.size then .ret (stSuccess, s)
      else
        (if size < s.v.size then runDtors s size s.v.size else .ret s).bind fun s =>
        (resizeRealloc s size).bind fun r =>
        if failed r.1 then .ret r
        else if ¬ init.isNull ∧ size > r.2.v.size then
          withData r.2.v.data fun b =>
          (fillLoop b init r.2.v.size (size - r.2.v.size)).bind fun b' =>
          .ret (stSuccess, ⟨{ r.2.v with data := some b', size := size }, r.2.w⟩)
        else .ret (stSuccess, ⟨{ r.2.v with size := size }, r.2.w⟩) := rfl

theorem resize_shrink {P : Params} {s : VS α} {a : LState α} {b : Block α} {slack : List (Cell α)}
    (R : Rep P s a b slack) {n : Nat} (hn : n < a.elems.length) (init : Src α) :
    ∃ s' b' sl', vecResizeEx s n init = .ret (stSuccess, s') ∧
      Rep P s' { elems := a.elems.take n, cap := trim P a.cap n,
                 dead := a.dead ++ killed P (a.elems.drop n) } b' sl' := by
  have hcap := R.len
  have htl : (a.elems.take n).length = n := by simp; omega
  obtain ⟨s1, e1, R1⟩ := runDtors_ok R (pre := a.elems.take n) (mid := a.elems.drop n) (post := [])
    (by simp) (lo := n) (hi := a.elems.length) htl.symm (by simp; omega)
  have R2 := R1.truncate (keep := a.elems.take n) (gone := a.elems.drop n) (by simp) (n := n) htl.symm
  have hroom : Spec.room P a.cap n = some a.cap := by
    unfold Spec.room; rw [if_pos (by omega)]
  obtain ⟨_, s3, b3, sl3, e3, R3⟩ := resizeRealloc_some R2 (n := n) (c := a.cap)
    (R.fits.mono (by omega)) (by simp only [htl]; omega) hroom
  have hle : n ≤ a.cap := by omega
  simp only [hle, if_true] at R3
  rw [resizeRealloc_size] at e3
  cases hrr : resizeRealloc s1 n with
  | ub w => rw [hrr] at e3; simp at e3
  | ret r =>
    rw [hrr] at e3
    simp only [Out.ret_bind', Out.ret.injEq, Prod.mk.injEq] at e3
    refine ⟨s3, b3, sl3, ?_, R3⟩
    rw [vecResizeEx_eq, R.size, if_neg (by omega), if_pos hn, e1]
    simp only [Out.ret_bind', hrr, e3.1, failed_success]
    have hsz : r.2.v.size = a.elems.length := by
      have h1 : s1.v.size = a.elems.length := R1.size
      have h2 : resizeRealloc s1 n = _ := resizeRealloc_size s1 s1.v.size n
      rw [hrr] at h2
      simp only [Out.ret_bind'] at h2
      simp only [Out.ret.injEq] at h2
      rw [← h1]
      have := congrArg (fun x => x.2.v.size) h2
      exact this
    rw [hsz]
    simp [← e3.2]
    intro _ h; omega

theorem resize_grow {P : Params} {s : VS α} {a : LState α} {b : Block α} {slack : List (Cell α)}
    (R : Rep P s a b slack) {n c : Nat} (hn : a.elems.length < n) (hf : Fits P n)
    (hroom : Spec.room P a.cap n = some c) (init : Option (Cell α)) :
    ∃ junk s' b' sl', junk.length = n - a.elems.length ∧
      vecResizeEx s n (initSrc init) = .ret (stSuccess, s') ∧
      Rep P s' { a with
        elems := a.elems ++ newElems init (n - a.elems.length) junk
        cap := if n ≤ a.cap then trim P a.cap n else c } b' sl' := by
  obtain ⟨hc, s1, b1, sl1, e1, R1⟩ := resizeRealloc_some R hf (by omega) hroom
  have hsz : s1.v.size = a.elems.length := R1.size
  have hlen' := R1.room
  rw [R1.cells] at hlen'
  simp only [List.length_append] at hlen'
  have hfin : ∀ ys : List (Cell α), ys.length = n - a.elems.length →
      Rep P ⟨{ s1.v with data := some ⟨b1.id, a.elems ++ ys ++ sl1.drop (n - a.elems.length)⟩,
                         size := n }, s1.w⟩
        { a with elems := a.elems ++ ys, cap := if n ≤ a.cap then trim P a.cap n else c }
        ⟨b1.id, a.elems ++ ys ++ sl1.drop (n - a.elems.length)⟩ (sl1.drop (n - a.elems.length)) := by
    intro ys hy
    have hbl : (a.elems ++ ys ++ sl1.drop (n - a.elems.length)).length = b1.cells.length := by
      rw [R1.cells]; simp; omega
    have hel : (a.elems ++ ys).length = n := by simp; omega
    exact { R1 with
      size := hel.symm
      data := rfl
      cells := rfl
      room := by simp only [hbl]; exact R1.room
      dyn := by intro h; simp only [hbl]; exact R1.dyn h
      fits := by simp only [hel]; exact hf
      len := by simp only [hel]; exact hc
      alloc := by have := R1.alloc; unfold AllocOK at *; exact this }
  have hrest : sl1.take (n - a.elems.length) ++ sl1.drop (n - a.elems.length) = sl1 :=
    List.take_append_drop _ _
  have htl : (sl1.take (n - a.elems.length)).length = n - a.elems.length := by
    rw [List.length_take]; omega
  refine ⟨sl1.take (n - a.elems.length), ?_⟩
  cases init with
  | none =>
    refine ⟨_, _, _, htl, ?_, hfin _ htl⟩
    rw [vecResizeEx_eq, R.size, if_neg (by omega), if_neg (by omega)]
    simp only [Out.ret_bind', e1, failed_success, Src.isNull, initSrc]
    have : b1 = ⟨b1.id, a.elems ++ sl1.take (n - a.elems.length) ++ sl1.drop (n - a.elems.length)⟩ := by
      have := R1.cells
      rw [List.append_assoc, hrest]
      cases b1; simp_all
    simp only [newElems]
    rw [← this, ← R1.data]
    simp
  | some x =>
    refine ⟨_, _, _, htl, ?_, hfin (List.replicate (n - a.elems.length) x) (by simp)⟩
    rw [vecResizeEx_eq, R.size, if_neg (by omega), if_neg (by omega)]
    simp only [Out.ret_bind', e1, failed_success, Src.isNull, hsz, R1.data, withData, initSrc]
    rw [fillLoop_ok x (pre := a.elems) (mid := sl1.take (n - a.elems.length))
      (post := sl1.drop (n - a.elems.length)) (by rw [R1.cells, List.append_assoc, hrest]) htl]
    simp only [Out.ret_bind']
    rw [if_neg (by simp), if_pos (by simp; omega)]

theorem clear_ok {P : Params} {s : VS α} {a : LState α} {b : Block α} {slack : List (Cell α)}
    (R : Rep P s a b slack) : OpOK P s a .clear := by
  refine ⟨[], ?_⟩
  by_cases h0 : a.elems = []
  · refine ⟨stSuccess, s, a, b, slack, rfl, by simp [step, h0], ?_, R⟩
    have : s.v.size = 0 := by rw [R.size, h0]; rfl
    simp [vecOp, vecClear, vecResizeEx, this]
  · have hpos : 0 < a.elems.length := List.length_pos_iff.2 h0
    obtain ⟨s', b', sl', e, R'⟩ := resize_shrink R hpos .null
    simp only [List.take_zero, List.drop_zero] at R'
    exact ⟨stSuccess, s', _, b', sl', rfl, by simp only [step, h0, if_false], e, R'⟩

theorem resize_ok {P : Params} {s : VS α} {a : LState α} {b : Block α} {slack : List (Cell α)}
    (R : Rep P s a b slack) (n : Nat) (init : Option (Cell α)) (hd : InDomain P a (.resize n init)) :
    OpOK P s a (.resize n init) := by
  have hf : Fits P n := hd
  simp only [OpOK, vecOp]
  by_cases heq : n = a.elems.length
  · refine ⟨[], stSuccess, s, a, b, slack, by simp [junkLen, heq], by simp [step, heq], ?_, R⟩
    rw [vecResizeEx_eq, R.size, if_pos heq]
  by_cases hlt : n < a.elems.length
  · obtain ⟨s', b', sl', e, R'⟩ := resize_shrink R hlt (initSrc init)
    have hcap := R.len
    have hroom : Spec.room P a.cap n = some a.cap := by
      unfold Spec.room; rw [if_pos (by omega)]
    refine ⟨[], stSuccess, s', _, b', sl', by simp [junkLen]; omega, ?_, e, R'⟩
    have : n ≤ a.elems.length := by omega
    simp [step, heq, hroom, this]
  · cases hroom : Spec.room P a.cap n with
    | none =>
      refine ⟨List.replicate (n - a.elems.length) none, stInsufficient, s, a, b, slack,
        by simp [junkLen], by simp [step, heq, hroom], ?_, R⟩
      rw [vecResizeEx_eq, R.size, if_neg heq, if_neg hlt]
      simp only [Out.ret_bind', resizeRealloc_none R hf hroom, failed_insufficient, if_true]
    | some c =>
      obtain ⟨junk, s', b', sl', hj, e, R'⟩ := resize_grow R (by omega) hf hroom init
      refine ⟨junk, stSuccess, s', _, b', sl', hj, ?_, e, R'⟩
      have : ¬ n ≤ a.elems.length := by omega
      simp only [step, heq, hroom, this, if_false]

theorem reserve_ok {P : Params} {s : VS α} {a : LState α} {b : Block α} {slack : List (Cell α)}
    (R : Rep P s a b slack) (c : Nat) (hd : InDomain P a (.reserve c)) :
    OpOK P s a (.reserve c) := by
  have hc : c * P.esz < 18446744073709551616 := hd
  refine ⟨[], ?_⟩
  by_cases hle : c ≤ a.cap
  · refine ⟨stSuccess, s, a, b, slack, rfl, by simp [step, hle], ?_, R⟩
    simp only [vecOp, vecReserve, R.cap]
    rw [if_neg (by omega)]
  · by_cases hdyn : P.allocator.isSome
    · obtain ⟨s', b', sl, e, R'⟩ := reallocate_dyn R hdyn hc (by have := R.len; omega)
      have hmax : max 1 c = c := by have := R.cap1; omega
      rw [hmax] at R'
      refine ⟨stSuccess, s', _, b', sl, rfl, by simp [step, hle, hdyn], ?_, R'⟩
      simp only [vecOp, vecReserve, R.cap]
      rw [if_pos (by omega), e]
      simp
    · have hfix : P.allocator = none := by simpa using hdyn
      refine ⟨stInsufficient, s, a, b, slack, rfl, by simp [step, hle, hfix], ?_, R⟩
      simp only [vecOp, vecReserve, R.cap, reallocate_fixed R hfix]
      rw [if_pos (by omega), if_pos (by omega)]
      simp

theorem shrinkToFit_ok {P : Params} {s : VS α} {a : LState α} {b : Block α}
    {slack : List (Cell α)} (R : Rep P s a b slack) : OpOK P s a .shrinkToFit := by
  refine ⟨[], ?_⟩
  by_cases hdyn : P.allocator.isSome
  · have hm := R.fits.mul_growth (g := 1) (by omega) R.esz1
    obtain ⟨s', b', sl, e, R'⟩ := reallocate_dyn R hdyn (c := a.elems.length)
      (by simpa using hm.1) (by omega)
    refine ⟨stSuccess, s', _, b', sl, rfl, by simp [step, hdyn], ?_, R'⟩
    simp only [vecOp, vecShrinkToFit, R.size, e]
  · have hfix : P.allocator = none := by simpa using hdyn
    refine ⟨stSuccess, s, a, b, slack, rfl, by simp [step, hfix], ?_, R⟩
    simp only [vecOp, vecShrinkToFit, reallocate_fixed R hfix, R.size]
    rw [if_neg (by have := R.len; omega)]

/-- Every operation in the domain does what the list specification says. -/
theorem op_ok {P : Params} {s : VS α} {a : LState α} {b : Block α} {slack : List (Cell α)}
    (R : Rep P s a b slack) (op : VOp α) (hd : InDomain P a op) : OpOK P s a op := by
  cases op with
  | push x => exact push_ok R x hd
  | insertRange i xs => exact insertRange_ok R i xs hd
  | emplace i c => exact emplace_ok R i c hd
  | set i x => exact set_ok R i x
  | swap i j => exact swap_ok R i j
  | deleteRange i n => exact deleteRange_ok R i n hd
  | pop => exact pop_ok R
  | clear => exact clear_ok R
  | resize n init => exact resize_ok R n init hd
  | reserve c => exact reserve_ok R c hd
  | shrinkToFit => exact shrinkToFit_ok R

end Zy
