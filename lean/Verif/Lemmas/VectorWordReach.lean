import Verif.Lemmas.VectorWord
import Verif.Lemmas.VectorProps

/-!
# Lemmas: reachable vectors, searches and wrapping requests with another width of `size_t`
-/

namespace Zy

open Spec

variable {α : Type}

theorem initExW_eq {m : Nat} (hm : m ≤ 18446744073709551616) (w : World α) (esz cap : Nat) (d : Bool)
    (al : Option Nat) (g t : Nat) (h : max 1 cap * esz < m) :
    vecInitExW m w esz cap d al g t = vecInitEx w esz cap d al g t := by
  unfold vecInitExW vecInitEx
  cases al with
  | none => rfl
  | some a => simp only [allocateW_eq hm w a esz _ h]

theorem duplicateExW_eq {m : Nat} (hm : m ≤ 18446744073709551616) (w : World α) (v : Vec α) (cap : Nat)
    (al : Option Nat) (g t : Nat) (h : max 1 (max cap v.size) * v.esz < m) :
    vecDuplicateExW m w v cap al g t = vecDuplicateEx w v cap al g t := by
  unfold vecDuplicateExW vecDuplicateEx
  rw [initExW_eq hm _ _ _ _ _ _ _ h]
  rfl

/-- A vector obtained on the narrow target is a vector obtained on the 64-bit target. -/
theorem ReachW.wide {m : Nat} (hm : m ≤ 18446744073709551616) {P : Params} {s : VS α}
    (h : ReachW m P s) : Reach P s ∧ P.esz < m ∧ FitsW m P (absOf s).elems.length := by
  induction h with
  | init hw hr hP hc h =>
    rename_i P w w' cap a st v
    rw [initExW_eq hm _ _ _ _ _ _ _ hc] at h
    have hc' : max 1 cap * P.esz < 18446744073709551616 := by omega
    have he : P.esz < m :=
      Nat.lt_of_le_of_lt (Nat.le_mul_of_pos_left _ (by omega)) hc
    obtain ⟨_, b, slack, R⟩ := init_rep hw hr hP hc' h
    refine ⟨.init hw hr hP hc' h, he, ?_⟩
    rw [R.abs_eq]
    show 0 * 255 * P.esz < m
    rw [Nat.zero_mul]
    omega
  | initBuffer hw hr hP hb he h =>
    rename_i P w cap b st v
    obtain ⟨_, _, R⟩ := initBuffer_rep hw hr hP hb (by omega) h
    refine ⟨.initBuffer hw hr hP hb (by omega) h, he, ?_⟩
    rw [R.abs_eq]
    show 0 * 255 * P.esz < m
    rw [Nat.zero_mul]
    omega
  | dup h hw hr hP hc hd ih =>
    rename_i P P₀ s w w' cap al st v
    obtain ⟨hre, hesz, hfits⟩ := ih
    obtain ⟨b, slack, R⟩ := hre.rep
    have hes : s.v.esz = P.esz := by rw [R.esz, hP.2.2.2.1]
    have hfit : (absOf s).elems.length * P.esz < m := by
      have h1 : (absOf s).elems.length * 255 * P₀.esz < m := hfits
      rw [hP.2.2.2.1]
      exact Nat.lt_of_le_of_lt (Nat.mul_le_mul_right _ (by omega)) h1
    have hc2 : max 1 (max cap s.v.size) * s.v.esz < m := by
      rw [hes, R.size]
      rcases Nat.le_total (absOf s).elems.length (max 1 cap) with h1 | h1
      · have : max 1 (max cap (absOf s).elems.length) = max 1 cap := by omega
        rw [this]; exact hc
      · have : max 1 (max cap (absOf s).elems.length) = (absOf s).elems.length := by omega
        rw [this]; exact hfit
    rw [duplicateExW_eq hm _ _ _ _ _ _ hc2] at hd
    have hc' : max 1 cap * P.esz < 18446744073709551616 := by omega
    refine ⟨.dup hre hw hr hP hc' hd, by rw [hP.2.2.2.1]; exact hesz, ?_⟩
    by_cases hg : 1 ≤ P.growth
    · obtain ⟨v', w'', b', sl', e, R', _⟩ := duplicate_rep R hw hr hP hg hc'
      rw [hd] at e
      simp only [Out.ret.injEq, Prod.mk.injEq, Option.some.injEq] at e
      rw [e.2.1, e.2.2, R'.abs_eq]
      show (absOf s).elems.length * 255 * P.esz < m
      rw [hP.2.2.2.1]; exact hfits
    · simp only [vecDuplicateEx, vecInitEx] at hd
      rw [if_pos (Or.inr (by omega))] at hd
      simp at hd
  | dupBuffer h hw hr hP hb hd ih =>
    rename_i P P₀ s w cap b₁ st v
    obtain ⟨hre, hesz, hfits⟩ := ih
    obtain ⟨b, slack, R⟩ := hre.rep
    refine ⟨.dupBuffer hre hw hr hP hb hd, by rw [hP.2.2.2.1]; exact hesz, ?_⟩
    by_cases hc0 : cap = 0
    · simp only [vecDuplicateBuffer, vecInitBuffer, hc0] at hd
      simp at hd
      split at hd <;> simp at hd
    by_cases hc : (absOf s).elems.length ≤ cap
    · obtain ⟨v', e, R'⟩ := duplicateBuffer_rep R hw hr hP hb hc hc0
      rw [hd] at e
      simp only [Out.ret.injEq, Prod.mk.injEq, Option.some.injEq] at e
      rw [e.2, R'.abs_eq]
      show (absOf s).elems.length * 255 * P.esz < m
      rw [hP.2.2.2.1]; exact hfits
    · simp only [vecDuplicateBuffer, R.size] at hd
      rw [if_pos (by omega)] at hd
      simp at hd
  | step h hd hs ih =>
    obtain ⟨hre, hesz, hfits⟩ := ih
    obtain ⟨b, slack, R⟩ := hre.rep
    have RW : RepW m _ _ _ b slack := ⟨R, hm, hesz, hfits⟩
    obtain ⟨junk, st', s'', a', b', slack', hj, hstep, hop, R'⟩ := RW.step _ hd
    rw [hs] at hop
    injection hop with hop
    injection hop with h1 h2
    subst h2
    rw [opW_eq RW _ hd] at hs
    exact ⟨.step hre (hd.wide hm) hs, hesz, by rw [R'.rep.abs_eq]; exact R'.fits⟩

theorem ReachW.repW {m : Nat} (hm : m ≤ 18446744073709551616) {P : Params} {s : VS α}
    (h : ReachW m P s) : ∃ b slack, RepW m P s (absOf s) b slack := by
  obtain ⟨hre, hesz, hfits⟩ := h.wide hm
  obtain ⟨b, slack, R⟩ := hre.rep
  exact ⟨b, slack, R, hm, hesz, hfits⟩

/-! ## Searches -/

theorem toIW_small {m a : Nat} (h : a * 2 + 1 < m) : toIW m a = a := by
  unfold toIW; rw [if_pos (by omega)]

theorem toUW_small {m : Nat} {a : Int} (h0 : 0 ≤ a) (h : a < m) : toUW m a = a.toNat := by
  unfold toUW; rw [Int.emod_eq_of_lt h0 h]

/-! The searches with `2^64` values are those of the 64-bit model, for all operands. -/

theorem toIW_64 (a : Nat) : toIW 18446744073709551616 a = toI64 a := rfl
theorem toUW_64 (k : Int) : toUW 18446744073709551616 k = toU64 k := rfl
theorem addW_64 (a b : Nat) : addW 18446744073709551616 a b = add64 a b := rfl
theorem subW_64 (a b : Nat) : subW 18446744073709551616 a b = sub64 a b := rfl

theorem findLoopW_64 (cells : List (Cell α)) (eq : Cell α → Bool) : ∀ n i : Nat,
    findLoopW 18446744073709551616 cells eq i n = findLoop cells eq i n
  | 0, _ => rfl
  | n + 1, i => by
    simp only [findLoopW, findLoop, toIW_64]
    rw [findLoopW_64 cells eq n (i + 1)]
    rfl

theorem bsearchLoopW_64 (cells : List (Cell α)) (cmp : Cell α → Int) :
    ∀ (fuel : Nat) (l h : Int) (st : Status) (log : List Nat),
    bsearchLoopW 18446744073709551616 cells cmp fuel l h st log = bsearchLoop cells cmp fuel l h st log
  | 0, _, _, _, _ => rfl
  | fuel + 1, l, h, st, log => by
    simp only [bsearchLoopW, bsearchLoop, toIW_64, toUW_64, addW_64, subW_64,
      bsearchLoopW_64 cells cmp fuel]
    rfl

theorem vecFindExW_64 (s : VS α) (eq : Cell α → Bool) (i n : Nat) :
    vecFindExW 18446744073709551616 s eq i n = vecFindEx s eq i n := by
  simp only [vecFindExW, vecFindEx, addW_64, findLoopW_64]

theorem vecBinarySearchExW_64 (s : VS α) (cmp : Cell α → Int) (i n : Nat) :
    vecBinarySearchExW 18446744073709551616 s cmp i n = vecBinarySearchEx s cmp i n := by
  simp only [vecBinarySearchExW, vecBinarySearchEx, addW_64, subW_64, toIW_64, toUW_64, bsearchLoopW_64]

theorem findLoopW_eq {m : Nat} (hm : m ≤ 18446744073709551616) (cells : List (Cell α))
    (eq : Cell α → Bool) : ∀ {n i : Nat}, (i + n) * 2 < m →
    findLoopW m cells eq i n = findLoop cells eq i n := by
  intro n
  induction n with
  | zero => intros; rfl
  | succ n ih =>
    intro i h
    simp only [findLoopW, findLoop]
    rw [ih (by omega), toIW_small (by omega), toI64_small (by omega)]
    rfl

theorem bsearchLoopW_eq {m : Nat} (hm : m ≤ 18446744073709551616) (h2 : 2 ≤ m)
    (cells : List (Cell α)) (cmp : Cell α → Int) (fuel : Nat) :
    ∀ (l h : Int) (st : Status) (log : List Nat), 0 ≤ l → (h + 2) * 2 < m → (l + 1) * 2 < m →
    bsearchLoopW m cells cmp fuel l h st log = bsearchLoop cells cmp fuel l h st log := by
  induction fuel with
  | zero => intros; rfl
  | succ fuel ih =>
    intro l h st log hl hh hlm
    simp only [bsearchLoopW, bsearchLoop]
    split
    · rename_i hle
      have hmid : toUW m (l + (h - l) / 2) = (l + (h - l) / 2).toNat := toUW_small (by omega) (by omega)
      have hmid' : toU64 (l + (h - l) / 2) = (l + (h - l) / 2).toNat := by
        unfold toU64; rw [Int.emod_eq_of_lt (by omega) (by omega)]
      rw [hmid, hmid']
      obtain ⟨k, hk⟩ : ∃ k : Nat, k = (l + (h - l) / 2).toNat := ⟨_, rfl⟩
      have hk1 : l ≤ k := by omega
      have hk2 : (k : Int) ≤ h := by omega
      clear hmid hmid'
      rw [← hk]
      have e1 : toIW m (addW m k 1) = ((k + 1 : Nat) : Int) := by
        rw [addW_eq hm (by omega), add64_eq (by omega), toIW_small (by omega)]
      have e1' : toI64 (add64 k 1) = ((k + 1 : Nat) : Int) := by
        rw [add64_eq (by omega), toI64_small (by omega)]
      have e2 : toIW m (subW m k 1) = (k : Int) - 1 := by
        by_cases h0 : k = 0
        · subst h0
          unfold subW
          rw [Nat.mod_eq_of_lt (by omega : 1 < m), Nat.zero_add, Nat.mod_eq_of_lt (by omega)]
          unfold toIW
          rw [if_neg (by omega)]
          omega
        · rw [subW_nat (by omega) (by omega), toIW_small (by omega)]
          omega
      have e2' : toI64 (sub64 k 1) = (k : Int) - 1 := by
        by_cases h0 : k = 0
        · subst h0; rfl
        · rw [sub64_eq (by omega) (by omega), toI64_small (by omega)]
          omega
      simp only [e1, e1', e2, e2']
      rw [ih _ h _ _ (by omega) hh (by omega)]
      have e3 : ∀ st', bsearchLoopW m cells cmp fuel l ((k : Int) - 1) st' (log ++ [k]) =
          bsearchLoop cells cmp fuel l ((k : Int) - 1) st' (log ++ [k]) :=
        fun st' => ih l _ st' _ hl (by omega) hlm
      simp only [e3]
      rfl
    · rfl

theorem findExW_eq {m : Nat} {P : Params} {s : VS α} {a : LState α} {b : Block α}
    {slack : List (Cell α)} (R : RepW m P s a b slack) (eq : Cell α → Bool) (i n : Nat)
    (hin : i + n < m) : vecFindExW m s eq i n = vecFindEx s eq i n := by
  have hl := lt_of_fits R.rep.esz1 R.fits
  have hw := R.word
  have ha : add64 i n = i + n := add64_eq (by omega)
  unfold vecFindExW vecFindEx
  rw [addW_eq hw hin]
  split
  · rfl
  · rename_i hout
    rw [ha, R.rep.size] at hout
    split
    · rfl
    · rw [R.rep.data]
      simp only [withData]
      rw [findLoopW_eq hw _ _ (by rw [ha]; omega)]

theorem bsearchExW_eq {m : Nat} {P : Params} {s : VS α} {a : LState α} {b : Block α}
    {slack : List (Cell α)} (R : RepW m P s a b slack) (cmp : Cell α → Int) (i n : Nat)
    (hin : i + n < m) : vecBinarySearchExW m s cmp i n = vecBinarySearchEx s cmp i n := by
  have hl := lt_of_fits R.rep.esz1 R.fits
  have hw := R.word
  have ha : add64 i n = i + n := add64_eq (by omega)
  by_cases hout : (i ≥ s.v.size ∧ n > 0) ∨ add64 i n > s.v.size
  · unfold vecBinarySearchExW vecBinarySearchEx
    rw [addW_eq hw hin, if_pos hout, if_pos hout]
  · by_cases h0 : n = 0
    · unfold vecBinarySearchExW vecBinarySearchEx
      rw [addW_eq hw hin, if_neg hout, if_neg hout, if_pos h0, if_pos h0]
    · have hsz := R.rep.size
      have hle : i + n ≤ a.elems.length := by omega
      have hcl : a.elems.length ≤ b.cells.length := by rw [R.rep.cells]; simp
      rw [bsearch_eval R.rep cmp hle h0]
      unfold vecBinarySearchExW
      rw [addW_eq hw hin, if_neg hout, if_neg h0, R.rep.data, withData_some, ha,
        subW_nat (by omega) (by omega), toIW_small (by omega), toIW_small (by omega)]
      have e : (((i + n - 1 : Nat)) : Int) = ((i + n : Nat) : Int) - 1 := by omega
      rw [e, bsearchLoopW_eq hw (by omega) _ _ _ _ _ _ _ (by omega) (by omega) (by omega)]
      obtain ⟨p, extra, hp1, hp2, hrun, _⟩ := bsearchLoop_spec b.cells cmp (n + 1) i (i + n) stFalse []
        (by omega) (by omega) (by omega) (by omega)
      rw [hrun]
      simp only [Out.ret_bind']
      rw [toUW_small (by omega) (by omega)]
      unfold toU64
      rw [Int.emod_eq_of_lt (by omega) (by omega)]

/-! ## Requests that do not fit -/

/-- A reallocation whose byte size wraps obtains fewer elements than the capacity says. -/
theorem grantedCellsW_short {m esz n : Nat} (he : 1 ≤ esz) (hm : 0 < m) (h : m ≤ n * esz) :
    grantedCellsW m esz n < n := by
  unfold grantedCellsW mulW
  rw [Nat.div_lt_iff_lt_mul he]
  exact Nat.lt_of_lt_of_le (Nat.mod_lt _ hm) h

theorem reserveW_short {m : Nat} {P : Params} {s : VS α} {a : LState α} {b : Block α}
    {slack : List (Cell α)} (R : RepW m P s a b slack) (hdyn : P.allocator.isSome) {c : Nat}
    (hc : s.v.cap < c) (hw : m ≤ c * P.esz) :
    ∃ s' b', vecReserveW m s c = .ret (stSuccess, s') ∧ s'.v.cap = c ∧ s'.v.size = s.v.size ∧
      s'.v.data = some b' ∧ b'.cells.length < c := by
  obtain ⟨al, hal⟩ := Option.isSome_iff_exists.1 hdyn
  have hal' : s.v.allocator = some al := by rw [R.rep.allocator, hal]
  have hrel := R.rep.reliable s.w.calls (Nat.le_refl _)
  unfold vecReserveW reallocateW
  rw [if_pos hc, hal']
  simp only
  rw [if_neg (by omega)]
  unfold reallocToW
  rw [R.rep.data, withData_some]
  have hr : reallocBlockW m s.w al b s.v.esz c = (s.w.oracle s.w.calls,
      ⟨s.w.nextBlk, b.cells.take (grantedCellsW m s.v.esz c) ++
        List.replicate (grantedCellsW m s.v.esz c - b.cells.length) none⟩,
      (⟨s.w.oracle, s.w.calls + 1, s.w.nextBlk + 1, s.w.trace⟩ : World α).log
        (.realloc al b.id s.w.nextBlk s.v.esz c)) := by
    simp only [reallocBlockW, hrel, Bool.false_eq_true, if_false]
  simp only [hr, hrel, Bool.false_eq_true, if_false, Out.ret_bind', failed_success]
  refine ⟨_, _, rfl, rfl, rfl, rfl, ?_⟩
  have := grantedCellsW_short (n := c) R.rep.esz1 (by have := R.esz; omega : 0 < m) hw
  simp only [List.length_append, List.length_take, List.length_replicate, R.rep.esz]
  omega

theorem shrinkAfterW_not_range {m : Nat} {s : VS α} {al : Option Nat}
    (hal : s.v.allocator = al) (hrel : ∀ k, s.w.calls ≤ k → failed (s.w.oracle k) = false) (s' : VS α)
    (hfix : al = none → s.v.shrink = 0) :
    shrinkAfterW m s ≠ .ret (stOutOfRange, s') := by
  have hto : ∀ a c, reallocToW m s a c ≠ .ret (stOutOfRange, s') := by
    intro a c
    unfold reallocToW withData
    split
    · simp
    · simp only [reallocBlockW, hrel s.w.calls (Nat.le_refl _), Bool.false_eq_true, if_false]
      intro h
      injection h with h
      injection h with h _
      exact absurd h (by decide)
  have hs : (Out.ret (stSuccess, s) : Out (Status × VS α)) ≠ .ret (stOutOfRange, s') := by
    intro h
    injection h with h
    injection h with h _
    exact absurd h (by decide)
  unfold shrinkAfterW
  split
  · rename_i hsh
    unfold reallocateW
    cases hal2 : s.v.allocator with
    | none =>
      rw [hal2] at hal
      have := hfix hal.symm
      rw [this] at hsh
      simp [shouldShrinkW] at hsh
    | some a =>
      simp only
      split
      · split
        · exact hto _ _
        · exact hs
      · exact hto _ _
  · exact hs

/-- A deletion whose range wraps around to a position inside of the vector is not rejected. -/
theorem deleteRangeW_wraps {m : Nat} {P : Params} {s : VS α} {a : LState α} {b : Block α}
    {slack : List (Cell α)} (R : RepW m P s a b slack) {i n : Nat} (hn0 : n ≠ 0) (hn : n < m)
    (hi : i < m) (hwrap : m ≤ i + n) (hin : i + n - m ≤ s.v.size) (s' : VS α) :
    vecDeleteRangeW m s i n ≠ .ret (stOutOfRange, s') := by
  have hadd : addW m i n = i + n - m := by
    unfold addW
    rw [Nat.mod_eq_sub_mod hwrap, Nat.mod_eq_of_lt (by omega)]
  have hdt : runDtors s i (i + n - m) = .ret s := by
    unfold runDtors
    have : i + n - m - i = 0 := by omega
    rw [this]
    split <;> rfl
  unfold vecDeleteRangeW
  rw [hadd, if_neg hn0, if_neg (by omega), hdt]
  simp only [Out.ret_bind']
  have fin : ∀ d, shrinkAfterW m ⟨{ s.v with data := d, size := subW m s.v.size n }, s.w⟩ ≠
      .ret (stOutOfRange, s') := by
    intro d
    refine shrinkAfterW_not_range (m := m)
      (s := ⟨{ s.v with data := d, size := subW m s.v.size n }, s.w⟩) (al := P.allocator) R.rep.allocator R.rep.reliable s' ?_
    intro h
    show s.v.shrink = 0
    rw [R.rep.shrink]; exact (R.rep.fixed h).2
  split
  · unfold shiftLeftW
    rw [R.rep.data, withData_some]
    cases memmoveCells b.cells i (addW m i n) (subW m (subW m s.v.size i) n) with
    | ub w => simp
    | ret cs => exact fin _
  · exact fin s.v.data

end Zy
