import Verif.Spec.VectorWord
import Verif.Lemmas.VectorReach

/-!
# Lemmas: the vector functions with another width of `size_t`

As long as the sizes fit into the smaller word, every function of `Model/VectorWord.lean` is equal to
the function of `Model/Vector.lean`.
-/

namespace Zy

open Spec

variable {α : Type}

theorem addW_eq {m a b : Nat} (hm : m ≤ 18446744073709551616) (h : a + b < m) :
    addW m a b = add64 a b := by
  unfold addW
  rw [add64_eq (by omega), Nat.mod_eq_of_lt h]

theorem subW_nat {m a b : Nat} (h : b ≤ a) (ha : a < m) : subW m a b = a - b := by
  unfold subW
  rw [Nat.mod_eq_of_lt (by omega : b < m)]
  have : a + (m - b) = (a - b) + m := by omega
  rw [this, Nat.add_mod_right, Nat.mod_eq_of_lt (by omega)]

theorem subW_eq {m a b : Nat} (hm : m ≤ 18446744073709551616) (h : b ≤ a) (ha : a < m) :
    subW m a b = sub64 a b := by
  rw [subW_nat h ha, sub64_eq h (by omega)]

theorem mulW_eq {m a b : Nat} (hm : m ≤ 18446744073709551616) (h : a * b < m) :
    mulW m a b = mul64 a b := by
  unfold mulW
  rw [mul64_eq (by omega), Nat.mod_eq_of_lt h]

theorem bind_congr_ret {β γ : Type} {x : Out β} {f g : β → Out γ}
    (h : ∀ r, x = .ret r → f r = g r) : x.bind f = x.bind g := by
  cases x with
  | ret r => exact h r rfl
  | ub w => rfl

theorem mul_le_255 {n g e : Nat} (hg : g ≤ 255) : n * g * e ≤ n * 255 * e :=
  Nat.mul_le_mul_right _ (Nat.mul_le_mul_left _ hg)

theorem le_mul_esz {n e : Nat} (he : 1 ≤ e) : n ≤ n * e := Nat.le_mul_of_pos_right _ he

/-- The parameters of a vector fit into the smaller word. -/
structure SmallW (m : Nat) (v : Vec α) : Prop where
  word : m ≤ 18446744073709551616
  growth : v.growth ≤ 255
  shrink : v.shrink ≤ 255
  esz1 : 1 ≤ v.esz
  esz : v.esz < m

/-- Two vectors with the same parameters and the same size. -/
def SameShapeW (v v' : Vec α) : Prop :=
  v'.size = v.size ∧ v'.growth = v.growth ∧ v'.shrink = v.shrink ∧ v'.esz = v.esz

theorem SameShapeW.rfl {v : Vec α} : SameShapeW v v := ⟨Eq.refl _, Eq.refl _, Eq.refl _, Eq.refl _⟩

theorem SmallW.same {m : Nat} {v v' : Vec α} (h : SmallW m v) (hs : SameShapeW v v') : SmallW m v' :=
  ⟨h.word, hs.2.1 ▸ h.growth, hs.2.2.1 ▸ h.shrink, hs.2.2.2 ▸ h.esz1, hs.2.2.2 ▸ h.esz⟩

theorem allocateW_eq {m : Nat} (hm : m ≤ 18446744073709551616) (w : World α) (a esz n : Nat)
    (h : n * esz < m) : allocateW m w a esz n = allocate w a esz n := by
  unfold allocateW allocate grantedCellsW grantedCells
  rw [mulW_eq hm (by rw [Nat.mul_comm]; exact h)]

theorem reallocToW_eq {m : Nat} (hm : m ≤ 18446744073709551616) (s : VS α) (a c : Nat)
    (h : c * s.v.esz < m) : reallocToW m s a c = reallocTo s a c := by
  unfold reallocToW reallocTo reallocBlockW reallocBlock grantedCellsW grantedCells
  rw [mulW_eq hm (by rw [Nat.mul_comm]; exact h)]

theorem reallocateW_eq {m : Nat} {s : VS α} (hs : SmallW m s.v) (c : Nat) (h : c * s.v.esz < m) :
    reallocateW m s c = reallocate s c := by
  have h1 : 1 * s.v.esz < m := by rw [Nat.one_mul]; exact hs.esz
  unfold reallocateW reallocate
  cases s.v.allocator with
  | none => rfl
  | some a => simp only [reallocToW_eq hs.word s a c h, reallocToW_eq hs.word s a 1 h1]

theorem reallocTo_shape {s : VS α} {a c : Nat} {r : Status × VS α} (h : reallocTo s a c = .ret r) :
    SameShapeW s.v r.2.v := by
  unfold reallocTo withData at h
  split at h
  · cases h
  · simp only at h
    split at h <;> (injection h with h; subst h; exact ⟨rfl, rfl, rfl, rfl⟩)

theorem reallocate_shape {s : VS α} {c : Nat} {r : Status × VS α} (h : reallocate s c = .ret r) :
    SameShapeW s.v r.2.v := by
  unfold reallocate at h
  split at h
  · split at h <;> (injection h with h; subst h; exact .rfl)
  · split at h
    · split at h
      · exact reallocTo_shape h
      · injection h with h; subst h; exact .rfl
    · exact reallocTo_shape h

theorem growForW_eq {m : Nat} {s : VS α} (hs : SmallW m s.v) {n : Nat}
    (h : n * 255 * s.v.esz < m) : growForW m s n = growFor s n := by
  have h1 : n * s.v.growth * s.v.esz < m := Nat.lt_of_le_of_lt (mul_le_255 hs.growth) h
  have h2 : n * s.v.growth < m := Nat.lt_of_le_of_lt (le_mul_esz hs.esz1) h1
  unfold growForW growFor
  rw [mulW_eq hs.word h2]
  have hw := hs.word
  have h3 : mul64 n s.v.growth = n * s.v.growth := mul64_eq (Nat.lt_of_lt_of_le h2 hw)
  rw [reallocateW_eq hs]
  rw [h3]
  rcases Nat.le_total 1 (n * s.v.growth) with h4 | h4
  · rw [Nat.max_eq_right h4]; exact h1
  · rw [Nat.max_eq_left h4, Nat.one_mul]; exact hs.esz

theorem growFor_shape {s : VS α} {n : Nat} {r : Status × VS α} (h : growFor s n = .ret r) :
    SameShapeW s.v r.2.v := by
  unfold growFor at h
  split at h
  · exact reallocate_shape h
  · injection h with h; subst h; exact .rfl

theorem shiftRightW_eq {m : Nat} {s : VS α} (hs : SmallW m s.v) {i n : Nat} (hi : i ≤ s.v.size)
    (h : s.v.size + n < m) : shiftRightW m s i n = shiftRight s i n := by
  unfold shiftRightW shiftRight
  rw [addW_eq hs.word (by omega), subW_eq hs.word hi (by omega)]

theorem shiftRight_shape {s s' : VS α} {i n : Nat} (h : shiftRight s i n = .ret s') :
    SameShapeW s.v s'.v := by
  unfold shiftRight withData at h
  split at h
  · cases h
  · rename_i b _
    simp only at h
    cases hm : memmoveCells b.cells (add64 i n) i (sub64 s.v.size i) with
    | ub w => rw [hm] at h; cases h
    | ret cs => rw [hm] at h; injection h with h; subst h; exact ⟨rfl, rfl, rfl, rfl⟩

theorem shiftLeftW_eq {m : Nat} {s : VS α} (hs : SmallW m s.v) {i n : Nat} (hi : i + n ≤ s.v.size)
    (h : s.v.size < m) : shiftLeftW m s i n = shiftLeft s i n := by
  have hw := hs.word
  unfold shiftLeftW shiftLeft
  rw [addW_eq hs.word (by omega), subW_nat (a := s.v.size) (by omega) (by omega),
    subW_nat (by omega) (by omega), sub64_eq (a := s.v.size) (by omega) (by omega),
    sub64_eq (by omega) (by omega)]

theorem shiftLeft_shape {s s' : VS α} {i n : Nat} (h : shiftLeft s i n = .ret s') :
    SameShapeW s.v s'.v := by
  unfold shiftLeft withData at h
  split at h
  · cases h
  · rename_i b _
    simp only at h
    cases hm : memmoveCells b.cells i (add64 i n) (sub64 (sub64 s.v.size i) n) with
    | ub w => rw [hm] at h; cases h
    | ret cs => rw [hm] at h; injection h with h; subst h; exact ⟨rfl, rfl, rfl, rfl⟩

theorem destroyLoop_vec : ∀ {n : Nat} {s s' : VS α} {i : Nat}, destroyLoop s i n = .ret s' →
    s'.v = s.v := by
  intro n
  induction n with
  | zero => intro s s' i h; simp only [destroyLoop] at h; injection h with h; rw [h]
  | succ n ih =>
    intro s s' i h
    simp only [destroyLoop, withData] at h
    split at h
    · cases h
    · split at h
      · cases h
      · have := ih h
        exact this

theorem runDtors_vec {s s' : VS α} {lo hi : Nat} (h : runDtors s lo hi = .ret s') : s'.v = s.v := by
  unfold runDtors at h
  split at h
  · exact destroyLoop_vec h
  · injection h with h; rw [h]

theorem shrinkAfterW_eq {m : Nat} {s : VS α} (hs : SmallW m s.v)
    (h : s.v.size * 255 * s.v.esz < m) : shrinkAfterW m s = shrinkAfter s := by
  have h1 : s.v.size * s.v.growth * s.v.esz < m := Nat.lt_of_le_of_lt (mul_le_255 hs.growth) h
  have h2 : s.v.size * s.v.growth < m := Nat.lt_of_le_of_lt (le_mul_esz hs.esz1) h1
  have h1' : s.v.size * s.v.shrink * s.v.esz < m := Nat.lt_of_le_of_lt (mul_le_255 hs.shrink) h
  have h2' : s.v.size * s.v.shrink < m := Nat.lt_of_le_of_lt (le_mul_esz hs.esz1) h1'
  have h3 : mul64 s.v.size s.v.growth = s.v.size * s.v.growth :=
    mul64_eq (Nat.lt_of_lt_of_le h2 hs.word)
  unfold shrinkAfterW shrinkAfter shouldShrinkW shouldShrink
  rw [mulW_eq hs.word h2, mulW_eq hs.word h2', reallocateW_eq hs]
  rw [h3]
  rcases Nat.le_total 1 (s.v.size * s.v.growth) with h4 | h4
  · rw [Nat.max_eq_right h4]; exact h1
  · rw [Nat.max_eq_left h4, Nat.one_mul]; exact hs.esz

theorem lt_of_fits {m n e : Nat} (he : 1 ≤ e) (h : n * 255 * e < m) : n * 255 < m :=
  Nat.lt_of_le_of_lt (le_mul_esz he) h

theorem fits_le {m n k e : Nat} (h : n * 255 * e < m) (hk : k ≤ n) : k * 255 * e < m :=
  Nat.lt_of_le_of_lt (Nat.mul_le_mul_right _ (Nat.mul_le_mul_right _ hk)) h

theorem pushW_eq {m : Nat} {s : VS α} (hs : SmallW m s.v) (x : Src α)
    (h : (s.v.size + 1) * 255 * s.v.esz < m) : vecPushBackW m s x = vecPushBack s x := by
  have hl := lt_of_fits hs.esz1 h
  unfold vecPushBackW vecPushBack
  have ha : add64 s.v.size 1 = s.v.size + 1 := add64_eq (by have := hs.word; omega)
  rw [addW_eq hs.word (by omega), growForW_eq hs (by rw [ha]; exact h)]
  split
  · rfl
  · refine bind_congr_ret fun r hr => ?_
    have hsh := growFor_shape hr
    have : addW m r.2.v.size 1 = add64 r.2.v.size 1 := by
      rw [hsh.1]; exact addW_eq hs.word (by omega)
    simp only [this]

theorem insertRangeW_eq {m : Nat} {s : VS α} (hs : SmallW m s.v) (i : Nat) (x : Src α) (n : Nat)
    (h : (s.v.size + n) * 255 * s.v.esz < m) :
    vecInsertRangeW m s i x n = vecInsertRange s i x n := by
  have hl := lt_of_fits hs.esz1 h
  unfold vecInsertRangeW vecInsertRange
  have ha : add64 s.v.size n = s.v.size + n := add64_eq (by have := hs.word; omega)
  rw [addW_eq hs.word (by omega), growForW_eq hs (by rw [ha]; exact h)]
  split
  · rfl
  · split
    · rfl
    · rename_i hi
      refine bind_congr_ret fun r hr => ?_
      have hsh := growFor_shape hr
      have hs' := hs.same hsh
      have hs1 := hsh.1
      split
      · rfl
      · have e1 : (if i < r.2.v.size then shiftRightW m r.2 i n else .ret r.2) =
            (if i < r.2.v.size then shiftRight r.2 i n else .ret r.2) := by
          rw [shiftRightW_eq hs' (by omega) (by omega)]
        simp only [e1]
        refine bind_congr_ret fun t ht => ?_
        have hst : t.v.size = s.v.size := by
          split at ht
          · rw [(shiftRight_shape ht).1, hs1]
          · injection ht with ht; rw [← ht, hs1]
        have : addW m t.v.size n = add64 t.v.size n := by
          rw [hst]; exact addW_eq hs.word (by omega)
        simp only [this]

theorem emplaceW_eq {m : Nat} {s : VS α} (hs : SmallW m s.v) (i : Nat) (c : Ctor α)
    (h : (s.v.size + 1) * 255 * s.v.esz < m) : vecEmplaceExW m s i c = vecEmplaceEx s i c := by
  have hl := lt_of_fits hs.esz1 h
  unfold vecEmplaceExW vecEmplaceEx
  have ha : add64 s.v.size 1 = s.v.size + 1 := add64_eq (by have := hs.word; omega)
  rw [addW_eq hs.word (by omega), growForW_eq hs (by rw [ha]; exact h)]
  split
  · rfl
  · rename_i hi
    refine bind_congr_ret fun r hr => ?_
    have hsh := growFor_shape hr
    have hs' := hs.same hsh
    have hs1 := hsh.1
    split
    · rfl
    · have e1 : (if i < r.2.v.size then shiftRightW m r.2 i 1 else .ret r.2) =
          (if i < r.2.v.size then shiftRight r.2 i 1 else .ret r.2) := by
        rw [shiftRightW_eq hs' (by omega) (by omega)]
      simp only [e1]
      refine bind_congr_ret fun t ht => ?_
      have hst : t.v.size = s.v.size := by
        split at ht
        · rw [(shiftRight_shape ht).1, hs1]
        · injection ht with ht; rw [← ht, hs1]
      have : addW m t.v.size 1 = add64 t.v.size 1 := by
        rw [hst]; exact addW_eq hs.word (by omega)
      cases c with
      | none => simp only [this]
      | some f =>
        simp only [this]
        rfl

theorem deleteRangeW_eq {m : Nat} {s : VS α} (hs : SmallW m s.v) (i n : Nat) (hin : i + n < m)
    (h : s.v.size * 255 * s.v.esz < m) :
    vecDeleteRangeW m s i n = vecDeleteRange s i n := by
  have hl := lt_of_fits hs.esz1 h
  have hw := hs.word
  have ha : add64 i n = i + n := add64_eq (by omega)
  unfold vecDeleteRangeW vecDeleteRange
  rw [addW_eq hs.word hin]
  split
  · rfl
  · split
    · rfl
    · rename_i hle
      rw [ha] at hle
      refine bind_congr_ret fun t ht => ?_
      have hv := runDtors_vec ht
      have e1 : (if add64 i n < t.v.size then shiftLeftW m t i n else .ret t) =
          (if add64 i n < t.v.size then shiftLeft t i n else .ret t) := by
        rw [shiftLeftW_eq (hv ▸ hs) (by rw [hv]; omega) (by rw [hv]; omega)]
      rw [e1]
      refine bind_congr_ret fun u hu => ?_
      have hsh : SameShapeW s.v u.v := by
        split at hu
        · exact hv ▸ shiftLeft_shape hu
        · injection hu with hu; rw [← hu, hv]; exact .rfl
      have e2 : subW m u.v.size n = sub64 u.v.size n := by
        rw [hsh.1]; exact subW_eq hw (by omega) (by omega)
      rw [e2]
      have e3 : sub64 u.v.size n = s.v.size - n := by
        rw [hsh.1]; exact sub64_eq (by omega) (by omega)
      refine shrinkAfterW_eq ?_ ?_
      · exact ⟨hw, hsh.2.1 ▸ hs.growth, hsh.2.2.1 ▸ hs.shrink, hsh.2.2.2 ▸ hs.esz1, hsh.2.2.2 ▸ hs.esz⟩
      · show sub64 u.v.size n * 255 * u.v.esz < m
        rw [e3, hsh.2.2.2]
        exact fits_le h (by omega)

theorem popW_eq {m : Nat} {s : VS α} (hs : SmallW m s.v) (h : s.v.size * 255 * s.v.esz < m) :
    vecPopBackW m s = vecPopBack s := by
  unfold vecPopBackW vecPopBack
  split
  · rfl
  · refine bind_congr_ret fun t ht => ?_
    have hv := runDtors_vec ht
    refine shrinkAfterW_eq ?_ ?_
    · rw [hv]; exact ⟨hs.word, hs.growth, hs.shrink, hs.esz1, hs.esz⟩
    · show (t.v.size - 1) * 255 * t.v.esz < m
      rw [hv]
      exact fits_le h (by omega)

theorem resizeW_eq {m : Nat} {s : VS α} (hs : SmallW m s.v) (n : Nat) (x : Src α)
    (h : n * 255 * s.v.esz < m) : vecResizeExW m s n x = vecResizeEx s n x := by
  have h1 : n * s.v.growth * s.v.esz < m := Nat.lt_of_le_of_lt (mul_le_255 hs.growth) h
  have h2 : n * s.v.growth < m := Nat.lt_of_le_of_lt (le_mul_esz hs.esz1) h1
  have h1' : n * s.v.shrink * s.v.esz < m := Nat.lt_of_le_of_lt (mul_le_255 hs.shrink) h
  have h2' : n * s.v.shrink < m := Nat.lt_of_le_of_lt (le_mul_esz hs.esz1) h1'
  have h3 : mul64 n s.v.growth = n * s.v.growth := mul64_eq (Nat.lt_of_lt_of_le h2 hs.word)
  unfold vecResizeExW vecResizeEx
  split
  · rfl
  · refine bind_congr_ret fun t ht => ?_
    have hv : t.v = s.v := by
      split at ht
      · exact runDtors_vec ht
      · injection ht with ht; rw [← ht]
    have e : (if (shouldGrow n t.v.cap || shouldShrinkW m n t.v.cap t.v.shrink) = true then
          reallocateW m t (mulW m n t.v.growth) else .ret (stSuccess, t)) =
        (if (shouldGrow n t.v.cap || shouldShrink n t.v.cap t.v.shrink) = true then
          reallocate t (mul64 n t.v.growth) else .ret (stSuccess, t)) := by
      unfold shouldShrinkW shouldShrink
      rw [hv, mulW_eq hs.word h2, mulW_eq hs.word h2',
        reallocateW_eq (by rw [hv]; exact hs) _ (by rw [h3, hv]; exact h1)]
    simp only [e]

theorem reserveW_eq {m : Nat} {s : VS α} (hs : SmallW m s.v) (c : Nat) (h : c * s.v.esz < m) :
    vecReserveW m s c = vecReserve s c := by
  unfold vecReserveW vecReserve
  rw [reallocateW_eq hs c h]

theorem shrinkToFitW_eq {m : Nat} {s : VS α} (hs : SmallW m s.v) (h : s.v.size * 255 * s.v.esz < m) :
    vecShrinkToFitW m s = vecShrinkToFit s := by
  unfold vecShrinkToFitW vecShrinkToFit
  refine reallocateW_eq hs _ (Nat.lt_of_le_of_lt ?_ h)
  exact Nat.mul_le_mul_right _ (by omega)

/-- A request in the smaller domain is in the domain. -/
theorem InDomainW.wide {m : Nat} (hm : m ≤ 18446744073709551616) {P : Params} {a : LState α}
    {op : VOp α} (h : InDomainW m P a op) : InDomain P a op := by
  cases op <;> simp only [InDomainW, InDomain, FitsW, Fits] at h ⊢ <;>
    first | exact trivial | exact ⟨by omega, h.2⟩ | omega

theorem AllInDomainW.wide {m : Nat} (hm : m ≤ 18446744073709551616) {P : Params} {a : LState α}
    {ops : List (VOp α)} (h : AllInDomainW m P a ops) : AllInDomain P a ops := by
  induction h with
  | nil s => exact .nil s
  | cons h _ ih => exact .cons (h.wide hm) ih

theorem InDomainW.mono {m m' : Nat} (hm : m ≤ m') {P : Params} {a : LState α}
    {op : VOp α} (h : InDomainW m P a op) : InDomainW m' P a op := by
  cases op <;> simp only [InDomainW, FitsW] at h ⊢ <;>
    first | exact trivial | exact ⟨by omega, h.2⟩ | omega

theorem AllInDomainW.mono {m m' : Nat} (hm : m ≤ m') {P : Params} {a : LState α}
    {ops : List (VOp α)} (h : AllInDomainW m P a ops) : AllInDomainW m' P a ops := by
  induction h with
  | nil s => exact .nil s
  | cons h _ ih => exact .cons (h.mono hm) ih

/-- A represented vector whose size fits into the smaller word. -/
structure RepW (m : Nat) (P : Params) (s : VS α) (a : LState α) (b : Block α)
    (slack : List (Cell α)) : Prop where
  rep : Rep P s a b slack
  word : m ≤ 18446744073709551616
  esz : P.esz < m
  fits : FitsW m P a.elems.length

theorem RepW.small {m : Nat} {P : Params} {s : VS α} {a : LState α} {b : Block α}
    {slack : List (Cell α)} (R : RepW m P s a b slack) : SmallW m s.v :=
  ⟨R.word, R.rep.growth ▸ R.rep.growth255, R.rep.shrink ▸ R.rep.thr255, R.rep.esz ▸ R.rep.esz1,
    R.rep.esz ▸ R.esz⟩

theorem opW_eq {m : Nat} {P : Params} {s : VS α} {a : LState α} {b : Block α}
    {slack : List (Cell α)} (R : RepW m P s a b slack) (op : VOp α) (hd : InDomainW m P a op) :
    vecOpW m s op = vecOp s op := by
  have hs := R.small
  have hf : s.v.size * 255 * s.v.esz < m := by rw [R.rep.size, R.rep.esz]; exact R.fits
  have hz := R.rep.size
  have he := R.rep.esz
  cases op with
  | push x =>
    have hd : (a.elems.length + 1) * 255 * P.esz < m := hd
    exact pushW_eq hs _ (by rw [hz, he]; exact hd)
  | insertRange i xs =>
    have hd : (a.elems.length + xs.length) * 255 * P.esz < m := hd
    exact insertRangeW_eq hs _ _ _ (by rw [hz, he]; exact hd)
  | emplace i c =>
    have hd : (a.elems.length + 1) * 255 * P.esz < m := hd.1
    exact emplaceW_eq hs _ _ (by rw [hz, he]; exact hd)
  | set i x => rfl
  | swap i j => rfl
  | deleteRange i n => exact deleteRangeW_eq hs _ _ hd hf
  | pop => exact popW_eq hs hf
  | clear =>
    refine resizeW_eq hs 0 .null ?_
    have := hs.esz
    rw [Nat.zero_mul]
    omega
  | resize n init =>
    have hd : n * 255 * P.esz < m := hd
    exact resizeW_eq hs _ _ (by rw [he]; exact hd)
  | reserve c =>
    have hd : c * P.esz < m := hd
    exact reserveW_eq hs _ (by rw [he]; exact hd)
  | shrinkToFit => exact shrinkToFitW_eq hs hf

/-- An operation in the smaller domain leaves a list that fits into the smaller word. -/
theorem step_fitsW {m : Nat} {P : Params} {a a' : LState α} {op : VOp α} {junk : List (Cell α)}
    {st : Status} (hf : FitsW m P a.elems.length) (hd : InDomainW m P a op)
    (hj : junk.length = junkLen a op) (h : step P junk a op = (st, a')) :
    FitsW m P a'.elems.length := by
  have mono : ∀ {k n : Nat}, FitsW m P n → k ≤ n → FitsW m P k := fun h hk => fits_le h hk
  have h2 : a' = (step P junk a op).2 := by rw [h]
  subst h2
  cases op with
  | push x =>
    simp only [step]
    split
    · exact hf
    · exact mono hd (by simp)
  | insertRange i xs =>
    simp only [step]
    split
    · exact hf
    · split
      · exact hf
      · split
        · exact hf
        · exact mono hd (by simp; omega)
  | emplace i c =>
    simp only [step]
    have hj : junk.length = 1 := hj
    split
    · exact hf
    · split
      · exact hf
      · split
        · exact mono hd.1 (by simp; omega)
        · split
          · exact hf
          · exact mono hd.1 (by simp; omega)
  | set i x =>
    simp only [step]
    split
    · exact hf
    · exact mono hf (by simp)
  | swap i j =>
    simp only [step]
    split
    · split
      · exact hf
      · exact mono hf (by simp)
    · exact hf
  | deleteRange i n =>
    simp only [step]
    split
    · exact hf
    · split
      · exact hf
      · exact mono hf (by simp; omega)
  | pop =>
    simp only [step]
    split
    · exact hf
    · exact mono hf (by simp)
  | clear =>
    simp only [step]
    split
    · exact hf
    · exact mono hf (by simp)
  | resize n init =>
    simp only [step]
    have hj : junk.length = n - a.elems.length := hj
    split
    · exact hf
    · split
      · exact hf
      · split
        · exact mono hf (by simp; omega)
        · refine mono hd ?_
          cases init <;> simp [newElems] <;> omega
  | reserve c =>
    simp only [step]
    split
    · exact hf
    · split <;> exact hf
  | shrinkToFit =>
    simp only [step]
    split <;> exact hf

theorem RepW.step {m : Nat} {P : Params} {s : VS α} {a : LState α} {b : Block α}
    {slack : List (Cell α)} (R : RepW m P s a b slack) (op : VOp α) (hd : InDomainW m P a op) :
    ∃ junk st s' a' b' slack', junk.length = junkLen a op ∧ Spec.step P junk a op = (st, a') ∧
      vecOpW m s op = .ret (st, s') ∧ RepW m P s' a' b' slack' := by
  obtain ⟨junk, st, s1, a1, b1, sl1, hj, hstep, hop, R1⟩ := op_ok R.rep op (hd.wide R.word)
  exact ⟨junk, st, s1, a1, b1, sl1, hj, hstep, by rw [opW_eq R op hd, hop],
    ⟨R1, R.word, R.esz, step_fitsW R.fits hd hj hstep⟩⟩

theorem runVecW_eq {m : Nat} {P : Params} (ops : List (VOp α)) : ∀ {s : VS α} {a : LState α}
    {b : Block α} {slack : List (Cell α)}, RepW m P s a b slack → AllInDomainW m P a ops →
    runVecW m s ops = runVec s ops := by
  induction ops with
  | nil => intros; rfl
  | cons op ops ih =>
    intro s a b slack R hd
    cases hd with
    | cons hd ht =>
      obtain ⟨junk, st, s1, a1, b1, sl1, hj, hstep, hop, R1⟩ := R.step op hd
      have ht' := ht junk hj
      rw [hstep] at ht'
      have he := opW_eq R op hd
      simp only [runVecW, runVec]
      rw [← he, hop]
      simp only [Out.ret_bind']
      rw [ih R1 ht']

end Zy
