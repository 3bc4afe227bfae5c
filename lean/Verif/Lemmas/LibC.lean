import Verif.Spec.LibCRun
import Verif.Spec.LibC

/-!
# Helper lemmas for the C library replacements
-/

namespace Zy

open Zy.Spec

/-! ## Memory -/

theorem Spec.Holds.load {m : Mem} {p : Nat} {x : Byte} {xs : List Byte} (h : Holds m p (x :: xs)) :
    ld m p = .ret x := by
  unfold ld; rw [h.1]

theorem holds_append {m : Mem} (xs ys : List Byte) :
    ∀ p, Holds m p (xs ++ ys) ↔ Holds m p xs ∧ Holds m (p + xs.length) ys := by
  induction xs with
  | nil => intro p; simp [Holds]
  | cons x xs ih =>
    intro p
    have e : p + (xs.length + 1) = p + 1 + xs.length := by omega
    simp only [List.cons_append, Holds, ih (p + 1), List.length_cons, e, and_assoc]

theorem holds_get {m : Mem} (xs : List Byte) :
    ∀ p, Holds m p xs ↔ ∀ (i : Nat) (b : Byte), xs[i]? = some b → m[p + i]? = some (.byte b) := by
  induction xs with
  | nil => intro p; simp [Holds]
  | cons x xs ih =>
    intro p
    simp only [Holds, ih]
    constructor
    · rintro ⟨h1, h2⟩ i b hb
      cases i with
      | zero => simp at hb; subst hb; exact h1
      | succ i =>
        have := h2 i b (by simpa using hb)
        rw [show p + (i + 1) = p + 1 + i by omega]
        exact this
    · intro h
      refine ⟨h 0 x (by simp), fun i b hb => ?_⟩
      rw [show p + 1 + i = p + (i + 1) by omega]
      exact h (i + 1) b (by simpa using hb)

theorem Spec.Holds.le {m : Mem} {p : Nat} {xs : List Byte} (h : Holds m p xs) (hx : xs ≠ []) :
    p + xs.length ≤ m.length := by
  have h1 := (holds_get xs p).1 h (xs.length - 1) (xs.getLast hx) (by
    rw [List.getLast_eq_getElem]
    exact List.getElem?_eq_getElem _)
  obtain ⟨h2, _⟩ := List.getElem?_eq_some_iff.1 h1
  have : 0 < xs.length := List.length_pos_iff.2 hx
  omega

theorem Spec.Holds.congr {m m' : Mem} {p : Nat} {xs : List Byte} (h : Holds m p xs)
    (he : ∀ i < xs.length, m'[p + i]? = m[p + i]?) : Holds m' p xs := by
  rw [holds_get] at h ⊢
  intro i b hb
  rw [he i (List.getElem?_eq_some_iff.1 hb).1]
  exact h i b hb

theorem Spec.Holds.frame {m m' : Mem} {p n q : Nat} {xs : List Byte} (h : Holds m q xs)
    (hs : SameOutside m m' p n) (ha : Apart p n q xs.length) : Holds m' q xs := by
  refine h.congr fun i hi => hs.2 _ ?_
  unfold Apart at ha
  omega

theorem Spec.CString.nul_free {m : Mem} {p : Nat} {xs : List Byte} (h : CString m p xs) : 0#8 ∉ xs := h.1

theorem Spec.CString.tail {m : Mem} {p : Nat} {x : Byte} {xs : List Byte} (h : CString m p (x :: xs)) :
    CString m (p + 1) xs :=
  ⟨fun hh => h.1 (List.mem_cons_of_mem _ hh), h.2.2⟩

theorem Spec.CString.head {m : Mem} {p : Nat} {x : Byte} {xs : List Byte} (h : CString m p (x :: xs)) :
    ld m p = .ret x ∧ x ≠ 0#8 :=
  ⟨Holds.load (xs := xs ++ [0#8]) h.2, fun e => h.1 (by simp [e])⟩

theorem Spec.CString.nil {m : Mem} {p : Nat} (h : CString m p []) : ld m p = .ret 0#8 :=
  Holds.load (xs := []) h.2

theorem Spec.CString.le {m : Mem} {p : Nat} {xs : List Byte} (h : CString m p xs) :
    p + xs.length + 1 ≤ m.length := by
  have := h.2.le (by simp)
  simpa [Nat.add_assoc] using this

theorem Spec.CString.drop {m : Mem} {xs : List Byte} (ys : List Byte) :
    ∀ {p : Nat}, CString m p (ys ++ xs) → CString m (p + ys.length) xs := by
  induction ys with
  | nil => intro p h; exact h
  | cons y ys ih =>
    intro p h
    have := ih h.tail
    rw [List.length_cons, show p + (ys.length + 1) = p + 1 + ys.length by omega]
    exact this

theorem sameOutside_refl (m : Mem) (p n : Nat) : SameOutside m m p n := ⟨rfl, fun _ _ => rfl⟩

theorem Spec.SameOutside.mono {m m' : Mem} {p n q k : Nat} (h : SameOutside m m' p n) (h1 : q ≤ p)
    (h2 : p + n ≤ q + k) : SameOutside m m' q k :=
  ⟨h.1, fun i hi => h.2 i (by omega)⟩

theorem Spec.SameOutside.trans {m m' m'' : Mem} {p n : Nat} (h : SameOutside m m' p n)
    (h' : SameOutside m' m'' p n) : SameOutside m m'' p n :=
  ⟨h'.1.trans h.1, fun i hi => (h'.2 i hi).trans (h.2 i hi)⟩

theorem Spec.Object.tail {m : Mem} {p n : Nat} (h : Object m p (n + 1)) : Object m (p + 1) n := by
  intro i hi
  have := h (i + 1) (by omega)
  rwa [show p + (i + 1) = p + 1 + i by omega] at this

theorem Spec.Object.first {m : Mem} {p n : Nat} (h : Object m p (n + 1)) :
    ∃ d, m[p]? = some d ∧ d ≠ .gone := h 0 (by omega)

theorem Spec.Object.init {m : Mem} {p n : Nat} (h : Object m p (n + 1)) : Object m p n :=
  fun i hi => h i (by omega)

theorem Spec.Object.mono {m : Mem} {p n k : Nat} (h : Object m p n) (hk : k ≤ n) : Object m p k :=
  fun i hi => h i (by omega)

theorem Spec.Object.shift {m : Mem} {p n : Nat} (k : Nat) (h : Object m p n) : Object m (p + k) (n - k) := by
  intro i hi
  have := h (k + i) (by omega)
  rwa [show p + (k + i) = p + k + i by omega] at this

/-- One store. -/
theorem storeCell_ok {m : Mem} {p : Nat} (c : MCell) (h : ∃ d, m[p]? = some d ∧ d ≠ .gone) :
    stCell m p c = .ret (m.set p c) := by
  obtain ⟨d, h1, h2⟩ := h
  unfold stCell
  rw [h1]
  cases d with
  | gone => exact absurd rfl h2
  | raw => rfl
  | byte b => rfl

theorem loadAny_ok {m : Mem} {p : Nat} (h : ∃ d, m[p]? = some d ∧ d ≠ .gone) :
    ∃ c, m[p]? = some c ∧ c ≠ .gone ∧ ldAny m p = .ret c := by
  obtain ⟨d, h1, h2⟩ := h
  refine ⟨d, h1, h2, ?_⟩
  unfold ldAny
  rw [h1]
  cases d with
  | gone => exact absurd rfl h2
  | raw => rfl
  | byte b => rfl

theorem set_other {m : Mem} {p i : Nat} {c : MCell} (h : i ≠ p) : (m.set p c)[i]? = m[i]? := by
  rw [List.getElem?_set_ne (by omega)]

theorem set_same {m : Mem} {p : Nat} {c d : MCell} (h : m[p]? = some d) : (m.set p c)[p]? = some c := by
  obtain ⟨h1, _⟩ := List.getElem?_eq_some_iff.1 h
  rw [List.getElem?_set_self h1]

theorem Spec.Object.set {m : Mem} {p n q : Nat} {c : MCell} (h : Object m p n) (hc : c ≠ .gone) :
    Object (m.set q c) p n := by
  intro i hi
  obtain ⟨d, h1, h2⟩ := h i hi
  by_cases e : p + i = q
  · exact ⟨c, by rw [e] at h1 ⊢; exact set_same h1, hc⟩
  · exact ⟨d, by rw [set_other e]; exact h1, h2⟩

theorem sameOutside_set {m : Mem} {p : Nat} (c : MCell) : SameOutside m (m.set p c) p 1 :=
  ⟨by simp, fun i hi => set_other (by omega)⟩

theorem Spec.Holds.set {m : Mem} {p q : Nat} {xs : List Byte} {c : MCell} (h : Holds m p xs)
    (hq : q < p ∨ p + xs.length ≤ q) : Holds (m.set q c) p xs :=
  h.congr fun i hi => set_other (by omega)

theorem Spec.CString.set {m : Mem} {p q : Nat} {xs : List Byte} {c : MCell} (h : CString m p xs)
    (hq : q < p ∨ p + xs.length < q) : CString (m.set q c) p xs :=
  ⟨h.1, h.2.set (by simp; omega)⟩

theorem Spec.CString.frame {m m' : Mem} {p n q : Nat} {xs : List Byte} (h : CString m q xs)
    (hs : SameOutside m m' p n) (ha : Apart p n q (xs.length + 1)) : CString m' q xs :=
  ⟨h.1, h.2.frame hs (by simpa using ha)⟩

/-! ## Memory functions -/

theorem memchr_spec {m : Mem} {c : Int} (xs : List Byte) : ∀ {p : Nat}, Holds m p xs →
    ∃ r, lcMemchr m p c xs.length = .ret r ∧ FirstAt r p xs (· = BitVec.ofInt 8 c) := by
  induction xs with
  | nil => intro p _; exact ⟨none, rfl, Or.inr ⟨rfl, by simp⟩⟩
  | cons x xs ih =>
    intro p h
    simp only [List.length_cons, lcMemchr, h.load, Out.ret_bind']
    by_cases hx : x = BitVec.ofInt 8 c
    · refine ⟨some p, by simp [hx], Or.inl ⟨0, x, rfl, rfl, hx, by intro j d hj; omega⟩⟩
    · obtain ⟨r, h1, h2⟩ := ih h.2
      refine ⟨r, by rw [if_pos hx]; exact h1, ?_⟩
      rcases h2 with ⟨i, b, h3, h4, h5, h6⟩ | ⟨h3, h4⟩
      · refine Or.inl ⟨i + 1, b, by rw [h3]; congr 1; omega, by simpa using h4, h5, ?_⟩
        intro j d hj hd
        cases j with
        | zero => simp at hd; subst hd; exact hx
        | succ j => exact h6 j d (by omega) (by simpa using hd)
      · exact Or.inr ⟨h3, by simp only [List.mem_cons, forall_eq_or_imp]; exact ⟨hx, h4⟩⟩

theorem byteDiff_pos {a b : Byte} : 0 < byteDiff a b ↔ b.toNat < a.toNat := by unfold byteDiff; omega
theorem byteDiff_neg {a b : Byte} : byteDiff a b < 0 ↔ a.toNat < b.toNat := by unfold byteDiff; omega
theorem byteDiff_zero {a b : Byte} : byteDiff a b = 0 ↔ a = b := by
  unfold byteDiff
  constructor
  · intro h; apply BitVec.eq_of_toNat_eq; omega
  · rintro rfl; omega

theorem isComparison_diff {a b : Byte} (h : a ≠ b) (xs ys : List Byte) :
    IsComparison (byteDiff a b) (a :: xs) (b :: ys) := by
  refine ⟨?_, ?_, ?_⟩
  · rw [byteDiff_zero]
    exact ⟨fun e => absurd e h, fun e => absurd (List.cons.inj e).1 h⟩
  · rw [byteDiff_neg]
    simp only [LexLess]
    exact ⟨Or.inl, fun e => e.resolve_right fun e => h e.1⟩
  · rw [byteDiff_pos]
    simp only [LexLess]
    exact ⟨Or.inl, fun e => e.resolve_right fun e => h e.1.symm⟩

theorem isComparison_cons {r : Int} {xs ys : List Byte} (a : Byte) (h : IsComparison r xs ys) :
    IsComparison r (a :: xs) (a :: ys) := by
  obtain ⟨h1, h2, h3⟩ := h
  refine ⟨by rw [h1]; simp, ?_, ?_⟩
  · rw [h2]; simp [LexLess]
  · rw [h3]; simp [LexLess]

theorem isComparison_nil : IsComparison 0 [] [] := by simp [IsComparison, LexLess]

theorem memcmp_spec {m : Mem} (xs : List Byte) : ∀ {p q : Nat} {ys : List Byte}, Holds m p xs →
    Holds m q ys → ys.length = xs.length →
    ∃ r, lcMemcmp m p q xs.length = .ret r ∧ IsComparison r xs ys := by
  induction xs with
  | nil =>
    intro p q ys _ _ hl
    have : ys = [] := List.length_eq_zero_iff.1 hl
    subst this
    exact ⟨0, rfl, isComparison_nil⟩
  | cons x xs ih =>
    intro p q ys h h' hl
    cases ys with
    | nil => simp at hl
    | cons y ys =>
      simp only [List.length_cons, lcMemcmp, h.load, h'.load, Out.ret_bind']
      by_cases e : x = y
      · subst e
        obtain ⟨r, h1, h2⟩ := ih h.2 h'.2 (by simpa using hl)
        exact ⟨r, by simpa using h1, isComparison_cons x h2⟩
      · exact ⟨_, by rw [if_pos e], isComparison_diff e xs ys⟩

theorem copyUp_spec (n : Nat) : ∀ {m : Mem} {d s : Nat}, Object m s n → Object m d n →
    d ≤ s ∨ s + n ≤ d →
    ∃ m', copyUp m d s n = .ret m' ∧ SameOutside m m' d n ∧ ∀ i < n, m'[d + i]? = m[s + i]? := by
  induction n with
  | zero => intro m d s _ _ _; exact ⟨m, rfl, sameOutside_refl _ _ _, by intro i hi; omega⟩
  | succ n ih =>
    intro m d s hs hd ha
    obtain ⟨c, h1, h2, h3⟩ := loadAny_ok hs.first
    obtain ⟨dv, hd1, hd2⟩ := hd.first
    obtain ⟨m', h4, h5, h6⟩ := ih (m := m.set d c) (d := d + 1) (s := s + 1) (hs.tail.set h2)
      (hd.tail.set h2) (by omega)
    refine ⟨m', ?_, ?_, ?_⟩
    · simp only [copyUp, h3, Out.ret_bind', storeCell_ok c ⟨dv, hd1, hd2⟩]
      exact h4
    · exact ((sameOutside_set c).mono (by omega) (by omega)).trans (h5.mono (by omega) (by omega))
    · intro i hi
      cases i with
      | zero =>
        rw [h5.2 (d + 0) (by omega)]
        simp only [Nat.add_zero]
        rw [set_same hd1, h1]
      | succ i =>
        have := h6 i (by omega)
        rw [show d + (i + 1) = d + 1 + i by omega, this, set_other (by omega)]
        congr 1
        omega

theorem copyDown_spec (n : Nat) : ∀ {m : Mem} {d s : Nat}, Object m s n → Object m d n → s ≤ d →
    ∃ m', copyDown m (d + n) (s + n) n = .ret m' ∧ SameOutside m m' d n ∧
      ∀ i < n, m'[d + i]? = m[s + i]? := by
  induction n with
  | zero => intro m d s _ _ _; exact ⟨m, rfl, sameOutside_refl _ _ _, by intro i hi; omega⟩
  | succ n ih =>
    intro m d s hs hd ha
    obtain ⟨c, h1, h2, h3⟩ := loadAny_ok (hs n (by omega))
    obtain ⟨dv, hd1, hd2⟩ := hd n (by omega)
    obtain ⟨m', h4, h5, h6⟩ := ih (m := m.set (d + n) c) (d := d) (s := s) (hs.init.set h2)
      (hd.init.set h2) ha
    refine ⟨m', ?_, ?_, ?_⟩
    · simp only [copyDown, show s + (n + 1) - 1 = s + n by omega, show d + (n + 1) - 1 = d + n by omega,
        h3, Out.ret_bind', storeCell_ok c ⟨dv, hd1, hd2⟩]
      exact h4
    · exact ((sameOutside_set c).mono (by omega) (by omega)).trans (h5.mono (by omega) (by omega))
    · intro i hi
      by_cases e : i = n
      · subst e
        rw [h5.2 _ (by omega), set_same hd1, h1]
      · rw [h6 i (by omega), set_other (by omega)]

theorem fillUp_spec {b : Byte} (n : Nat) : ∀ {m : Mem} {p : Nat}, Object m p n →
    ∃ m', fillUp m p b n = .ret m' ∧ SameOutside m m' p n ∧ Holds m' p (List.replicate n b) := by
  induction n with
  | zero => intro m p _; exact ⟨m, rfl, sameOutside_refl _ _ _, trivial⟩
  | succ n ih =>
    intro m p h
    obtain ⟨d, h1, h2⟩ := h.first
    obtain ⟨m', h3, h4, h5⟩ := ih (m := m.set p (.byte b)) (p := p + 1) (h.tail.set (by simp))
    refine ⟨m', ?_, ?_, ?_⟩
    · simp only [fillUp]
      rw [storeCell_ok _ ⟨d, h1, h2⟩]
      exact h3
    · exact ((sameOutside_set _).mono (by omega) (by omega)).trans (h4.mono (by omega) (by omega))
    · refine ⟨?_, h5⟩
      rw [h4.2 p (by omega)]
      exact set_same h1

/-! ## Strings: length, copies -/

theorem toEnd_spec {m : Mem} (xs : List Byte) : ∀ {p fuel : Nat}, CString m p xs → xs.length < fuel →
    toEnd m p fuel = .ret (p + xs.length) := by
  induction xs with
  | nil =>
    intro p fuel h hf
    cases fuel with
    | zero => omega
    | succ fuel => simp [toEnd, h.nil]
  | cons x xs ih =>
    intro p fuel h hf
    cases fuel with
    | zero => omega
    | succ fuel =>
      simp only [toEnd, h.head.1, Out.ret_bind']
      rw [if_pos h.head.2, ih h.tail (by simpa using hf)]
      simp only [List.length_cons]
      congr 1
      omega

theorem strlen_spec {m : Mem} {p : Nat} {xs : List Byte} (h : CString m p xs) :
    lcStrlen m p = .ret xs.length := by
  have := h.le
  unfold lcStrlen
  rw [toEnd_spec xs h (by omega)]
  simp

theorem copyStr_spec (xs : List Byte) : ∀ {m : Mem} {d s fuel : Nat}, CString m s xs →
    Object m d (xs.length + 1) → Apart d (xs.length + 1) s (xs.length + 1) → xs.length < fuel →
    ∃ m', copyStr m d s fuel = .ret m' ∧ SameOutside m m' d (xs.length + 1) ∧ CString m' d xs := by
  induction xs with
  | nil =>
    intro m d s fuel h hd ha hf
    cases fuel with
    | zero => omega
    | succ fuel =>
      obtain ⟨dv, h1, h2⟩ := hd.first
      refine ⟨m.set d (.byte 0#8), ?_, sameOutside_set _, by simp, set_same h1, trivial⟩
      simp only [copyStr, h.nil, Out.ret_bind']
      rw [storeCell_ok _ ⟨dv, h1, h2⟩]
      simp
  | cons x xs ih =>
    intro m d s fuel h hd ha hf
    cases fuel with
    | zero => omega
    | succ fuel =>
      obtain ⟨dv, h1, h2⟩ := hd.first
      simp only [List.length_cons, Apart] at ha hd hf
      obtain ⟨m', h3, h4, h5⟩ := ih (m := m.set d (.byte x)) (d := d + 1) (s := s + 1) (fuel := fuel)
        (h.tail.set (by omega)) (hd.tail.set (by simp)) (by unfold Apart; omega) (by omega)
      refine ⟨m', ?_, ?_, ?_⟩
      · simp only [copyStr, h.head.1, Out.ret_bind']
        rw [storeCell_ok _ ⟨dv, h1, h2⟩]
        simp only [Out.ret_bind']
        rw [if_pos h.head.2]
        exact h3
      · exact ((sameOutside_set _).mono (by omega) (by simp)).trans (h4.mono (by omega) (by simp; omega))
      · refine ⟨h.1, ?_, h5.2⟩
        rw [h4.2 d (by omega)]
        exact set_same h1

theorem catLoop_spec (n : Nat) : ∀ {m : Mem} {d s : Nat} {xs : List Byte}, 0#8 ∉ xs →
    Holds m s (firstChars xs n) → Object m d ((xs.take n).length + 1) →
    Apart d ((xs.take n).length + 1) s (firstChars xs n).length →
    ∃ m', catLoop m d s n = .ret m' ∧ SameOutside m m' d ((xs.take n).length + 1) ∧
      CString m' d (xs.take n) := by
  induction n with
  | zero =>
    intro m d s xs _ _ hd _
    obtain ⟨dv, h1, h2⟩ := hd.first
    refine ⟨m.set d (.byte 0#8), ?_, by simpa using sameOutside_set _, by simp, ?_⟩
    · simp only [catLoop]
      exact storeCell_ok _ ⟨dv, h1, h2⟩
    · simpa [Holds] using set_same h1
  | succ n ih =>
    intro m d s xs h0 h hd ha
    obtain ⟨dv, h1, h2⟩ := hd.first
    cases xs with
    | nil =>
      refine ⟨m.set d (.byte 0#8), ?_, by simpa using sameOutside_set _, by simp, ?_⟩
      · have h : Holds m s (0#8 :: (firstChars [] n).take 0) := by
          simpa [firstChars, Holds] using h
        simp only [catLoop, h.load, Out.ret_bind']
        rw [storeCell_ok _ ⟨dv, h1, h2⟩]
        simp
      · simpa [Holds] using set_same h1
    | cons x xs =>
      simp only [List.mem_cons, not_or] at h0
      simp only [firstChars, List.cons_append, List.take_succ_cons, List.length_cons, Apart] at h hd ha
      obtain ⟨m', h3, h4, h5⟩ := ih (m := m.set d (.byte x)) (d := d + 1) (s := s + 1) (xs := xs) h0.2
        (h.2.set (by omega)) (hd.tail.set (by simp)) (by unfold Apart firstChars; omega)
      refine ⟨m', ?_, ?_, ?_⟩
      · simp only [catLoop, h.load, Out.ret_bind']
        rw [storeCell_ok _ ⟨dv, h1, h2⟩]
        simp only [Out.ret_bind']
        rw [if_neg (fun e => h0.1 e.symm)]
        exact h3
      · simp only [List.take_succ_cons, List.length_cons]
        exact ((sameOutside_set _).mono (by omega) (by omega)).trans (h4.mono (by omega) (by omega))
      · refine ⟨?_, ?_, h5.2⟩
        · simp only [List.take_succ_cons, List.mem_cons, not_or]
          exact ⟨h0.1, h5.1⟩
        · rw [h4.2 d (by omega)]
          exact set_same h1

/-- The bytes that `strncpy` writes: the first `n` characters, padded with NUL. -/
theorem ncpyLoop_spec (n : Nat) : ∀ {m : Mem} {d s : Nat} {xs : List Byte}, 0#8 ∉ xs →
    Holds m s (firstChars xs n) → Object m d n → Apart d n s (firstChars xs n).length →
    ∃ m', ncpyLoop m d s n = .ret m' ∧ SameOutside m m' d n ∧
      Holds m' d (xs.take n ++ List.replicate (n - xs.length) 0#8) := by
  induction n with
  | zero =>
    intro m d s xs _ _ _ _
    exact ⟨m, rfl, sameOutside_refl _ _ _, by simp [Holds]⟩
  | succ n ih =>
    intro m d s xs h0 h hd ha
    obtain ⟨dv, h1, h2⟩ := hd.first
    cases xs with
    | nil =>
      have h : Holds m s (0#8 :: (firstChars [] n).take 0) := by
        simpa [firstChars, Holds] using h
      obtain ⟨m', h3, h4, h5⟩ := fillUp_spec (b := 0#8) n (m := m.set d (.byte 0#8)) (p := d + 1)
        (hd.tail.set (by simp))
      refine ⟨m', ?_, ?_, ?_⟩
      · simp only [ncpyLoop, h.load, Out.ret_bind']
        rw [storeCell_ok _ ⟨dv, h1, h2⟩]
        simpa using h3
      · exact ((sameOutside_set _).mono (by omega) (by omega)).trans (h4.mono (by omega) (by omega))
      · simp only [List.take_nil, List.length_nil, Nat.sub_zero, List.nil_append, List.replicate_succ]
        refine ⟨?_, h5⟩
        rw [h4.2 d (by omega)]
        exact set_same h1
    | cons x xs =>
      simp only [List.mem_cons, not_or] at h0
      simp only [firstChars, List.cons_append, List.take_succ_cons, List.length_cons, Apart] at h ha
      obtain ⟨m', h3, h4, h5⟩ := ih (m := m.set d (.byte x)) (d := d + 1) (s := s + 1) (xs := xs) h0.2
        (h.2.set (by omega)) (hd.tail.set (by simp)) (by unfold Apart firstChars; omega)
      refine ⟨m', ?_, ?_, ?_⟩
      · simp only [ncpyLoop, h.load, Out.ret_bind']
        rw [storeCell_ok _ ⟨dv, h1, h2⟩]
        simp only [Out.ret_bind']
        rw [if_pos (fun e => h0.1 e.symm)]
        exact h3
      · exact ((sameOutside_set _).mono (by omega) (by omega)).trans (h4.mono (by omega) (by omega))
      · simp only [List.take_succ_cons, List.length_cons, Nat.add_sub_add_right, List.cons_append]
        refine ⟨?_, h5⟩
        rw [h4.2 d (by omega)]
        exact set_same h1

/-! ## Comparisons -/

theorem lexLess_nil {y : Byte} {ys : List Byte} : LexLess [] (y :: ys) ∧ ¬ LexLess (y :: ys) [] := by
  simp [LexLess]

theorem scmpLoop_spec {m : Mem} (xs : List Byte) : ∀ {p q fuel : Nat} {ys : List Byte},
    CString m p xs → CString m q ys → xs.length < fuel →
    ∃ r, scmpLoop m p q fuel = .ret r ∧ IsComparison r xs ys := by
  induction xs with
  | nil =>
    intro p q fuel ys h h' hf
    cases fuel with
    | zero => omega
    | succ fuel =>
      cases ys with
      | nil => exact ⟨0, by simp [scmpLoop, h.nil, h'.nil, byteDiff], isComparison_nil⟩
      | cons y ys =>
        refine ⟨byteDiff 0#8 y, by simp [scmpLoop, h.nil, h'.head.1], ?_, ?_, ?_⟩
        · rw [byteDiff_zero]
          exact ⟨fun e => absurd e.symm h'.head.2, fun e => by simp at e⟩
        · rw [byteDiff_neg]
          simp only [LexLess, iff_true]
          have : y.toNat ≠ 0 := fun e => h'.head.2 (BitVec.eq_of_toNat_eq (by simpa using e))
          simp only [BitVec.toNat_ofNat, Nat.zero_mod]
          omega
        · rw [byteDiff_pos]
          simp [LexLess]
  | cons x xs ih =>
    intro p q fuel ys h h' hf
    cases fuel with
    | zero => omega
    | succ fuel =>
      cases ys with
      | nil =>
        refine ⟨byteDiff x 0#8, ?_, ?_, ?_, ?_⟩
        · simp only [scmpLoop, h.head.1, h'.nil, Out.ret_bind']
          rw [if_neg (fun e => h.head.2 e.2)]
        · rw [byteDiff_zero]
          exact ⟨fun e => absurd e h.head.2, fun e => by simp at e⟩
        · rw [byteDiff_neg]
          simp [LexLess]
        · rw [byteDiff_pos]
          simp only [LexLess, iff_true]
          have : x.toNat ≠ 0 := fun e => h.head.2 (BitVec.eq_of_toNat_eq (by simpa using e))
          simp only [BitVec.toNat_ofNat, Nat.zero_mod]
          omega
      | cons y ys =>
        simp only [scmpLoop, h.head.1, h'.head.1, Out.ret_bind']
        by_cases e : x = y
        · subst e
          obtain ⟨r, h1, h2⟩ := ih h.tail h'.tail (by simpa using hf)
          exact ⟨r, by rw [if_pos ⟨h.head.2, rfl⟩]; exact h1, isComparison_cons x h2⟩
        · exact ⟨_, by rw [if_neg (fun h => e h.2)], isComparison_diff e xs ys⟩

/-! ## Searches -/

theorem chrLoop_spec {m : Mem} {c : Byte} (xs : List Byte) : ∀ {p fuel : Nat}, CString m p xs →
    xs.length < fuel →
    ∃ r, chrLoop m c p fuel = .ret r ∧ FirstAt r p (xs ++ [0#8]) (· = c) := by
  induction xs with
  | nil =>
    intro p fuel h hf
    cases fuel with
    | zero => omega
    | succ fuel =>
      by_cases e : c = 0#8
      · exact ⟨some p, by simp [chrLoop, h.nil, e],
          Or.inl ⟨0, 0#8, rfl, rfl, e.symm, by intro j d hj; omega⟩⟩
      · refine ⟨none, ?_, Or.inr ⟨rfl, ?_⟩⟩
        · simp only [chrLoop, h.nil, Out.ret_bind']
          rw [if_pos (fun h => e h.symm)]
          simp
        · intro b hb
          simp only [List.nil_append, List.mem_singleton] at hb
          subst hb
          exact fun h => e h.symm
  | cons x xs ih =>
    intro p fuel h hf
    cases fuel with
    | zero => omega
    | succ fuel =>
      simp only [chrLoop, h.head.1, Out.ret_bind']
      by_cases e : x = c
      · exact ⟨some p, by simp [e], Or.inl ⟨0, x, rfl, rfl, e, by intro j d hj; omega⟩⟩
      · obtain ⟨r, h1, h2⟩ := ih h.tail (by simpa using hf)
        refine ⟨r, by rw [if_pos e, if_neg h.head.2]; exact h1, ?_⟩
        rcases h2 with ⟨i, b, h3, h4, h5, h6⟩ | ⟨h3, h4⟩
        · refine Or.inl ⟨i + 1, b, by rw [h3]; congr 1; omega, by simpa using h4, h5, ?_⟩
          intro j d hj hd
          cases j with
          | zero => simp at hd; subst hd; exact e
          | succ j => exact h6 j d (by omega) (by simpa using hd)
        · refine Or.inr ⟨h3, ?_⟩
          intro b hb
          simp only [List.cons_append, List.mem_cons] at hb
          rcases hb with rfl | hb
          · exact e
          · exact h4 b hb

/-- Membership test by `strchr`, for characters that are not NUL. -/
theorem strchr_mem {m : Mem} {p : Nat} {ys : List Byte} (h : CString m p ys) {a : Byte} (ha : a ≠ 0#8) :
    ∃ r, lcStrchr m p a.toInt = .ret r ∧ r.isSome = decide (a ∈ ys) := by
  have := h.le
  obtain ⟨r, h1, h2⟩ := chrLoop_spec (c := a) ys h (fuel := m.length + 1) (by omega)
  refine ⟨r, by unfold lcStrchr; rw [BitVec.ofInt_toInt]; exact h1, ?_⟩
  rcases h2 with ⟨i, b, h3, h4, h5, _⟩ | ⟨h3, h4⟩
  · subst h3
    have hm := List.mem_of_getElem? h4
    simp only [List.mem_append, List.mem_singleton] at hm
    have : a ∈ ys := by
      rcases hm with hm | hm
      · exact h5 ▸ hm
      · exact absurd (h5.symm.trans hm) ha
    simp [this]
  · subst h3
    have : a ∉ ys := fun hm => h4 a (by simp [hm]) rfl
    simp [this]

theorem rchrLoop_spec {m : Mem} {c : Byte} (xs : List Byte) : ∀ {p fuel : Nat} {r0 : Option Nat},
    CString m p xs → xs.length < fuel →
    ∃ r, rchrLoop m c p r0 fuel = .ret r ∧
      ((∃ (i : Nat) (b : Byte), r = some (p + i) ∧ (xs ++ [0#8])[i]? = some b ∧ b = c ∧
        ∀ (j : Nat) (d : Byte), i < j → (xs ++ [0#8])[j]? = some d → ¬ d = c) ∨
      (r = r0 ∧ ∀ b ∈ xs ++ [0#8], ¬ b = c)) := by
  induction xs with
  | nil =>
    intro p fuel r0 h hf
    cases fuel with
    | zero => omega
    | succ fuel =>
      by_cases e : c = 0#8
      · refine ⟨some p, by simp [rchrLoop, h.nil, e], Or.inl ⟨0, 0#8, rfl, rfl, e.symm, ?_⟩⟩
        intro j d hj hd
        have := (List.getElem?_eq_some_iff.1 hd).1
        simp at this
        omega
      · refine ⟨r0, ?_, Or.inr ⟨rfl, ?_⟩⟩
        · simp only [rchrLoop, h.nil, Out.ret_bind']
          rw [if_neg (by simp), if_neg (fun h => e h.symm)]
        · intro b hb
          simp only [List.nil_append, List.mem_singleton] at hb
          subst hb
          exact fun h => e h.symm
  | cons x xs ih =>
    intro p fuel r0 h hf
    cases fuel with
    | zero => omega
    | succ fuel =>
      simp only [rchrLoop, h.head.1, Out.ret_bind']
      rw [if_pos h.head.2]
      obtain ⟨r, h1, h2⟩ := ih (r0 := if x = c then some p else r0) h.tail (fuel := fuel)
        (by simpa using hf)
      refine ⟨r, h1, ?_⟩
      rcases h2 with ⟨i, b, h3, h4, h5, h6⟩ | ⟨h3, h4⟩
      · refine Or.inl ⟨i + 1, b, by rw [h3]; congr 1; omega, by simpa using h4, h5, ?_⟩
        intro j d hj hd
        cases j with
        | zero => omega
        | succ j => exact h6 j d (by omega) (by simpa using hd)
      · by_cases e : x = c
        · refine Or.inl ⟨0, x, by rw [h3, if_pos e]; rfl, rfl, e, ?_⟩
          intro j d hj hd
          cases j with
          | zero => omega
          | succ j => exact h4 d (List.mem_of_getElem? (by simpa using hd))
        · refine Or.inr ⟨by rw [h3, if_neg e], ?_⟩
          intro b hb
          simp only [List.cons_append, List.mem_cons] at hb
          rcases hb with rfl | hb
          · exact e
          · exact h4 b hb

theorem spnLoop_spec {m : Mem} {q : Nat} {ys : List Byte} (hy : CString m q ys) (xs : List Byte) :
    ∀ {p k fuel : Nat}, CString m p xs → xs.length < fuel →
    spnLoop m q p k fuel = .ret (k + (xs.takeWhile fun b => decide (b ∈ ys)).length) := by
  induction xs with
  | nil =>
    intro p k fuel h hf
    cases fuel with
    | zero => omega
    | succ fuel => simp [spnLoop, h.nil]
  | cons x xs ih =>
    intro p k fuel h hf
    cases fuel with
    | zero => omega
    | succ fuel =>
      obtain ⟨r, h1, h2⟩ := strchr_mem hy h.head.2
      simp only [spnLoop, h.head.1, Out.ret_bind']
      rw [if_pos h.head.2, h1]
      simp only [Out.ret_bind', h2]
      by_cases e : x ∈ ys
      · rw [if_pos (by simpa using e), ih h.tail (by simpa using hf)]
        simp only [List.takeWhile_cons, e, decide_true, if_true, List.length_cons]
        congr 1
        omega
      · rw [if_neg (by simpa using e)]
        simp [e]

theorem cspnLoop_spec {m : Mem} {q : Nat} {ys : List Byte} (hy : CString m q ys) (xs : List Byte) :
    ∀ {p k fuel : Nat}, CString m p xs → xs.length < fuel →
    cspnLoop m q p k fuel = .ret (k + (xs.takeWhile fun b => decide (b ∉ ys)).length) := by
  induction xs with
  | nil =>
    intro p k fuel h hf
    cases fuel with
    | zero => omega
    | succ fuel => simp [cspnLoop, h.nil]
  | cons x xs ih =>
    intro p k fuel h hf
    cases fuel with
    | zero => omega
    | succ fuel =>
      obtain ⟨r, h1, h2⟩ := strchr_mem hy h.head.2
      simp only [cspnLoop, h.head.1, Out.ret_bind']
      rw [if_pos h.head.2, h1]
      simp only [Out.ret_bind', h2]
      by_cases e : x ∈ ys
      · rw [if_pos (by simpa using e)]
        simp [e]
      · rw [if_neg (by simpa using e), ih h.tail (by simpa using hf)]
        simp only [List.takeWhile_cons, e, not_false_eq_true, decide_true, if_true, List.length_cons]
        congr 1
        omega

theorem pbrkLoop_spec {m : Mem} {q : Nat} {ys : List Byte} (hy : CString m q ys) (xs : List Byte) :
    ∀ {p fuel : Nat}, CString m p xs → xs.length < fuel →
    ∃ r, pbrkLoop m q p fuel = .ret r ∧ FirstAt r p xs (· ∈ ys) := by
  induction xs with
  | nil =>
    intro p fuel h hf
    cases fuel with
    | zero => omega
    | succ fuel => exact ⟨none, by simp [pbrkLoop, h.nil], Or.inr ⟨rfl, by simp⟩⟩
  | cons x xs ih =>
    intro p fuel h hf
    cases fuel with
    | zero => omega
    | succ fuel =>
      obtain ⟨r, h1, h2⟩ := strchr_mem hy h.head.2
      simp only [pbrkLoop, h.head.1, Out.ret_bind']
      rw [if_pos h.head.2, h1]
      simp only [Out.ret_bind', h2]
      by_cases e : x ∈ ys
      · exact ⟨some p, by simp [e], Or.inl ⟨0, x, rfl, rfl, e, by intro j d hj; omega⟩⟩
      · obtain ⟨r, h1, h2⟩ := ih h.tail (fuel := fuel) (by simpa using hf)
        refine ⟨r, by simpa [e] using h1, ?_⟩
        rcases h2 with ⟨i, b, h3, h4, h5, h6⟩ | ⟨h3, h4⟩
        · refine Or.inl ⟨i + 1, b, by rw [h3]; congr 1; omega, by simpa using h4, h5, ?_⟩
          intro j d hj hd
          cases j with
          | zero => simp at hd; subst hd; exact e
          | succ j => exact h6 j d (by omega) (by simpa using hd)
        · exact Or.inr ⟨h3, by simp only [List.mem_cons, forall_eq_or_imp]; exact ⟨e, h4⟩⟩

/-! ## strstr -/

/-- Comparing a needle with a string: the comparison stops at the latest at the terminator. -/
theorem memcmp_prefix {m : Mem} (ys : List Byte) : ∀ {p q : Nat} {xs : List Byte}, CString m p xs →
    Holds m q ys → 0#8 ∉ ys →
    ∃ r, lcMemcmp m p q ys.length = .ret r ∧ (r = 0 ↔ ys <+: xs) := by
  induction ys with
  | nil => intro p q xs _ _ _; exact ⟨0, rfl, by simp⟩
  | cons y ys ih =>
    intro p q xs h h' h0
    simp only [List.mem_cons, not_or] at h0
    simp only [List.length_cons, lcMemcmp, h'.load]
    cases xs with
    | nil =>
      refine ⟨byteDiff 0#8 y, ?_, ?_⟩
      · simp only [h.nil, Out.ret_bind']
        rw [if_pos h0.1]
      · rw [byteDiff_zero]
        exact ⟨fun e => absurd e h0.1, fun e => by simp at e⟩
    | cons x xs =>
      simp only [h.head.1, Out.ret_bind']
      by_cases e : x = y
      · subst e
        obtain ⟨r, h1, h2⟩ := ih h.tail h'.2 h0.2
        exact ⟨r, by simpa using h1, by rw [h2]; simp⟩
      · refine ⟨byteDiff x y, by rw [if_pos e], ?_⟩
        rw [byteDiff_zero]
        refine ⟨fun h => absurd h e, fun h => ?_⟩
        rw [List.cons_prefix_cons] at h
        exact h.1.symm

theorem strLoop_spec {m : Mem} {q : Nat} {ys : List Byte} (hy : CString m q ys) (xs : List Byte) :
    ∀ {p fuel : Nat}, CString m p xs → xs.length < fuel →
    ∃ r, strLoop m q ys.length p fuel = .ret r ∧
      ((∃ i, r = some (p + i) ∧ i < xs.length ∧ ys <+: xs.drop i ∧ ∀ j < i, ¬ ys <+: xs.drop j) ∨
        (r = none ∧ ∀ j < xs.length, ¬ ys <+: xs.drop j)) := by
  induction xs with
  | nil =>
    intro p fuel h hf
    cases fuel with
    | zero => omega
    | succ fuel => exact ⟨none, by simp [strLoop, h.nil], Or.inr ⟨rfl, by simp⟩⟩
  | cons x xs ih =>
    intro p fuel h hf
    cases fuel with
    | zero => omega
    | succ fuel =>
      obtain ⟨r, h1, h2⟩ := memcmp_prefix ys h ((holds_append _ _ _).1 hy.2).1 hy.1
      simp only [strLoop, h.head.1, Out.ret_bind']
      rw [if_pos h.head.2, h1]
      simp only [Out.ret_bind']
      by_cases e : r = 0
      · exact ⟨some p, by rw [if_pos e], Or.inl ⟨0, rfl, by simp, by simpa using h2.1 e, by
          intro j hj; omega⟩⟩
      · obtain ⟨r', h3, h4⟩ := ih h.tail (fuel := fuel) (by simpa using hf)
        refine ⟨r', by rw [if_neg e]; exact h3, ?_⟩
        have hn : ¬ ys <+: x :: xs := fun h => e (h2.2 h)
        rcases h4 with ⟨i, h5, h6, h7, h8⟩ | ⟨h5, h6⟩
        · refine Or.inl ⟨i + 1, by rw [h5]; congr 1; omega, by simpa using h6, by simpa using h7, ?_⟩
          intro j hj
          cases j with
          | zero => simpa using hn
          | succ j => simpa using h8 j (by omega)
        · refine Or.inr ⟨h5, ?_⟩
          intro j hj
          cases j with
          | zero => simpa using hn
          | succ j => simpa using h6 j (by simpa using hj)

theorem infix_drop {xs ys : List Byte} (h : ys <:+: xs) : ∃ i ≤ xs.length, ys <+: xs.drop i := by
  obtain ⟨s, t, rfl⟩ := h
  exact ⟨s.length, by simp, by simp⟩

/-! ## strtok -/

theorem pieces_ne_nil (ds xs : List Byte) : pieces ds xs ≠ [] := by
  cases xs with
  | nil => simp [pieces]
  | cons x xs =>
    unfold pieces
    split
    · simp
    · split <;> simp

theorem tokens_delim {ds xs : List Byte} {c : Byte} (h : c ∈ ds) :
    tokens ds (c :: xs) = tokens ds xs := by
  simp [tokens, pieces, h]

theorem tokens_dropWhile (ds xs : List Byte) :
    tokens ds (xs.dropWhile fun b => decide (b ∈ ds)) = tokens ds xs := by
  induction xs with
  | nil => rfl
  | cons x xs ih =>
    by_cases h : x ∈ ds
    · rw [List.dropWhile_cons_of_pos (by simpa using h), tokens_delim h, ih]
    · rw [List.dropWhile_cons_of_neg (by simpa using h)]

theorem pieces_free {ds a : List Byte} (h : ∀ b ∈ a, b ∉ ds) : pieces ds a = [a] := by
  induction a with
  | nil => rfl
  | cons x a ih =>
    simp only [List.mem_cons, forall_eq_or_imp] at h
    simp [pieces, h.1, ih h.2]

theorem pieces_cut {ds a r : List Byte} {c : Byte} (h : ∀ b ∈ a, b ∉ ds) (hc : c ∈ ds) :
    pieces ds (a ++ c :: r) = a :: pieces ds r := by
  induction a with
  | nil => simp [pieces, hc]
  | cons x a ih =>
    simp only [List.mem_cons, forall_eq_or_imp] at h
    simp [pieces, h.1, ih h.2]

theorem tokens_free {ds a : List Byte} (h : ∀ b ∈ a, b ∉ ds) (ha : a ≠ []) : tokens ds a = [a] := by
  simp [tokens, pieces_free h, ha]

theorem tokens_cut {ds a r : List Byte} {c : Byte} (h : ∀ b ∈ a, b ∉ ds) (hc : c ∈ ds) (ha : a ≠ []) :
    tokens ds (a ++ c :: r) = a :: tokens ds r := by
  simp [tokens, pieces_cut h hc, ha]

/-- What one call does, from a position with the rest `xs` of the string. -/
theorem tokFrom_spec {m : Mem} {p q : Nat} {xs ds : List Byte} (h : CString m p xs)
    (hd : CString m q ds) :
    (tokens ds xs = [] ∧ tokFrom m p q = .ret (none, none, m)) ∨
    (∃ (k : Nat) (a : List Byte), tokens ds xs = [a] ∧ k + a.length = xs.length ∧ a ≠ [] ∧
      CString m (p + k) a ∧ tokFrom m p q = .ret (some (p + k), none, m)) ∨
    (∃ (k : Nat) (a r : List Byte), tokens ds xs = a :: tokens ds r ∧ k + a.length + 1 + r.length = xs.length ∧
      a ≠ [] ∧ CString (m.set (p + k + a.length) (.byte 0#8)) (p + k) a ∧
      CString (m.set (p + k + a.length) (.byte 0#8)) (p + k + a.length + 1) r ∧
      tokFrom m p q = .ret (some (p + k), some (p + k + a.length + 1),
        m.set (p + k + a.length) (.byte 0#8))) := by
  have hle := h.le
  obtain ⟨k, hk⟩ : ∃ k, k = (xs.takeWhile fun b => decide (b ∈ ds)).length := ⟨_, rfl⟩
  obtain ⟨ys, hys⟩ : ∃ ys, ys = xs.dropWhile fun b => decide (b ∈ ds) := ⟨_, rfl⟩
  have hsplit : xs = (xs.takeWhile fun b => decide (b ∈ ds)) ++ ys := by
    rw [hys, List.takeWhile_append_dropWhile]
  have hlen : k + ys.length = xs.length := by
    have := congrArg List.length hsplit
    rw [List.length_append, ← hk] at this
    omega
  have h2 : CString m (p + k) ys := by
    have := CString.drop (xs := ys) (xs.takeWhile fun b => decide (b ∈ ds)) (p := p) (by
      rw [← hsplit]; exact h)
    rwa [← hk] at this
  obtain ⟨a, haeq⟩ : ∃ a, a = ys.takeWhile fun b => decide (b ∉ ds) := ⟨_, rfl⟩
  obtain ⟨zs, hzs⟩ : ∃ zs, zs = ys.dropWhile fun b => decide (b ∉ ds) := ⟨_, rfl⟩
  have hsplit2 : ys = a ++ zs := by rw [haeq, hzs, List.takeWhile_append_dropWhile]
  have hfree : ∀ b ∈ a, b ∉ ds := by
    intro b hb
    rw [haeq] at hb
    simpa using List.all_eq_true.1 List.all_takeWhile b hb
  have e1 : lcStrspn m p q = .ret k := by
    unfold lcStrspn
    rw [spnLoop_spec hd xs h (by omega), ← hk, Nat.zero_add]
  have e2 : lcStrcspn m (p + k) q = .ret a.length := by
    unfold lcStrcspn
    rw [cspnLoop_spec hd ys h2 (by omega), ← haeq, Nat.zero_add]
  have htok : tokens ds xs = tokens ds ys := by rw [hys, tokens_dropWhile]
  by_cases ha : a = []
  · left
    have hy : ys = [] := by
      cases hyc : ys with
      | nil => rfl
      | cons y yt =>
        have h3 : y ∉ ds := by
          have := List.head?_dropWhile_not (fun b => decide (b ∈ ds)) xs
          rw [← hys, hyc] at this
          simpa using this
        rw [haeq, hyc] at ha
        simp [h3] at ha
    refine ⟨by rw [htok, hy]; rfl, ?_⟩
    unfold tokFrom
    simp [e1, e2, ha]
  · right
    have hapos : 0 < a.length := List.length_pos_iff.2 ha
    cases hz : zs with
    | nil =>
      left
      rw [hz, List.append_nil] at hsplit2
      refine ⟨k, a, by rw [htok, hsplit2, tokens_free hfree ha], by rw [← hsplit2]; exact hlen, ha,
        by rw [← hsplit2]; exact h2, ?_⟩
      have e3 : ld m (p + k + a.length) = .ret 0#8 := by
        refine CString.nil (CString.drop a ?_)
        rw [List.append_nil, ← hsplit2]
        exact h2
      unfold tokFrom
      simp only [e1, e2, Out.ret_bind', e3]
      rw [if_neg (by omega)]
      simp
    | cons c r =>
      right
      rw [hz] at hsplit2
      have hc : c ∈ ds := by
        have := List.head?_dropWhile_not (fun b => decide (b ∉ ds)) ys
        rw [← hzs, hz] at this
        simpa using this
      have h3 : CString m (p + k + a.length) (c :: r) := CString.drop a (by rw [← hsplit2]; exact h2)
      have hl2 : ys.length = a.length + (r.length + 1) := by rw [hsplit2]; simp
      have h3o := h3.le
      simp only [List.length_cons] at h3o
      have h4 : m[p + k + a.length]? = some (.byte c) := h3.2.1
      refine ⟨k, a, r, by rw [htok, hsplit2, tokens_cut hfree hc ha], by omega, ha, ?_, ?_, ?_⟩
      · have h5 : Holds m (p + k) a := by
          have := h2.2
          rw [hsplit2, List.append_assoc, holds_append] at this
          exact this.1
        refine ⟨?_, (holds_append _ _ _).2 ⟨h5.set (by omega), set_same h4, trivial⟩⟩
        intro hm
        exact h2.1 (by rw [hsplit2]; simp [hm])
      · exact h3.tail.set (by omega)
      · unfold tokFrom
        simp only [e1, e2, Out.ret_bind', h3.head.1]
        rw [if_neg (by omega), if_pos h3.head.2, storeCell_ok _ ⟨_, h4, by simp⟩]
        rfl

/-! ## Whole functions -/

theorem holds_fits {m : Mem} {p : Nat} {xs : List Byte} (h : CString m p xs) : xs.length < m.length + 1 := by
  have := h.le; omega

theorem strcpy_spec {m : Mem} {d s : Nat} {xs : List Byte} (h : CString m s xs)
    (ho : Object m d (xs.length + 1)) (ha : Apart d (xs.length + 1) s (xs.length + 1)) :
    ∃ m', lcStrcpy m d s = .ret (d, m') ∧ SameOutside m m' d (xs.length + 1) ∧ CString m' d xs := by
  obtain ⟨m', e, h1, h2⟩ := copyStr_spec xs h ho ha (holds_fits h)
  exact ⟨m', by simp [lcStrcpy, e], h1, h2⟩

/-- Behind a string that is not touched, a second string makes the concatenation. -/
theorem cstring_join {m m' : Mem} {d : Nat} {xs ys : List Byte} (h : CString m d xs)
    (hs : SameOutside m m' (d + xs.length) (ys.length + 1)) (hy : CString m' (d + xs.length) ys) :
    CString m' d (xs ++ ys) := by
  refine ⟨?_, ?_⟩
  · intro hm
    rcases List.mem_append.1 hm with hm | hm
    · exact h.1 hm
    · exact hy.1 hm
  · rw [List.append_assoc, holds_append]
    exact ⟨((holds_append _ _ _).1 h.2).1.frame hs (Or.inr (by omega)), hy.2⟩

theorem strncmp_eq (m : Mem) (n : Nat) : ∀ p q, lcStrncmp m p q n = lcMemcmp m p q n := by
  induction n with
  | zero => intro p q; rfl
  | succ n ih => intro p q; simp only [lcStrncmp, lcMemcmp, ih]

theorem firstChars_nil (n : Nat) : firstChars [] (n + 1) = [0#8] := by simp [firstChars]

theorem firstChars_cons (x : Byte) (xs : List Byte) (n : Nat) :
    firstChars (x :: xs) (n + 1) = x :: firstChars xs n := by simp [firstChars]

theorem strncmp_spec {m : Mem} (n : Nat) : ∀ {p q : Nat} {xs ys : List Byte}, 0#8 ∉ xs → 0#8 ∉ ys →
    Holds m p (firstChars xs n) → Holds m q (firstChars ys n) → xs ≠ ys ∨ n ≤ xs.length + 1 →
    ∃ r, lcStrncmp m p q n = .ret r ∧ IsComparison r (firstChars xs n) (firstChars ys n) := by
  induction n with
  | zero =>
    intro p q xs ys _ _ _ _ _
    exact ⟨0, rfl, by simpa [firstChars] using isComparison_nil⟩
  | succ n ih =>
    intro p q xs ys hx hy h1 h2 hc
    cases xs with
    | nil =>
      rw [firstChars_nil] at h1 ⊢
      cases ys with
      | nil =>
        rw [firstChars_nil] at h2 ⊢
        have hn : n = 0 := by
          rcases hc with hc | hc
          · exact absurd rfl hc
          · simpa using hc
        subst hn
        refine ⟨0, ?_, isComparison_cons _ isComparison_nil⟩
        simp [lcStrncmp, h1.load, h2.load]
      | cons y ys =>
        rw [firstChars_cons] at h2 ⊢
        have hne : (0#8 : Byte) ≠ y := fun e => hy (by simp [e])
        exact ⟨_, by simp [lcStrncmp, h1.load, h2.load, hne], isComparison_diff hne _ _⟩
    | cons x xs =>
      rw [firstChars_cons] at h1 ⊢
      cases ys with
      | nil =>
        rw [firstChars_nil] at h2 ⊢
        have hne : x ≠ (0#8 : Byte) := fun e => hx (by simp [e])
        exact ⟨_, by simp [lcStrncmp, h1.load, h2.load, hne], isComparison_diff hne _ _⟩
      | cons y ys =>
        rw [firstChars_cons] at h2 ⊢
        by_cases hxy : x = y
        · subst hxy
          obtain ⟨r, e, hr⟩ := ih (p := p + 1) (q := q + 1) (xs := xs) (ys := ys)
            (fun h => hx (by simp [h])) (fun h => hy (by simp [h])) h1.2 h2.2 (by
              rcases hc with hc | hc
              · exact Or.inl fun e => hc (by rw [e])
              · right; simp at hc; omega)
          exact ⟨r, by simp [lcStrncmp, h1.load, h2.load, e], isComparison_cons _ hr⟩
        · exact ⟨_, by simp [lcStrncmp, h1.load, h2.load, hxy], isComparison_diff hxy _ _⟩

/-- Equal bytes are passed over. -/
theorem strncmp_skip {m : Mem} (xs : List Byte) : ∀ {p q n : Nat}, Holds m p xs → Holds m q xs →
    lcStrncmp m p q (xs.length + n) = lcStrncmp m (p + xs.length) (q + xs.length) n := by
  induction xs with
  | nil => intro p q n _ _; simp
  | cons x xs ih =>
    intro p q n h1 h2
    have e : (x :: xs).length + n = (xs.length + n) + 1 := by simp; omega
    rw [e, lcStrncmp, h1.load, h2.load]
    simp only [Out.ret_bind', ne_eq, not_true_eq_false, if_false]
    rw [ih h1.2 h2.2]
    congr 1 <;> simp <;> omega

/-! ## Sequences of calls of the tokenizer -/

theorem calls_end {q : Nat} (k : Nat) : ∀ {m : Mem},
    strtokCalls q m none (List.replicate k none) = .ret (List.replicate k none, m) := by
  induction k with
  | zero => intro m; rfl
  | succ k ih => intro m; simp [List.replicate_succ, strtokCalls, lcStrtok, ih]

theorem calls_spec {q : Nat} {ds : List Byte} (n : Nat) : ∀ {m : Mem} {p k : Nat} {xs : List Byte},
    xs.length ≤ n → CString m p xs → CString m q ds → Apart p xs.length q (ds.length + 1) →
    (tokens ds xs).length ≤ k →
    ∃ (ps : List Nat) (m' : Mem),
      strtokCalls q m (some p) (List.replicate k none) =
        .ret (ps.map some ++ List.replicate (k - (tokens ds xs).length) none, m') ∧
      ps.length = (tokens ds xs).length ∧ SameOutside m m' p xs.length ∧
      ∀ (i : Nat) (t : List Byte), (tokens ds xs)[i]? = some t →
        ∃ a, ps[i]? = some a ∧ CString m' a t := by
  induction n with
  | zero =>
    intro m p k xs hn h hd _ hk
    have hx : xs = [] := List.length_eq_zero_iff.1 (by omega)
    subst hx
    refine ⟨[], m, ?_, rfl, sameOutside_refl _ _ _, by simp [tokens, pieces]⟩
    cases k with
    | zero => rfl
    | succ k =>
      rcases tokFrom_spec h hd with ⟨_, e⟩ | ⟨j, a, h1, h2, h3, _⟩ | ⟨j, a, r, h1, h2, h3, _⟩
      · simp [List.replicate_succ, strtokCalls, lcStrtok, e, calls_end, tokens, pieces]
      · exact absurd h2 (by have := List.length_pos_iff.2 h3; simp; omega)
      · exact absurd h2 (by simp)
  | succ n ih =>
    intro m p k xs hn h hd ha hk
    rcases tokFrom_spec h hd with ⟨h1, e⟩ | ⟨j, a, h1, h2, h3, h4, e⟩ | ⟨j, a, r, h1, h2, h3, h4, h5, e⟩
    · refine ⟨[], m, ?_, by rw [h1]; rfl, sameOutside_refl _ _ _, by simp [h1]⟩
      cases k with
      | zero => simp [strtokCalls]
      | succ k => simp [List.replicate_succ, strtokCalls, lcStrtok, e, calls_end, h1]
    · refine ⟨[p + j], m, ?_, by rw [h1]; rfl, sameOutside_refl _ _ _, ?_⟩
      · rw [h1] at hk
        cases k with
        | zero => simp at hk
        | succ k => simp [List.replicate_succ, strtokCalls, lcStrtok, e, calls_end, h1]
      · intro i t ht
        rw [h1] at ht
        cases i with
        | zero =>
          simp at ht
          subst ht
          exact ⟨p + j, rfl, h4⟩
        | succ i => simp at ht
    · rw [h1] at hk
      cases k with
      | zero => simp at hk
      | succ k =>
        have hap := List.length_pos_iff.2 h3
        obtain ⟨ps, m', e', hl, hs, ht⟩ := ih (k := k) (xs := r) (by omega) h5
          (hd.set (by unfold Apart at ha; omega)) (by unfold Apart at *; omega) (by simpa using hk)
        refine ⟨(p + j) :: ps, m', ?_, by simp [h1, hl], ?_, ?_⟩
        · simp [List.replicate_succ, strtokCalls, lcStrtok, e, e', h1]
        · exact ((sameOutside_set (.byte 0#8)).mono (by omega) (by omega)).trans
            (hs.mono (by omega) (by omega))
        · intro i t hi
          rw [h1] at hi
          cases i with
          | zero =>
            simp at hi
            subst hi
            exact ⟨p + j, rfl, h4.frame hs (Or.inr (by omega))⟩
          | succ i => simpa using ht i t (by simpa using hi)

/-- The length of `takeWhile` is the length of the longest prefix that satisfies the predicate. -/
theorem takeWhile_span (P : Byte → Prop) [DecidablePred P] (xs : List Byte) :
    (xs.takeWhile fun b => decide (P b)).length ≤ xs.length ∧
    (∀ b ∈ xs.take (xs.takeWhile fun b => decide (P b)).length, P b) ∧
    ∀ b, xs[(xs.takeWhile fun b => decide (P b)).length]? = some b → ¬ P b := by
  induction xs with
  | nil => simp
  | cons x xs ih =>
    by_cases h : P x
    · simp only [List.takeWhile_cons, h, decide_true, if_true, List.length_cons]
      refine ⟨by omega, ?_, ?_⟩
      · intro b hb
        rw [List.take_succ_cons, List.mem_cons] at hb
        rcases hb with hb | hb
        · rw [hb]; exact h
        · exact ih.2.1 b hb
      · intro b hb
        exact ih.2.2 b (by simpa using hb)
    · simp only [List.takeWhile_cons, h, decide_false]
      refine ⟨by simp, by simp, ?_⟩
      intro b hb
      have : x = b := by simpa using hb
      rw [← this]; exact h

end Zy
