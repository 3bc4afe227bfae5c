import Verif.Model.TestSuite
import Verif.Lemmas.VectorEach
import Verif.Lemmas.VectorDtor
import Verif.Lemmas.Examples
import Verif.Props.Vector
import Verif.Props.Macros

/-!
# Lemmas about the tests of the library
-/

namespace Zy

open Spec

variable {α : Type}

/-- The vector `s` holds `es` and has the capacity `c`. -/
def At (P : Params) (s : VS α) (es : List (Cell α)) (c : Nat) : Prop :=
  ∃ d b slack, Rep P s ⟨es, c, d⟩ b slack

theorem At.size {P : Params} {s : VS α} {es : List (Cell α)} {c : Nat} (h : At P s es c) : s.v.size = es.length := by
  obtain ⟨d, b, sl, R⟩ := h; exact R.size

theorem At.cap {P : Params} {s : VS α} {es : List (Cell α)} {c : Nat} (h : At P s es c) : s.v.cap = c := by
  obtain ⟨d, b, sl, R⟩ := h; exact R.cap

theorem At.growth {P : Params} {s : VS α} {es : List (Cell α)} {c : Nat} (h : At P s es c) :
    s.v.growth = P.growth := by
  obtain ⟨d, b, sl, R⟩ := h; exact R.growth

theorem At.shrink {P : Params} {s : VS α} {es : List (Cell α)} {c : Nat} (h : At P s es c) :
    s.v.shrink = P.thr := by
  obtain ⟨d, b, sl, R⟩ := h; exact R.shrink

/-- One call, in the words of the list. -/
theorem At.op {P : Params} {s : VS α} {es : List (Cell α)} {c : Nat} (h : At P s es c) (op : VOp α)
    (hd : ∀ d, InDomain P ⟨es, c, d⟩ op) :
    ∃ d junk s', junk.length = junkLen ⟨es, c, d⟩ op ∧
      vecOp s op = .ret ((step P junk ⟨es, c, d⟩ op).1, s') ∧
      At P s' (step P junk ⟨es, c, d⟩ op).2.elems (step P junk ⟨es, c, d⟩ op).2.cap := by
  obtain ⟨d, b, sl, R⟩ := h
  obtain ⟨junk, st, s', a', b', sl', hj, hs, ho, R'⟩ := op_ok R op (hd d)
  refine ⟨d, junk, s', hj, by rw [hs]; exact ho, ?_⟩
  rw [hs]
  exact ⟨a'.dead, b', sl', R'⟩

theorem At.macro {P : Params} {s : VS α} {es : List (Cell α)} {c : Nat} (h : At P s es c) {i : Nat} {x : Cell α}
    (hx : es[i]? = some x) : vecGetMacro s i = .ret x := by
  obtain ⟨d, b, sl, R⟩ := h; exact R.getMacro hx

theorem At.deref {P : Params} {s : VS α} {es : List (Cell α)} {c : Nat} (h : At P s es c) {i : Nat} {x : Cell α}
    (hx : es[i]? = some x) : vecDeref s i = .ret x := by
  obtain ⟨d, b, sl, R⟩ := h
  obtain ⟨hi, _⟩ := List.getElem?_eq_some_iff.1 hx
  have h2 : b.cells[i]? = some x := by rw [R.cells, List.getElem?_append_left hi]; exact hx
  simp [vecDeref, R.data, withData, h2]

theorem At.bufferAt {P : Params} {s : VS α} {es : List (Cell α)} {c : Nat} (h : At P s es c) {i : Nat} {x : Cell α}
    (hx : es[i]? = some x) : bufferAt s i = .ret x := by
  obtain ⟨d, b, sl, R⟩ := h
  obtain ⟨hi, _⟩ := List.getElem?_eq_some_iff.1 hx
  have h2 : b.cells[i]? = some x := by rw [R.cells, List.getElem?_append_left hi]; exact hx
  simp [Zy.bufferAt, R.data, withData, h2]

/-- Writing through a pointer into the storage. -/
theorem At.write {P : Params} {s : VS α} {es : List (Cell α)} {c : Nat} (h : At P s es c) {i : Nat}
    (hi : i < es.length) (x : Cell α) :
    ∃ blk s', (withData s.v.data fun b => .ret b.id) = .ret blk ∧
      updateThrough (some ⟨blk, i⟩) (fun _ => x) s = .ret s' ∧ At P s' (es.set i x) c := by
  obtain ⟨d, b, sl, R⟩ := h
  obtain ⟨s', b', e, R'⟩ := R.update (List.getElem?_eq_getElem hi) (fun _ => x)
  exact ⟨b.id, s', by rw [R.data]; rfl, e, d, b', sl, R'⟩

theorem At.destroy {P : Params} {s : VS α} {es : List (Cell α)} {c : Nat} (h : At P s es c) :
    ∃ s', vecDestroy s = .ret (stSuccess, s') := by
  obtain ⟨d, b, sl, R⟩ := h
  obtain ⟨s', e, _⟩ := destroy_rep R
  exact ⟨s', e⟩

theorem Reach.at {P : Params} {s : VS α} (h : Reach P s) : At P s (absOf s).elems (absOf s).cap := by
  obtain ⟨b, sl, R⟩ := h.rep
  exact ⟨_, b, sl, R⟩

theorem At.abs {P : Params} {s : VS α} {es : List (Cell α)} {c : Nat} (h : At P s es c) :
    (absOf s).elems = es ∧ (absOf s).cap = c := by
  obtain ⟨d, b, sl, R⟩ := h
  rw [R.abs_eq]; exact ⟨rfl, rfl⟩

theorem At.contents {P : Params} {s : VS α} {es : List (Cell α)} {c : Nat} (h : At P s es c) :
    contents s = .ret es := by
  obtain ⟨d, b, sl, R⟩ := h
  rw [R.contents]

theorem At.push {P : Params} {s : VS α} {es : List (Cell α)} {c c' : Nat} (h : At P s es c) (x : Cell α)
    (hf : Fits P (es.length + 1)) (hr : Spec.room P c (es.length + 1) = some c') :
    ∃ s', vecPushBack s (.ext [x]) = .ret (stSuccess, s') ∧ At P s' (es ++ [x]) c' := by
  obtain ⟨d, junk, s', _, e, h'⟩ := h.op (.push x) (fun _ => hf)
  simp only [step, hr] at e h'
  exact ⟨s', e, h'⟩

theorem checkAll_eq {f : Nat → Out Bool} {g : Nat → Bool} : ∀ {n : Nat}, (∀ i, i < n → f i = .ret (g i)) →
    checkAll f n = .ret ((List.range n).all g)
  | 0, _ => rfl
  | n + 1, h => by
    rw [checkAll, checkAll_eq (fun i hi => h i (by omega)), h n (by omega)]
    simp [Out.ret_bind', List.range_succ]

theorem checkAll_true {f : Nat → Out Bool} {n : Nat} (h : ∀ i, i < n → f i = .ret true) :
    checkAll f n = .ret true := by
  rw [checkAll_eq (g := fun _ => true) h]; simp

/-! ## The fixtures -/

/-- The parameters of the vectors in the fixtures. -/
def testP (fixed : Bool) : Params := if fixed then ⟨none, 1, 0, 8, false⟩ else ⟨some 0, 2, 4, 8, false⟩

/-- The elements of a filled vector. -/
def numbers (n : Nat) : List (Cell TU64) := (List.range n).map tnum

@[simp] theorem numbers_length (n : Nat) : (numbers n).length = n := by simp [numbers]

theorem numbers_get {n i : Nat} (h : i < n) : (numbers n)[i]? = some (tnum i) := by
  simp [numbers, h]

theorem numbers_succ (n : Nat) : numbers (n + 1) = numbers n ++ [tnum n] := by
  simp [numbers, List.range_succ]

theorem testP_esz (fixed : Bool) : (testP fixed).esz = 8 := by cases fixed <;> rfl

theorem testP_dtor (fixed : Bool) : (testP fixed).dtor = false := by cases fixed <;> rfl

theorem testP_fits {fixed : Bool} {n : Nat} : Fits (testP fixed) n ↔ n * 2040 < 18446744073709551616 := by
  unfold Fits; rw [testP_esz, Nat.mul_assoc]

theorem testP_fits_le {fixed : Bool} {n m : Nat} (h : m ≤ n) (hn : n * 2040 < 18446744073709551616) :
    Fits (testP fixed) m :=
  testP_fits.2 (Nat.lt_of_le_of_lt (Nat.mul_le_mul_right _ h) hn)

theorem setUp_ok (fixed : Bool) {w : World TU64} (hw : Fresh w) (hr : ∀ k, w.oracle k = stSuccess)
    {buf : Block TU64} {n : Nat} (h1 : 1 ≤ n) (hb : n ≤ buf.cells.length) (hn : n * 2040 < 18446744073709551616) :
    ∃ s, testSetUp fixed w buf n = (true, some s) ∧ Reach (testP fixed) s ∧ At (testP fixed) s [] n := by
  have hr' : Reliable w := fun k => by rw [hr]; exact failed_success
  cases fixed with
  | true =>
    have e : vecInitBuffer (testP true).esz (some buf) n (testP true).dtor =
        (stSuccess, some ⟨none, 1, 0, 0, n, 8, false, some buf⟩) := by
      unfold vecInitBuffer
      simp only [testP, if_true]
      rw [if_neg (by omega)]
    have hR : Reach (testP true) ⟨⟨none, 1, 0, 0, n, 8, false, some buf⟩, w⟩ :=
      Reach.initBuffer hw hr' ⟨rfl, rfl, rfl⟩ hb (by show 8 < _; omega) e
    have R := (initBuffer_rep hw hr' ⟨rfl, rfl, rfl⟩ hb (by show 8 < _; omega) e).2.2
    refine ⟨_, ?_, hR, ⟨_, _, _, R⟩⟩
    unfold testSetUp
    rw [if_pos rfl, show vecInitBuffer 8 (some buf) n false = _ from e]
    rfl
  | false =>
    have hc : max 1 n * (testP false).esz < 18446744073709551616 := by
      rw [testP_esz, Nat.max_eq_right h1]; omega
    have hmax : max 1 n = n := Nat.max_eq_right h1
    obtain ⟨v, w', e⟩ : ∃ v w', vecInitEx w (testP false).esz n (testP false).dtor (some 0) (testP false).growth
        (testP false).thr = (stSuccess, some v, w') := by
      refine ⟨_, _, Prod.ext ?_ rfl⟩
      simp only [vecInitEx]
      rw [if_neg (by decide)]
      simp [allocate, hr, failed_success]
    have hR : Reach (testP false) ⟨v, w'⟩ := Reach.init hw hr' ⟨rfl, by decide, by decide⟩ hc e
    obtain ⟨_, b, sl, R⟩ := init_rep hw hr' ⟨rfl, by decide, by decide⟩ hc e
    rw [hmax] at R
    refine ⟨_, ?_, hR, ⟨_, _, _, R⟩⟩
    unfold testSetUp vecInit
    have e' : vecInitEx w 8 n false (some 0) 2 4 = (stSuccess, some v, w') := by
      simpa only [testP, Bool.false_eq_true, if_false] using e
    rw [if_neg (by decide), e']
    rfl

theorem testFill_ok {fixed : Bool} (k : Nat) : ∀ {s : VS TU64} {i n : Nat}, Reach (testP fixed) s →
    At (testP fixed) s (numbers i) n → i + k ≤ n → n * 2040 < 18446744073709551616 →
    ∃ s', testFill s i k = .ret (true, s') ∧ Reach (testP fixed) s' ∧ At (testP fixed) s' (numbers (i + k)) n := by
  induction k with
  | zero => intro s i n h ha _ _; exact ⟨s, rfl, h, ha⟩
  | succ k ih =>
    intro s i n h ha hk hn
    have hf : Fits (testP fixed) ((numbers i).length + 1) := by
      rw [numbers_length]; exact testP_fits_le (by omega) hn
    obtain ⟨s1, e1, h1⟩ := ha.push (c' := n) (tnum i) hf (by unfold Spec.room; rw [if_pos (by simp; omega)])
    have hd : InDomain (testP fixed) (absOf s) (.push (tnum i)) := by
      show Fits _ _; rw [ha.abs.1]; exact hf
    rw [← numbers_succ] at h1
    obtain ⟨s2, e2, r2, h2⟩ := ih (Reach.step h hd e1) h1 (by omega) hn
    refine ⟨s2, ?_, r2, by rw [show i + (k + 1) = i + 1 + k by omega]; exact h2⟩
    rw [testFill, e1, Out.ret_bind', e2, Out.ret_bind']
    rfl

/-- A test of a fixture. -/
theorem fixture_ok (filled fixed : Bool) {w : World TU64} (hw : Fresh w) (hr : ∀ k, w.oracle k = stSuccess)
    {buf : Block TU64} {n : Nat} (h1 : 1 ≤ n) (hb : n ≤ buf.cells.length) (hn : n * 2040 < 18446744073709551616)
    {body : VS TU64 → Out (Bool × VS TU64)} {ok : Bool}
    (H : ∀ s, Reach (testP fixed) s → At (testP fixed) s (if filled then numbers n else []) n →
      ∃ s' es c, body s = .ret (ok, s') ∧ At (testP fixed) s' es c) :
    withFixture filled fixed w buf n body = .ret ok := by
  obtain ⟨s, e, h, ha⟩ := setUp_ok fixed hw hr h1 hb hn
  unfold withFixture
  rw [e]
  dsimp only
  obtain ⟨s1, e1, r1, a1⟩ : ∃ s1, (if filled then testFill s 0 n else .ret (true, s)) = .ret (true, s1) ∧
      Reach (testP fixed) s1 ∧ At (testP fixed) s1 (if filled then numbers n else []) n := by
    cases filled with
    | false => exact ⟨s, rfl, h, ha⟩
    | true =>
      obtain ⟨s1, e1, r1, a1⟩ := testFill_ok n (i := 0) h ha (by omega) hn
      rw [Nat.zero_add] at a1
      exact ⟨s1, e1, r1, a1⟩
  obtain ⟨s2, es, c, e2, a2⟩ := H s1 r1 a1
  obtain ⟨s3, e3⟩ := a2.destroy
  rw [e1, Out.ret_bind', e2, Out.ret_bind', e3, Out.ret_bind']
  simp

/-! ## The bodies of the tests -/

theorem elementAccess_ok {fixed : Bool} {s : VS TU64} {n : Nat} (h1 : 1 ≤ n) (ha : At (testP fixed) s (numbers n) n)
    (x y : TU64) :
    ∃ s' es c, testElementAccess fixed x y s = .ret (true, s') ∧ At (testP fixed) s' es c := by
  obtain ⟨d, j, s1, _, e1, a1⟩ := ha.op (.set n (some x)) (fun _ => trivial)
  have hnone : (numbers n)[n]? = none := by simp
  simp only [step, hnone, vecOp] at e1 a1
  obtain ⟨d, j, s2, _, e2, a2⟩ := a1.op (.set (n - 1) (some x)) (fun _ => trivial)
  simp only [step, numbers_get (show n - 1 < n by omega), vecOp] at e2 a2
  obtain ⟨blk, s3, eb, e3, a3⟩ := a2.write (i := n - 1) (by simp; omega) (some y)
  have z0 : s.v.size = n := by rw [ha.size]; simp
  have z1 : s1.v.size = n := by rw [a1.size]; simp
  have z2 : s2.v.size = n := by rw [a2.size]; simp
  have z3 : s3.v.size = n := by rw [a3.size]; simp
  have g2 : ((numbers n).set (n - 1) (some x))[n - 1]? = some (some x) := by
    rw [List.getElem?_set_self (by simp; omega)]
  have g3 : (((numbers n).set (n - 1) (some x)).set (n - 1) (some y))[n - 1]? = some (some y) := by
    rw [List.getElem?_set_self (by simp; omega)]
  refine ⟨s3, _, _, ?_, a3⟩
  have hp : vecGetPointer s2 (n - 1) = (stSuccess, some (n - 1)) := by
    unfold vecGetPointer; rw [if_neg (by omega)]
  have hq : vecGetPointer s2 n = (stOutOfRange, none) := by
    unfold vecGetPointer; rw [if_pos (by omega)]
  unfold testElementAccess
  rw [z0, e1, Out.ret_bind', z1, e2]
  simp only [Out.ret_bind', z2]
  rw [a2.macro g2]
  simp only [Out.ret_bind', eb, hp, hq, Option.getD_some, Option.map_some]
  rw [a2.deref g2]
  simp only [Out.ret_bind']
  rw [e3]
  simp only [Out.ret_bind', z3]
  rw [a3.macro g3, Out.ret_bind', a3.bufferAt g3, Out.ret_bind']
  simp

theorem pushPop_ok {fixed : Bool} {s : VS TU64} {n : Nat} (h1 : 1 ≤ n) (ha : At (testP fixed) s (numbers n) n)
    (hn : (n + 1) * 2040 < 18446744073709551616) (x : TU64) :
    ∃ s' es c, testPushPop fixed x s = .ret (true, s') ∧ At (testP fixed) s' es c := by
  have z0 : s.v.size = n := by rw [ha.size]; simp
  cases fixed with
  | false =>
    obtain ⟨s1, e1, a1⟩ := ha.push (some x) (c' := (n + 1) * 2) (testP_fits_le (n := n + 1) (by simp) hn)
      (by unfold Spec.room; rw [if_neg (by simp)]; simp [testP])
    obtain ⟨d, j, s2, _, e2, a2⟩ := a1.op .pop (fun _ => trivial)
    have hne : ¬ numbers n ++ [some x] = [] := by simp
    simp only [step, hne, if_false, vecOp] at e2 a2
    have z1 : s1.v.size = n + 1 := by rw [a1.size]; simp
    have z2 : s2.v.size = n := by rw [a2.size]; simp
    have g1 : (numbers n ++ [some x])[n]? = some (some x) := by
      rw [List.getElem?_append_right (by simp)]; simp
    refine ⟨s2, _, _, ?_, a2⟩
    unfold testPushPop
    rw [if_pos (show (!false) = true from rfl), e1]
    simp only [Out.ret_bind', z0]
    rw [a1.macro g1, Out.ret_bind', e2, Out.ret_bind']
    simp [z1, z2]
  | true =>
    obtain ⟨d, j, s1, _, e1, a1⟩ := ha.op (.push (some x)) (fun _ => testP_fits_le (n := n + 1) (by simp) hn)
    have hr : Spec.room (testP true) n ((numbers n).length + 1) = none := by
      unfold Spec.room; rw [if_neg (by simp)]; simp [testP]
    simp only [step, hr, vecOp] at e1 a1
    obtain ⟨d, j, s2, _, e2, a2⟩ := a1.op .pop (fun _ => trivial)
    have hne : ¬ numbers n = [] := by intro h; have := numbers_length n; rw [h] at this; simp at this; omega
    simp only [step, hne, if_false, vecOp] at e2 a2
    have ht : trim (testP true) n ((numbers n).length - 1) = n := by unfold trim; rw [if_neg (by simp [testP])]
    rw [ht] at a2
    have hl : (numbers n).dropLast.length + 1 = n := by simp; omega
    obtain ⟨s3, e3, a3⟩ := a2.push (some x) (c' := n)
      (testP_fits_le (n := n + 1) (by omega) hn)
      (by unfold Spec.room; rw [if_pos (by omega)])
    have z1 : s1.v.size = n := by rw [a1.size]; simp
    have z2 : s2.v.size = n - 1 := by rw [a2.size]; simp
    have z3 : s3.v.size = n := by rw [a3.size]; simp; omega
    have g1 : ((numbers n).dropLast ++ [some x])[n - 1]? = some (some x) := by
      rw [List.getElem?_append_right (by simp)]; simp
    refine ⟨s3, _, _, ?_, a3⟩
    unfold testPushPop
    rw [if_neg (by simp), e1]
    simp only [Out.ret_bind', z0]
    rw [e2]
    simp only [Out.ret_bind']
    rw [e3]
    simp only [Out.ret_bind']
    rw [a3.macro g1, Out.ret_bind']
    simp [z1, z2, z3]

theorem room_testP {fixed : Bool} {c need : Nat} (h : fixed = true → need ≤ c) :
    ∃ c', Spec.room (testP fixed) c need = some c' ∧ (fixed = true → c' = c) := by
  unfold Spec.room
  by_cases hc : need ≤ c
  · exact ⟨c, by rw [if_pos hc], fun _ => rfl⟩
  · cases fixed with
    | true => exact absurd (h rfl) hc
    | false => exact ⟨need * 2, by rw [if_neg hc]; rfl, by simp⟩

theorem trim_fixed {c k : Nat} : trim (testP true) c k = c := by unfold trim; rw [if_neg (by simp [testP])]

theorem insertRest_ok {fixed : Bool} {s : VS TU64} {m c : Nat} (ha : At (testP fixed) s (numbers m) c)
    {xs : List TU64} (hx : xs ≠ []) (hn : (m + xs.length) * 2040 < 18446744073709551616)
    (hr : fixed = true → m + xs.length ≤ c) :
    ∃ s' es c, testInsertRest xs s = .ret (true, s') ∧ At (testP fixed) s' es c := by
  have z0 : s.v.size = m := by rw [ha.size]; simp
  obtain ⟨c', hc', _⟩ := room_testP hr
  obtain ⟨d, j, s1, _, e1, a1⟩ := ha.op (.insertRange (m / 2) (xs.map some))
    (fun _ => testP_fits_le (n := m + xs.length) (by simp) hn)
  have h1 : ¬ xs.map some = [] := by simpa using hx
  have h2 : ¬ m / 2 > (numbers m).length := by rw [numbers_length]; omega
  have h3 : (numbers m).length + (xs.map some).length = m + xs.length := by simp
  simp only [step, h1, h2, h3, hc', if_false, vecOp] at e1 a1
  rw [List.length_map] at e1
  have z1 : s1.v.size = m + xs.length := by
    rw [a1.size]; simp only [List.length_append, List.length_take, List.length_drop, numbers_length, List.length_map]
    omega
  refine ⟨s1, _, _, ?_, a1⟩
  unfold testInsertRest
  simp only [z0]
  rw [e1]
  simp only [Out.ret_bind', z1]
  rw [checkAll_true]
  · simp
  intro i hi
  by_cases hlt : i < m / 2
  · have g : (List.take (m / 2) (numbers m) ++ xs.map some ++ List.drop (m / 2) (numbers m))[i]? =
        some (tnum i) := by
      rw [List.append_assoc, List.getElem?_append_left (by simp; omega), List.getElem?_take, if_pos hlt,
        numbers_get (by omega)]
    rw [a1.macro g, Out.ret_bind', if_neg (by omega), if_pos hlt]
    simp
  · by_cases hin : i < m / 2 + xs.length
    · have g : (List.take (m / 2) (numbers m) ++ xs.map some ++ List.drop (m / 2) (numbers m))[i]? =
          some xs[i - m / 2]? := by
        have hl : (List.take (m / 2) (numbers m)).length = m / 2 := by simp; omega
        rw [List.getElem?_append_left (by simp; omega), List.getElem?_append_right (by omega), hl, List.getElem?_map,
          List.getElem?_eq_getElem (by omega)]
        rfl
      rw [a1.macro g, Out.ret_bind', if_pos ⟨by omega, hin⟩]
      simp
    · have g : (List.take (m / 2) (numbers m) ++ xs.map some ++ List.drop (m / 2) (numbers m))[i]? =
          some (tnum (i - xs.length)) := by
        have hl : (List.take (m / 2) (numbers m) ++ xs.map some).length = m / 2 + xs.length := by simp; omega
        rw [List.getElem?_append_right (by omega), hl, List.getElem?_drop, numbers_get (by omega)]
        congr 2
        omega
      rw [a1.macro g, Out.ret_bind', if_neg (by omega), if_neg hlt]
      simp

theorem numbers_take {n m : Nat} (h : m ≤ n) : (numbers n).take m = numbers m := by
  unfold numbers
  rw [← List.map_take, List.take_range, Nat.min_eq_left h]

theorem insert_test_ok {fixed : Bool} {s : VS TU64} {n : Nat} (ha : At (testP fixed) s (numbers n) n)
    {xs : List TU64} (hx : xs ≠ []) (hn : (n + xs.length) * 2040 < 18446744073709551616) (hl : xs.length ≤ n) :
    ∃ s' es c, testInsert fixed xs s = .ret (true, s') ∧ At (testP fixed) s' es c := by
  have z0 : s.v.size = n := by rw [ha.size]; simp
  have hpos : 0 < xs.length := List.length_pos_iff.2 hx
  cases fixed with
  | false =>
    unfold testInsert
    rw [if_neg (by simp)]
    exact insertRest_ok ha hx hn (by simp)
  | true =>
    obtain ⟨d, j, s1, _, e1, a1⟩ := ha.op (.insertRange (n / 2) (xs.map some))
      (fun _ => testP_fits_le (n := n + xs.length) (by simp) hn)
    have h1 : ¬ xs.map some = [] := by simpa using hx
    have h2 : ¬ n / 2 > (numbers n).length := by rw [numbers_length]; omega
    have h3 : (numbers n).length + (xs.map some).length = n + xs.length := by simp
    have h4 : Spec.room (testP true) n (n + xs.length) = none := by
      unfold Spec.room; rw [if_neg (by omega)]; rfl
    simp only [step, h1, h2, h3, h4, if_false, vecOp] at e1 a1
    rw [List.length_map] at e1
    obtain ⟨d, j, s2, _, e2, a2⟩ := a1.op (.resize (n - xs.length) none)
      (fun _ => testP_fits_le (n := n + xs.length) (by omega) hn)
    have h5 : ¬ n - xs.length = (numbers n).length := by rw [numbers_length]; omega
    have h6 : Spec.room (testP true) n (n - xs.length) = some n := by
      unfold Spec.room; rw [if_pos (by omega)]
    have h7 : n - xs.length ≤ (numbers n).length := by rw [numbers_length]; omega
    simp only [step, h5, h6, h7, if_false, if_true, vecOp, trim_fixed, initSrc, numbers_take (Nat.sub_le n xs.length)]
      at e2 a2
    obtain ⟨s3, es, c, e3, a3⟩ := insertRest_ok a2 hx
      (Nat.lt_of_le_of_lt (Nat.mul_le_mul_right _ (by omega)) hn) (by omega)
    have z2 : s2.v.size = n - xs.length := by rw [a2.size]; simp
    refine ⟨s3, es, c, ?_, a3⟩
    unfold testInsert vecResize
    rw [if_pos rfl, z0, e1, Out.ret_bind', e2, Out.ret_bind', e3, Out.ret_bind', z2]
    simp

theorem tnum_inj {i j : Nat} (hi : i < 18446744073709551616) (hj : j < 18446744073709551616) :
    tnum i = tnum j ↔ i = j := by
  constructor
  · intro h
    have h' : BitVec.ofNat 64 i = BitVec.ofNat 64 j := Option.some.inj h
    have h'' := congrArg BitVec.toNat h'
    rw [BitVec.toNat_ofNat, BitVec.toNat_ofNat, Nat.mod_eq_of_lt hi, Nat.mod_eq_of_lt hj] at h''
    exact h''
  · intro h; rw [h]

theorem delete_test_ok {fixed : Bool} {s : VS TU64} {n : Nat} (h1 : 1 ≤ n) (ha : At (testP fixed) s (numbers n) n)
    (hn : n * 2040 < 18446744073709551616) :
    ∃ s' es c, testDelete s = .ret (decide (4 ∣ n), s') ∧ At (testP fixed) s' es c := by
  have z0 : s.v.size = n := by rw [ha.size]; simp
  have h64 : n + 1 < 18446744073709551616 := by omega
  obtain ⟨d, j, s1, _, e1, a1⟩ := ha.op (.deleteRange n 1) (fun _ => h64)
  have k1 : n + 1 > (numbers n).length := by simp
  simp only [step, k1, if_true, Nat.one_ne_zero, if_false, vecOp] at e1 a1
  have z1 : s1.v.size = n := by rw [a1.size]; simp
  obtain ⟨d, j, s2, _, e2, a2⟩ := a1.op (.deleteRange 1 n) (fun _ => by show 1 + n < _; omega)
  have k2 : 1 + n > (numbers n).length := by rw [numbers_length]; omega
  have k3 : ¬ n = 0 := by omega
  simp only [step, k2, k3, if_true, if_false, vecOp] at e2 a2
  have z2 : s2.v.size = n := by rw [a2.size]; simp
  obtain ⟨d, j, s3, _, e3, a3⟩ := a2.op (.deleteRange (n / 2) (n / 2 / 2)) (fun _ => by show n / 2 + n / 2 / 2 < _; omega)
  simp only [vecOp] at e3
  unfold testDelete
  rw [z0, e1]
  simp only [Out.ret_bind', z1]
  rw [e2]
  simp only [Out.ret_bind', z2]
  rw [e3]
  simp only [Out.ret_bind']
  by_cases hc : n / 2 / 2 = 0
  · simp only [step, hc, if_true] at a3 ⊢
    have z3 : s3.v.size = n := by rw [a3.size]; simp
    rw [z3, checkAll_eq (g := fun i => if n / 2 ≤ i ∧ i < n / 2 + 0 then tnum i == tnum (i + 0) else
      if i < n / 2 then tnum i == tnum i else tnum i == tnum (i - 0)) fun i hi => by
        rw [a3.macro (numbers_get hi), Out.ret_bind']]
    refine ⟨s3, _, _, ?_, a3⟩
    have h4 : ¬ 4 ∣ n := by omega
    rw [Out.ret_bind', decide_eq_false h4]
    have : (stInvalidArgument == stSuccess) = false := by decide
    simp [this]
  · have k4 : ¬ n / 2 + n / 2 / 2 > (numbers n).length := by rw [numbers_length]; omega
    simp only [step, hc, k4, if_false] at a3 ⊢
    have z3 : s3.v.size = n - n / 2 / 2 := by
      rw [a3.size]; simp only [List.length_append, List.length_take, List.length_drop, numbers_length]; omega
    have g : ∀ i, i < n - n / 2 / 2 → (List.take (n / 2) (numbers n) ++ List.drop (n / 2 + n / 2 / 2) (numbers n))[i]? =
        some (tnum (if i < n / 2 then i else i + n / 2 / 2)) := by
      intro i hi
      by_cases hlt : i < n / 2
      · rw [if_pos hlt, List.getElem?_append_left (by simp; omega), List.getElem?_take, if_pos hlt,
          numbers_get (by omega)]
      · have hl : (List.take (n / 2) (numbers n)).length = n / 2 := by simp; omega
        rw [if_neg hlt, List.getElem?_append_right (by omega), hl, List.getElem?_drop, numbers_get (by omega)]
        congr 2
        omega
    rw [z3, checkAll_eq (g := fun i => decide (i < n / 2 + n / 2 / 2)) fun i hi => by
      rw [a3.macro (g i hi), Out.ret_bind']
      by_cases hlt : i < n / 2
      · rw [if_neg (by omega), if_pos hlt, if_pos hlt, decide_eq_true (by omega)]; simp
      · rw [if_neg hlt, if_neg hlt]
        by_cases hin : i < n / 2 + n / 2 / 2
        · rw [if_pos ⟨by omega, hin⟩, decide_eq_true hin]; simp
        · rw [if_neg (by omega), decide_eq_false hin]
          have : ¬ tnum (i + n / 2 / 2) = tnum (i - n / 2 / 2) := by
            rw [tnum_inj (by omega) (by omega)]; omega
          simpa using this]
    refine ⟨s3, _, _, ?_, a3⟩
    rw [Out.ret_bind']
    by_cases h4 : 4 ∣ n
    · rw [decide_eq_true h4]
      have : (List.range (n - n / 2 / 2)).all (fun i => decide (i < n / 2 + n / 2 / 2)) = true := by
        rw [List.all_eq_true]
        intro i hi
        rw [List.mem_range] at hi
        exact decide_eq_true (by omega)
      simp [this]
    · rw [decide_eq_false h4]
      have : (List.range (n - n / 2 / 2)).all (fun i => decide (i < n / 2 + n / 2 / 2)) = false := by
        rw [List.all_eq_false]
        exact ⟨n / 2 + n / 2 / 2, List.mem_range.2 (by omega), by simp⟩
      simp [this]

theorem equalTo_tnum {x : TU64} {i : Nat} (hi : i < 18446744073709551616) :
    equalTo x (tnum i) = decide (i = x.toNat) := by
  unfold equalTo tnum equalsNumeric
  have : BitVec.ofNat 64 i = x ↔ i = x.toNat := by
    constructor
    · intro h; rw [← h, BitVec.toNat_ofNat, Nat.mod_eq_of_lt hi]
    · intro h; subst h; simp
  by_cases h : i = x.toNat
  · simp only [if_pos (this.2 h), decide_eq_true h]; rfl
  · simp only [if_neg (fun h' => h (this.1 h')), decide_eq_false h]; rfl

theorem find_numbers {fixed : Bool} {s : VS TU64} {n : Nat} (h1 : 1 ≤ n) (hR : Reach (testP fixed) s)
    (ha : At (testP fixed) s (numbers n) n) (hn : n * 2040 < 18446744073709551616) (x : TU64) :
    vecFind s (equalTo x) =
      .ret (if x.toNat < n then (stTrue, some (x.toNat : Int)) else (stFalse, some (-1))) := by
  have hg : ∀ (k : Nat) (hk : k < (numbers n).length), equalTo x (numbers n)[k] = decide (k = x.toNat) := by
    intro k hk
    have hk' : k < n := by simpa using hk
    have := numbers_get hk'
    rw [List.getElem?_eq_getElem hk] at this
    rw [Option.some.inj this, equalTo_tnum (by omega)]
  rcases C08_find_whole hR ha.contents (equalTo x) with ⟨h, _⟩ | ⟨k, hk, e, h, _⟩ | ⟨_, e, h⟩
  · have := numbers_length n; rw [h] at this; simp at this; omega
  · have hk' : k < n := by simpa using hk
    rw [hg k hk, decide_eq_true_iff] at h
    rw [e, if_pos (by omega), h]
  · rw [e, if_neg]
    intro hx
    have hx' : x.toNat < (numbers n).length := by simpa using hx
    have := h _ (List.getElem_mem hx')
    rw [hg _ hx'] at this
    simp at this

theorem find_test_ok {fixed : Bool} {s : VS TU64} {n : Nat} (h1 : 1 ≤ n) (hR : Reach (testP fixed) s)
    (ha : At (testP fixed) s (numbers n) n) (hn : n * 2040 < 18446744073709551616) (x : TU64) :
    testFind x s = .ret (decide (n ≤ x.toNat), s) := by
  have z0 : s.v.size = n := by rw [ha.size]; simp
  have hh : (BitVec.ofNat 64 (n / 2)).toNat = n / 2 := by
    rw [BitVec.toNat_ofNat]; exact Nat.mod_eq_of_lt (by omega)
  have e3 : vecFindEx s (equalTo x) 0 0 = .ret (stFalse, some (-1)) := by
    rcases C08_find_first hR ha.contents (equalTo x) 0 0 (by rw [numbers_length]; omega) (by omega) with
      ⟨k, _, _, h, _⟩ | ⟨e, _⟩
    · omega
    · exact e
  have e4 := C08_find_out_of_range (s := s) (equalTo x) 0 (n + 1) (by omega) (by omega)
  have e5 := C08_find_out_of_range (s := s) (equalTo x) 1 n (by omega) (by omega)
  unfold testFind
  rw [z0, find_numbers h1 hR ha hn, Out.ret_bind', find_numbers h1 hR ha hn, Out.ret_bind', e3, Out.ret_bind', e4,
    Out.ret_bind', e5, Out.ret_bind', hh, if_pos (by omega)]
  by_cases hx : x.toNat < n
  · rw [if_pos hx, decide_eq_false (by omega)]
    have : (stTrue == stFalse) = false := by decide
    simp [this]
  · rw [if_neg hx, decide_eq_true (by omega)]
    simp

theorem compareU64_ok : Comparator compareU64 := by
  have key : ∀ a b : TU64, (compareNumeric a b).toInt ≤ 0 ↔ a.toNat ≤ b.toNat := by
    intro a b
    unfold compareNumeric
    simp only [BitVec.ult_eq_decide, decide_eq_true_eq]
    split
    · constructor
      · intro _; omega
      · intro _; decide
    · split
      · constructor
        · intro h; exact absurd h (by decide)
        · intro h; omega
      · constructor
        · intro _; omega
        · intro _; decide
  have key' : ∀ a b : TU64, 0 ≤ (compareNumeric a b).toInt ↔ b.toNat ≤ a.toNat := by
    intro a b
    unfold compareNumeric
    simp only [BitVec.ult_eq_decide, decide_eq_true_eq]
    split
    · constructor
      · intro h; exact absurd h (by decide)
      · intro h; omega
    · split
      · constructor
        · intro _; omega
        · intro _; decide
      · constructor
        · intro _; omega
        · intro _; decide
  constructor
  · intro x y
    cases x <;> cases y <;> simp only [compareU64] <;> first | omega | rw [key, key']
  · intro x y z
    cases x <;> cases y <;> cases z <;> simp only [compareU64] <;> first | omega | (rw [key, key, key]; omega)

theorem compareU64_le {a b : TU64} (h : compareU64 (some a) (some b) ≤ 0) : a ≤ b := by
  have h' : (compareNumeric a b).toInt ≤ 0 := h
  unfold compareNumeric at h'
  simp only [BitVec.ult_eq_decide, decide_eq_true_eq] at h'
  rw [BitVec.le_def]
  split at h'
  · omega
  · split at h'
    · exact absurd h' (by decide)
    · omega

theorem sortIn_ok {fixed : Bool} (xs : List TU64) : ∀ {s : VS TU64} {es : List (Cell TU64)},
    Reach (testP fixed) s → contents s = .ret es → Ascending compareU64 es →
    (es.length + xs.length) * 2040 < 18446744073709551616 → (fixed = true → es.length + xs.length ≤ s.v.cap) →
    ∃ s' l, testSortIn s xs = .ret (true, s') ∧ Reach (testP fixed) s' ∧ contents s' = .ret l ∧
      Ascending compareU64 l ∧ l.Perm (es ++ xs.map some) := by
  induction xs with
  | nil =>
    intro s es h he ha _ _
    exact ⟨s, es, rfl, h, he, ha, by simp⟩
  | cons x xs ih =>
    intro s es h he ha hn hr
    rw [List.length_cons] at hn hr
    obtain ⟨st, p, log, hb, hst, hp, hsort, hins⟩ := sortedFill_step h he compareU64_ok ha (some x)
      (testP_fits_le (n := es.length + (xs.length + 1)) (by omega) hn)
    have hok : succeeded st = true := by
      have := hst; unfold failed at this; unfold succeeded; simpa using this
    rcases hins with ⟨hfix, hcap, _⟩ | ⟨_, s1, hi, h1, he1, hc1⟩
    · exfalso
      cases fixed with
      | false => simp [testP] at hfix
      | true => have := hr rfl; omega
    · have hl : (es.take p ++ [some x] ++ es.drop p).length = es.length + 1 := by simp; omega
      obtain ⟨s2, l, e2, h2, he2, ha2, hp2⟩ := ih h1 he1 hsort.ascending
        (Nat.lt_of_le_of_lt (Nat.mul_le_mul_right _ (by omega)) hn) (by
          intro hfix
          subst hfix
          rw [hc1 rfl]; have := hr rfl; omega)
      refine ⟨s2, l, ?_, h2, he2, ha2, ?_⟩
      · rw [testSortIn, hb, Out.ret_bind']
        dsimp only
        rw [hi, Out.ret_bind', e2, Out.ret_bind', hok]
        rfl
      · refine hp2.trans ?_
        have := hsort.same.append_right (xs.map some)
        rw [List.append_assoc es] at this
        simpa using this

theorem binarySearch_test_ok {fixed : Bool} {s : VS TU64} {n : Nat} (hR : Reach (testP fixed) s)
    (ha : At (testP fixed) s [] n) {xs : List TU64} (hx : xs ≠ [])
    (hn : xs.length * 2040 < 18446744073709551616) (hl : fixed = true → xs.length ≤ n) (x : TU64) :
    ∃ s' es c, testBinarySearch xs x s = .ret (true, s') ∧ At (testP fixed) s' es c := by
  have hpos : 0 < xs.length := List.length_pos_iff.2 hx
  have hdom : ∀ d, InDomain (testP fixed) ⟨[], n, d⟩ (VOp.reserve xs.length : VOp TU64) := by
    intro d; show xs.length * (testP fixed).esz < _; rw [testP_esz]; omega
  obtain ⟨d, j, s1, _, e1, a1⟩ := ha.op (.reserve xs.length) hdom
  have hR1 : Reach (testP fixed) s1 := Reach.step hR (by
    show xs.length * (testP fixed).esz < _; rw [testP_esz]; omega) e1
  have hstep : step (testP fixed) j ⟨[], n, d⟩ (.reserve xs.length) = (stSuccess, ⟨[], max n xs.length, d⟩) := by
    by_cases hc : xs.length ≤ n
    · simp only [step, hc, if_true]; rw [Nat.max_eq_left hc]
    · cases fixed with
      | true => exact absurd (hl rfl) hc
      | false => simp only [step, hc, if_false]; rw [Nat.max_eq_right (by omega)]; simp [testP]
  rw [hstep] at e1 a1
  obtain ⟨s2, l, e2, hR2, he2, hasc, hperm⟩ := sortIn_ok xs hR1 a1.contents List.Pairwise.nil
    (by rw [List.length_nil, Nat.zero_add]; exact hn) (by
      intro _; rw [a1.cap, List.length_nil, Nat.zero_add]; exact Nat.le_max_right _ _)
  have a2 := hR2.at
  have hlen : l.length = xs.length := by simpa using hperm.length_eq
  have hel : (absOf s2).elems = l := by
    have := a2.contents; rw [he2] at this; cases this; rfl
  rw [hel] at a2
  have z2 : s2.v.size = xs.length := by rw [a2.size, hlen]
  have hsome : ∀ (i : Nat), i < xs.length → ∃ a : TU64, l[i]? = some (some a) := by
    intro i hi
    have hi' : i < l.length := by omega
    have : l[i] ∈ [] ++ xs.map some := hperm.mem_iff.1 (List.getElem_mem hi')
    simp only [List.nil_append, List.mem_map] at this
    obtain ⟨a, _, h⟩ := this
    exact ⟨a, by rw [List.getElem?_eq_getElem hi', h]⟩
  refine ⟨s2, _, _, ?_, a2⟩
  have r2 : vecBinarySearchEx s2 (fun y => compareU64 y (some x)) 0 (xs.length + 1) = .ret (stOutOfRange, none, []) := by
    unfold vecBinarySearchEx
    rw [add64_eq (by omega), if_pos (by omega)]
  have r3 : vecBinarySearchEx s2 (fun y => compareU64 y (some x)) 1 xs.length = .ret (stOutOfRange, none, []) := by
    unfold vecBinarySearchEx
    rw [add64_eq (by omega), if_pos (by omega)]
  obtain ⟨a0, h0⟩ := hsome 0 hpos
  unfold testBinarySearch
  rw [show vecReserve s xs.length = _ from e1, Out.ret_bind', e2]
  simp only [Out.ret_bind', z2]
  rw [a2.macro h0, Out.ret_bind', r2, r3, checkAll_true]
  · simp
  intro i hi
  obtain ⟨a, h1⟩ := hsome i (by omega)
  obtain ⟨b, h2⟩ := hsome (i + 1) (by omega)
  rw [a2.macro h1, Out.ret_bind', a2.macro h2, Out.ret_bind']
  obtain ⟨i1, g1⟩ := List.getElem?_eq_some_iff.1 h1
  obtain ⟨i2, g2⟩ := List.getElem?_eq_some_iff.1 h2
  have := List.pairwise_iff_getElem.1 hasc i (i + 1) i1 i2 (by omega)
  rw [g1, g2] at this
  simp only [decide_eq_true (compareU64_le this)]

theorem emplaces_ok {fixed : Bool} (k : Nat) : ∀ {s : VS TU64} {i c : Nat}, At (testP fixed) s (numbers i) c →
    (fixed = true → i + k ≤ c) → (i + k) * 2040 < 18446744073709551616 →
    ∃ s' c', testEmplaces s i k = .ret (true, s') ∧ At (testP fixed) s' (numbers (i + k)) c' ∧
      (fixed = true → c' = c) := by
  induction k with
  | zero => intro s i c ha _ _; exact ⟨s, c, rfl, ha, fun _ => rfl⟩
  | succ k ih =>
    intro s i c ha hc hn
    have z0 : s.v.size = i := by rw [ha.size]; simp
    obtain ⟨c1, hr, hc1⟩ := room_testP (fixed := fixed) (c := c) (need := i + 1) (by intro h; have := hc h; omega)
    obtain ⟨d, j, s1, hj, e1, a1⟩ := ha.op (.emplace i none) (fun _ =>
      ⟨testP_fits_le (n := i + (k + 1)) (by simp) hn, by intro f hf; cases hf⟩)
    have h1 : ¬ i > (numbers i).length := by simp
    have h2 : (numbers i).length + 1 = i + 1 := by simp
    simp only [step, h1, h2, hr, if_false, vecOp] at e1 a1
    obtain ⟨y, rfl⟩ : ∃ y, j = [y] := by
      have : j.length = 1 := hj
      exact List.length_eq_one_iff.1 this
    have h3 : (numbers i).take i ++ [y] ++ (numbers i).drop i = numbers i ++ [y] := by
      rw [List.take_of_length_le (by simp), List.drop_of_length_le (by simp)]; simp
    rw [h3] at a1
    obtain ⟨blk, s2, eb, e2, a2⟩ := a1.write (i := i) (by simp) (tnum i)
    have h4 : (numbers i ++ [y]).set i (tnum i) = numbers (i + 1) := by
      rw [numbers_succ, List.set_append_right _ _ (by simp)]; simp
    rw [h4] at a2
    obtain ⟨s3, c3, e3, a3, hc3⟩ := ih a2 (by intro h; rw [hc1 h]; have := hc h; omega)
      (Nat.lt_of_le_of_lt (Nat.mul_le_mul_right _ (by omega)) hn)
    refine ⟨s3, c3, ?_, by rw [show i + (k + 1) = i + 1 + k by omega]; exact a3, fun h => by rw [hc3 h, hc1 h]⟩
    rw [testEmplaces, vecEmplace, z0, e1, Out.ret_bind', eb, Out.ret_bind', e2, Out.ret_bind', e3, Out.ret_bind']
    rfl

theorem emplace_test_ok {fixed : Bool} {s : VS TU64} {n : Nat} (ha : At (testP fixed) s [] n) {m j : Nat} (hj : j ≤ m)
    (hl : fixed = true → m + 1 ≤ n) (hn : (m + 1) * 2040 < 18446744073709551616) (x : TU64) :
    ∃ s' es c, testEmplace m j x s = .ret (true, s') ∧ At (testP fixed) s' es c := by
  obtain ⟨s1, c1, e1, a1, hc1⟩ := emplaces_ok m (i := 0) ha (by intro h; have := hl h; omega)
    (Nat.lt_of_le_of_lt (Nat.mul_le_mul_right _ (by omega)) hn)
  rw [Nat.zero_add] at a1
  have z1 : s1.v.size = m := by rw [a1.size]; simp
  obtain ⟨c2, hr, _⟩ := room_testP (fixed := fixed) (c := c1) (need := m + 1) (by intro h; rw [hc1 h]; exact hl h)
  obtain ⟨d, jk, s2, hjk, e2, a2⟩ := a1.op (.emplace j (initU64 x)) (fun _ =>
    ⟨testP_fits_le (n := m + 1) (by simp) hn, by
      intro f hf _ y
      unfold initU64 at hf
      cases hf
      exact failed_success⟩)
  have h1 : ¬ j > (numbers m).length := by rw [numbers_length]; omega
  have h2 : (numbers m).length + 1 = m + 1 := by simp
  simp only [step, h1, h2, hr, if_false, vecOp, initU64, failed_success, Bool.false_eq_true] at e2 a2
  have g : ((numbers m).take j ++ [some x] ++ (numbers m).drop j)[j]? = some (some x) := by
    rw [List.append_assoc, List.getElem?_append_right (by simp; omega)]
    simp [hj]
  refine ⟨s2, _, _, ?_, a2⟩
  unfold testEmplace initU64
  rw [e1]
  simp only [Out.ret_bind', z1]
  rw [e2, checkAll_true (fun i hi => by rw [a1.macro (numbers_get hi), Out.ret_bind']; simp)]
  simp only [Out.ret_bind']
  rw [a2.deref g, Out.ret_bind', a2.macro g, Out.ret_bind']
  simp

theorem swap_test_ok {fixed : Bool} {s : VS TU64} {n : Nat} (h3 : 3 ≤ n) (ha : At (testP fixed) s (numbers n) n) :
    ∃ s' es c, testSwap s = .ret (true, s') ∧ At (testP fixed) s' es c := by
  have z0 : s.v.size = n := by rw [ha.size]; simp
  have g0 : (numbers n)[0]? = some (tnum 0) := numbers_get (by omega)
  have gn : (numbers n)[n]? = none := by simp
  have gl : (numbers n)[n - 1]? = some (tnum (n - 1)) := numbers_get (by omega)
  obtain ⟨_, _, s1, _, e1, a1⟩ := ha.op (.swap 0 n) (fun _ => trivial)
  simp only [step, g0, gn, vecOp] at e1 a1
  obtain ⟨_, _, s2, _, e2, a2⟩ := a1.op (.swap n 0) (fun _ => trivial)
  simp only [step, g0, gn, vecOp] at e2 a2
  obtain ⟨_, _, s3, _, e3, a3⟩ := a2.op (.swap 0 (n - 1)) (fun _ => trivial)
  simp only [step, g0, gl, vecOp, numbers_length, if_true] at e3 a3
  obtain ⟨_, _, s4, _, e4, a4⟩ := a3.op .pop (fun _ => trivial)
  have hne : ¬ numbers n = [] := by intro h; have := numbers_length n; rw [h] at this; simp at this; omega
  have ht : trim (testP fixed) n (n - 1) = n := by
    unfold trim
    cases fixed with
    | true => rw [if_neg (by simp [testP])]
    | false => rw [if_neg (by simp only [testP]; simp; omega)]
  have hdl : (numbers n).dropLast = numbers (n - 1) := by
    rw [List.dropLast_eq_take, numbers_length, numbers_take (by omega)]
  simp only [step, hne, if_false, vecOp, numbers_length, ht, hdl] at e4 a4
  have z4 : s4.v.size = n - 1 := by rw [a4.size]; simp
  obtain ⟨_, _, s5, _, e5, a5⟩ := a4.op (.swap 0 (n - 1 - 1)) (fun _ => trivial)
  have f0 : (numbers (n - 1))[0]? = some (tnum 0) := numbers_get (by omega)
  have fl : (numbers (n - 1))[n - 1 - 1]? = some (tnum (n - 1 - 1)) := numbers_get (by omega)
  have hnc : ¬ n - 1 = n := by omega
  simp only [step, f0, fl, vecOp, numbers_length, hnc, if_false] at e5 a5
  have q0 : (((numbers (n - 1)).set 0 (tnum (n - 1 - 1))).set (n - 1 - 1) (tnum 0))[0]? = some (tnum (n - 1 - 1)) := by
    rw [List.getElem?_set_ne (by omega), List.getElem?_set_self (by simp; omega)]
  have ql : (((numbers (n - 1)).set 0 (tnum (n - 1 - 1))).set (n - 1 - 1) (tnum 0))[n - 1 - 1]? = some (tnum 0) := by
    rw [List.getElem?_set_self (by simp; omega)]
  refine ⟨s5, _, _, ?_, a5⟩
  have p0 : vecGetPointer s4 0 = (stSuccess, some 0) := by unfold vecGetPointer; rw [if_neg (by omega)]
  have pl : vecGetPointer s4 (n - 1 - 1) = (stSuccess, some (n - 1 - 1)) := by
    unfold vecGetPointer; rw [if_neg (by omega)]
  unfold testSwap
  rw [z0, e1, Out.ret_bind', e2, Out.ret_bind', e3, Out.ret_bind', e4]
  simp only [Out.ret_bind', z4, p0, pl, Option.getD_some]
  rw [a4.deref f0, Out.ret_bind', a4.deref fl, Out.ret_bind', e5]
  simp only [Out.ret_bind']
  rw [a5.deref q0, Out.ret_bind', a5.deref ql, Out.ret_bind', ha.cap]
  simp

theorem grow_test_ok (k : Nat) : ∀ {s : VS TU64} {i c : Nat}, At (testP false) s (numbers i) c →
    (i + k) * 2040 < 18446744073709551616 →
    ∃ s' c', testGrow s i k = .ret (true, s') ∧ At (testP false) s' (numbers (i + k)) c' := by
  induction k with
  | zero => intro s i c ha _; exact ⟨s, c, rfl, ha⟩
  | succ k ih =>
    intro s i c ha hn
    have hic : i ≤ c := by obtain ⟨_, _, _, R⟩ := ha; simpa using R.len
    obtain ⟨s1, e1, a1⟩ := ha.push (tnum i) (c' := if c < i + 1 then (c + 1) * 2 else c)
      (testP_fits_le (n := i + (k + 1)) (by simp) hn) (by
        unfold Spec.room
        rw [numbers_length]
        by_cases h : i + 1 ≤ c
        · rw [if_pos h, if_neg (by omega)]
        · rw [if_neg h, if_pos (show (testP false).allocator.isSome = true from rfl),
            if_pos (show c < i + 1 by omega), show c = i by omega]; rfl)
    rw [← numbers_succ] at a1
    obtain ⟨s2, c2, e2, a2⟩ := ih a1 (Nat.lt_of_le_of_lt (Nat.mul_le_mul_right _ (by omega)) hn)
    refine ⟨s2, c2, ?_, by rw [show i + (k + 1) = i + 1 + k by omega]; exact a2⟩
    have hg : s.v.growth = 2 := ha.growth
    rw [testGrow, e1, Out.ret_bind', e2, Out.ret_bind', a1.cap, ha.cap, hg]
    simp

theorem shrink_test_ok (k : Nat) : ∀ {s : VS TU64} {c : Nat}, At (testP false) s (numbers k) c →
    k * 2040 < 18446744073709551616 →
    ∃ s' c', testShrink s k = .ret (true, s') ∧ At (testP false) s' [] c' := by
  induction k with
  | zero => intro s c ha _; exact ⟨s, c, rfl, ha⟩
  | succ k ih =>
    intro s c ha hn
    obtain ⟨_, _, s1, _, e1, a1⟩ := ha.op (.deleteRange k 1) (fun _ => by show k + 1 < _; omega)
    have h1 : ¬ k + 1 > k + 1 := by omega
    have h2 : (numbers (k + 1)).take k ++ (numbers (k + 1)).drop (k + 1) = numbers k := by
      rw [numbers_take (by omega), List.drop_of_length_le (by simp), List.append_nil]
    simp only [step, h1, h2, if_false, Nat.one_ne_zero, vecOp, numbers_length, Nat.add_sub_cancel] at e1 a1
    obtain ⟨s2, c2, e2, a2⟩ := ih a1 (Nat.lt_of_le_of_lt (Nat.mul_le_mul_right _ (by omega)) hn)
    refine ⟨s2, c2, ?_, a2⟩
    have hg : s.v.growth = 2 := ha.growth
    have ht : s.v.shrink = 4 := ha.shrink
    rw [testShrink, vecDelete, e1, Out.ret_bind', e2, Out.ret_bind', a1.cap, ha.cap, hg, ht]
    simp [trim, testP]

theorem initDefault_ok {w : World TU64} (hw : Fresh w) (hr : ∀ k, w.oracle k = stSuccess) :
    ∃ v w', vecInit w 8 0 false = (stSuccess, some v, w') ∧ At (testP false) ⟨v, w'⟩ [] 1 := by
  have hr' : Reliable w := fun k => by rw [hr]; exact failed_success
  obtain ⟨v, w', e⟩ : ∃ v w', vecInitEx w (testP false).esz 0 (testP false).dtor (some 0) (testP false).growth
      (testP false).thr = (stSuccess, some v, w') := by
    refine ⟨_, _, Prod.ext ?_ rfl⟩
    simp only [vecInitEx]
    rw [if_neg (by decide)]
    simp [allocate, hr, failed_success]
  obtain ⟨_, b, sl, R⟩ := init_rep hw hr' ⟨rfl, by decide, by decide⟩ (by
    rw [testP_esz]; show 1 * 8 < _; omega) e
  refine ⟨v, w', ?_, _, _, _, R⟩
  unfold vecInit
  simpa only [testP, Bool.false_eq_true, if_false] using e

/-! ## The test of destructors -/

/-- The parameters of the vector in the test of destructors. -/
def dtorP : Params := ⟨none, 1, 0, 2, true⟩

/-- The elements that the loops push. -/
def shorts (c n : Nat) : List (Cell (BitVec 16)) := (List.range n).map fun i => some (BitVec.ofNat 16 (i + c))

@[simp] theorem shorts_length (c n : Nat) : (shorts c n).length = n := by simp [shorts]

theorem shorts_succ (c n : Nat) : shorts c (n + 1) = shorts c n ++ [some (BitVec.ofNat 16 (n + c))] := by
  simp [shorts, List.range_succ]

theorem pushU16_ok (c : Nat) (k : Nat) : ∀ {s : VS (BitVec 16)} {i n : Nat}, At dtorP s (shorts c i) n → i + k ≤ n →
    n * 510 < 18446744073709551616 →
    ∃ s', testPushU16 c s i k = .ret (true, s') ∧ At dtorP s' (shorts c (i + k)) n := by
  induction k with
  | zero => intro s i n ha _ _; exact ⟨s, rfl, ha⟩
  | succ k ih =>
    intro s i n ha hk hn
    have hf : Fits dtorP ((shorts c i).length + 1) := by
      rw [shorts_length]
      show (i + 1) * 255 * 2 < _
      rw [Nat.mul_assoc]
      exact Nat.lt_of_le_of_lt (Nat.mul_le_mul_right _ (by omega)) hn
    obtain ⟨s1, e1, a1⟩ := ha.push (c' := n) (some (BitVec.ofNat 16 (i + c))) hf
      (by unfold Spec.room; rw [if_pos (by simp; omega)])
    have g : (shorts c i ++ [some (BitVec.ofNat 16 (i + c))])[i]? = some (some (BitVec.ofNat 16 (i + c))) := by
      rw [List.getElem?_append_right (by simp)]; simp
    have b1 := a1.bufferAt g
    rw [← shorts_succ] at a1
    obtain ⟨s2, e2, a2⟩ := ih a1 (by omega) hn
    refine ⟨s2, ?_, by rw [show i + (k + 1) = i + 1 + k by omega]; exact a2⟩
    rw [testPushU16, e1, Out.ret_bind', b1, Out.ret_bind', e2, Out.ret_bind']
    simp

/-- One call with the destructor `d`. -/
theorem At.opBy {P : Params} {s : VS α} {es : List (Cell α)} {c : Nat} (h : At P s es c) (d : DtorFn α) (op : VOp α)
    (hd : ∀ x, InDomain P ⟨es, c, x⟩ op) :
    ∃ x junk s', junk.length = junkLen ⟨es, c, x⟩ op ∧
      vecOpBy d s op = .ret ((step P junk ⟨es, c, x⟩ op).1, s') ∧
      At P s' (step P junk ⟨es, c, x⟩ op).2.elems (step P junk ⟨es, c, x⟩ op).2.cap := by
  obtain ⟨x, b, sl, R⟩ := h
  obtain ⟨junk, st, s', a', b', sl', hj, hs, ho, R'⟩ := opBy_ok d R op (hd x)
  refine ⟨x, junk, s', hj, by rw [hs]; exact ho, ?_⟩
  rw [hs]
  exact ⟨a'.dead, b', sl', R'⟩

theorem At.block {P : Params} {s : VS α} {es : List (Cell α)} {c : Nat} (h : At P s es c) :
    ∃ b slack, s.v.data = some b ∧ b.cells = es ++ slack := by
  obtain ⟨x, b, sl, R⟩ := h
  exact ⟨b, sl, R.data, R.cells⟩

theorem remains_zero : ∀ (xs : List (Cell (BitVec 16))) (k : Nat),
    remains freeU16 k xs = List.replicate xs.length (some 0)
  | [], _ => rfl
  | _ :: xs, k => by rw [remains, remains_zero xs (k + 1)]; rfl

theorem bufferAt_of {s : VS α} {b : Block α} (h : s.v.data = some b) {i : Nat} {x : Cell α}
    (hx : b.cells[i]? = some x) : bufferAt s i = .ret x := by
  simp [bufferAt, h, withData, hx]

theorem destructor_test_ok {n : Nat} (h4 : 4 ≤ n) {buf : Block (BitVec 16)} (hb : n ≤ buf.cells.length)
    (hn : n * 510 < 18446744073709551616) {w : World (BitVec 16)} (hw : Fresh w) (hr : Reliable w) :
    testDestructor n buf w = .ret true := by
  have e0 : vecInitBuffer dtorP.esz (some buf) n dtorP.dtor =
      (stSuccess, some ⟨none, 1, 0, 0, n, 2, true, some buf⟩) := by
    unfold vecInitBuffer
    dsimp only
    rw [if_neg (show ¬ (dtorP.esz = 0 ∨ n = 0) by show ¬ (2 = 0 ∨ n = 0); omega)]
    rfl
  have R0 := (initBuffer_rep hw hr ⟨rfl, rfl, rfl⟩ hb (by show 2 < _; omega) e0).2.2
  obtain ⟨s1, e1, a1⟩ := pushU16_ok 0 n (i := 0) (n := n) ⟨_, _, _, R0⟩ (by omega) hn
  rw [Nat.zero_add] at a1
  -- pop
  have hsp : shorts 0 n = shorts 0 (n - 1) ++ [some (BitVec.ofNat 16 (n - 1 + 0))] := by
    rw [← shorts_succ]; congr 1; omega
  obtain ⟨b1, sl, d1, c1⟩ := a1.block
  obtain ⟨_, _, s2, _, e2, a2⟩ := a1.opBy freeU16 .pop (fun _ => trivial)
  have hne : ¬ shorts 0 n = [] := by rw [hsp]; simp
  have ht : ∀ k, trim dtorP n k = n := by intro k; unfold trim; rw [if_neg (by simp [dtorP])]
  have hdl : (shorts 0 n).dropLast = shorts 0 (n - 1) := by rw [hsp]; simp
  simp only [step, hne, if_false, vecOpBy, ht, hdl] at e2 a2
  obtain ⟨s2', e2', d2⟩ : ∃ s', vecPopBackBy freeU16 s1 = .ret (stSuccess, s') ∧
      s'.v.data = some { b1 with cells := shorts 0 (n - 1) ++ some 0 :: sl } := by
    obtain ⟨_, _, _, R⟩ := a1
    exact popBy_storage freeU16 R rfl rfl d1 (by rw [c1, hsp]; simp; rfl) (by rw [R.size]; simp; omega)
  rw [e2] at e2'
  cases e2'
  -- delete
  have hsd : shorts 0 (n - 1) = shorts 0 (n - 4) ++ (shorts 0 (n - 1)).drop (n - 4) := by
    have : shorts 0 (n - 4) = (shorts 0 (n - 1)).take (n - 4) := by
      unfold shorts
      rw [← List.map_take, List.take_range, Nat.min_eq_left (by omega)]
    rw [this, List.take_append_drop]
  obtain ⟨_, _, s3, _, e3, a3⟩ := a2.opBy freeU16 (.deleteRange (n - 4) 3) (fun _ => by show n - 4 + 3 < _; omega)
  have k1 : ¬ n - 4 + 3 > n - 1 := by omega
  have k2 : (shorts 0 (n - 1)).take (n - 4) ++ (shorts 0 (n - 1)).drop (n - 4 + 3) = shorts 0 (n - 4) := by
    rw [List.drop_of_length_le (by simp; omega), List.append_nil]
    unfold shorts
    rw [← List.map_take, List.take_range, Nat.min_eq_left (by omega)]
  simp only [step, shorts_length, k1, k2, if_false, vecOpBy, ht, show ¬ (3 : Nat) = 0 by omega] at e3 a3
  have hml : ((shorts 0 (n - 1)).drop (n - 4)).length = 3 := by simp; omega
  obtain ⟨s3', e3', d3⟩ : ∃ s', vecDeleteRangeBy freeU16 s2 (n - 4) 3 = .ret (stSuccess, s') ∧
      s'.v.data = some { b1 with cells := shorts 0 (n - 4) ++ (List.replicate 3 (some 0) ++ some 0 :: sl) } := by
    obtain ⟨_, _, _, R⟩ := a2
    obtain ⟨s', e, d⟩ := deleteBy_storage freeU16 R rfl rfl d2 (pre := shorts 0 (n - 4))
      (mid := (shorts 0 (n - 1)).drop (n - 4)) (suf := []) (slack := some 0 :: sl)
      (by rw [List.append_nil, ← hsd]) (by rw [List.append_nil, ← hsd]; exact R.size)
      (by intro h; rw [h] at hml; simp at hml)
    rw [hml, shorts_length] at e
    refine ⟨s', e, ?_⟩
    rw [d, remains_zero, hml]
    simp
  rw [e3] at e3'
  cases e3'
  -- clear
  obtain ⟨_, _, s4, _, e4, a4⟩ := a3.opBy freeU16 .clear (fun _ => trivial)
  have hst : ∀ x j, step dtorP j ⟨shorts 0 (n - 4), n, x⟩ VOp.clear =
      (stSuccess, ⟨[], n, (step dtorP j ⟨shorts 0 (n - 4), n, x⟩ VOp.clear).2.dead⟩) := by
    intro x j
    by_cases h0 : shorts 0 (n - 4) = []
    · simp only [step, h0, if_true]
    · simp only [step, h0, if_false, ht]
  rw [hst] at e4 a4
  simp only [vecOpBy] at e4 a4
  obtain ⟨s4', e4', d4⟩ : ∃ s', vecClearBy freeU16 s3 = .ret (stSuccess, s') ∧
      s'.v.data = some { b1 with cells := List.replicate n (some 0) ++ sl } := by
    obtain ⟨_, _, _, R⟩ := a3
    obtain ⟨s', e, d⟩ := clearBy_storage freeU16 R rfl rfl d3 (es := shorts 0 (n - 4))
      (slack := List.replicate 3 (some 0) ++ some 0 :: sl) rfl R.size
    refine ⟨s', e, ?_⟩
    rw [d, remains_zero, shorts_length]
    have : List.replicate n (some (0 : BitVec 16)) = List.replicate (n - 4) (some 0) ++ List.replicate 4 (some 0) := by
      rw [List.replicate_append_replicate]; congr 1; omega
    rw [this, List.append_assoc]
    rfl
  rw [e4] at e4'
  cases e4'
  -- fill again, destroy
  obtain ⟨s5, e5, a5⟩ := pushU16_ok 1 n (i := 0) (n := n) a4 (by omega) hn
  rw [Nat.zero_add] at a5
  obtain ⟨b5, sl5, d5, c5⟩ := a5.block
  obtain ⟨s6, e6⟩ : ∃ s', vecDestroyBy freeU16 s5 =
      .ret (stSuccess, s', some { b5 with cells := List.replicate n (some 0) ++ sl5 }) := by
    obtain ⟨_, _, _, R⟩ := a5
    obtain ⟨s', e⟩ := destroyBy_storage freeU16 R rfl rfl d5 c5 R.size
    rw [remains_zero, shorts_length] at e
    exact ⟨s', e⟩
  have g2 : bufferAt s2 (n - 1) = .ret (some 0) := bufferAt_of d2 (by
    rw [List.getElem?_append_right (by simp)]; simp)
  have g3 : ∀ i, n - 4 ≤ i → i < n → bufferAt s3 i = .ret (some 0) := by
    intro i h1 h2
    refine bufferAt_of d3 ?_
    rw [List.getElem?_append_right (by simpa using h1), shorts_length]
    obtain h | h | h | h : i = n - 4 ∨ i = n - 4 + 1 ∨ i = n - 4 + 2 ∨ i = n - 4 + 3 := by omega
    all_goals subst h; simp
  unfold testDestructor
  rw [show vecInitBuffer 2 (some buf) n true = _ from e0]
  dsimp only
  rw [e1, Out.ret_bind', e2, Out.ret_bind', g2, Out.ret_bind', e3, Out.ret_bind',
    g3 (n - 4) (by omega) (by omega), Out.ret_bind', g3 (n - 3) (by omega) (by omega), Out.ret_bind',
    g3 (n - 2) (by omega) (by omega), Out.ret_bind', e4, Out.ret_bind', checkAll_true, Out.ret_bind', e5, Out.ret_bind',
    e6, Out.ret_bind', checkAll_true, Out.ret_bind']
  · simp
  · intro i hi
    have : (List.replicate n (some (0 : BitVec 16)) ++ sl5)[i]? = some (some 0) := by
      rw [List.getElem?_append_left (by simpa using hi)]; simp [hi]
    simp only [withData, this]
    rfl
  · intro i hi
    rw [bufferAt_of d4 (x := some 0) (by rw [List.getElem?_append_left (by simpa using hi)]; simp [hi])]
    rfl

end Zy
