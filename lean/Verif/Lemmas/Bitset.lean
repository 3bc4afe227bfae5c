import Verif.Spec.BitsetRun
import Verif.Lemmas.VectorReach

/-!
# Lemmas about bitsets
-/

namespace Zy

open Spec

/-! ## Bits of bytes -/

/-- All bits of a list of bytes. -/
def flatBits (bytes : List Byte) : List Bool := bytes.flatMap byteBits

@[simp] theorem byteBits_length (b : Byte) : (byteBits b).length = 8 := by simp [byteBits]

@[simp] theorem flatBits_nil : flatBits [] = [] := rfl
@[simp] theorem flatBits_cons (b : Byte) (bs : List Byte) : flatBits (b :: bs) = byteBits b ++ flatBits bs := rfl
@[simp] theorem flatBits_append (x y : List Byte) : flatBits (x ++ y) = flatBits x ++ flatBits y := by
  simp [flatBits]

@[simp] theorem flatBits_length (bytes : List Byte) : (flatBits bytes).length = 8 * bytes.length := by
  induction bytes with
  | nil => rfl
  | cons b bs ih => simp [ih]; omega

theorem byteBits_set (b : Byte) : ∀ j, j < 8 → byteBits (b ||| (1#8 <<< (7 - j))) = (byteBits b).set j true := by
  intro j hj
  rcases j with _|_|_|_|_|_|_|_|j <;> first | omega | simp [byteBits, List.range, List.range.loop]
theorem byteBits_reset (b : Byte) :
    ∀ j, j < 8 → byteBits (b &&& ~~~(1#8 <<< (7 - j))) = (byteBits b).set j false := by
  intro j hj
  rcases j with _|_|_|_|_|_|_|_|j <;> first | omega | simp [byteBits, List.range, List.range.loop]
theorem byteBits_toggle (b : Byte) :
    ∀ j, j < 8 → ∀ x, (byteBits b)[j]? = some x →
      byteBits (b ^^^ (1#8 <<< (7 - j))) = (byteBits b).set j !x := by
  intro j hj x
  rcases j with _|_|_|_|_|_|_|_|j <;> first | omega | (simp [byteBits, List.range, List.range.loop]; try (intro h; subst h; rfl))
theorem byteBits_test (b : Byte) :
    ∀ j, j < 8 → (byteBits b)[j]? = some (!decide (b &&& (1#8 <<< (7 - j)) = 0#8)) := by
  revert b; decide +kernel
theorem byteBits_not (b : Byte) : byteBits (~~~b) = (byteBits b).map fun x => !x := by
  revert b; decide +kernel
theorem byteBits_ones (b : Byte) : byteBits 0xFF#8 = (byteBits b).map fun _ => true := by
  revert b; decide +kernel
theorem byteBits_zeros (b : Byte) : byteBits 0x00#8 = (byteBits b).map fun _ => false := by
  revert b; decide +kernel
theorem byteBits_and (x y : Byte) : byteBits (x &&& y) = List.zipWith and (byteBits x) (byteBits y) := by
  simp [byteBits, List.range, List.range.loop]
theorem byteBits_or (x y : Byte) : byteBits (x ||| y) = List.zipWith or (byteBits x) (byteBits y) := by
  simp [byteBits, List.range, List.range.loop]
theorem byteBits_xor (x y : Byte) : byteBits (x ^^^ y) = List.zipWith xor (byteBits x) (byteBits y) := by
  simp [byteBits, List.range, List.range.loop]
theorem popcnt_eq (b : Byte) : (popcnt b).toNat = (byteBits b).count true := by
  revert b; decide +kernel

theorem flatBits_map {g : Byte → Byte} {h : Bool → Bool} (hg : ∀ b, byteBits (g b) = (byteBits b).map h)
    (bytes : List Byte) : flatBits (bytes.map g) = (flatBits bytes).map h := by
  induction bytes with
  | nil => rfl
  | cons b bs ih => simp [ih, hg]

theorem flatBits_zipWith {g : Byte → Byte → Byte} {h : Bool → Bool → Bool}
    (hg : ∀ x y, byteBits (g x y) = List.zipWith h (byteBits x) (byteBits y)) :
    ∀ (x y : List Byte), flatBits (List.zipWith g x y ++ x.drop y.length) =
      combine h (flatBits x) (flatBits y)
  | [], y => by simp [combine]
  | x :: xs, [] => by simp [combine]
  | x :: xs, y :: ys => by
    have ih := flatBits_zipWith hg xs ys
    unfold combine at ih ⊢
    simp only [List.zipWith_cons_cons, List.length_cons, List.drop_succ_cons, List.cons_append,
      flatBits_cons, ih, hg]
    have e1 : List.drop (byteBits y ++ flatBits ys).length (byteBits x ++ flatBits xs) =
        List.drop (flatBits ys).length (flatBits xs) := by
      rw [List.length_append, byteBits_length, ← byteBits_length x, List.drop_length_add_append]
    rw [e1, List.zipWith_append (by simp), List.append_assoc]

theorem flatBits_drop (bytes : List Byte) : ∀ n, (flatBits bytes).drop (8 * n) = flatBits (bytes.drop n) := by
  induction bytes with
  | nil => intro n; simp
  | cons x xs ih =>
    intro n
    cases n with
    | zero => rfl
    | succ n =>
      rw [flatBits_cons, List.drop_append, List.drop_of_length_le (by simp; omega), byteBits_length,
        show 8 * (n + 1) - 8 = 8 * n by omega, ih n]
      rfl

theorem flatBits_get {bytes : List Byte} : ∀ {i : Nat} {x : Byte}, bytes[i / 8]? = some x →
    (flatBits bytes)[i]? = (byteBits x)[i % 8]? := by
  induction bytes with
  | nil => intro i x h; simp at h
  | cons b bs ih =>
    intro i x h
    by_cases hi : i < 8
    · have : i / 8 = 0 := by omega
      rw [this] at h
      simp only [List.getElem?_cons_zero, Option.some.injEq] at h
      subst h
      rw [flatBits_cons, List.getElem?_append_left (by simpa using hi), Nat.mod_eq_of_lt hi]
    · have : i / 8 = (i - 8) / 8 + 1 := by omega
      rw [this, List.getElem?_cons_succ] at h
      rw [flatBits_cons, List.getElem?_append_right (by simp; omega), byteBits_length, ih h]
      congr 1
      omega

theorem flatBits_set {bytes : List Byte} : ∀ {i : Nat} {x y : Byte} {v : Bool}, bytes[i / 8]? = some x →
    byteBits y = (byteBits x).set (i % 8) v → flatBits (bytes.set (i / 8) y) = (flatBits bytes).set i v := by
  induction bytes with
  | nil => intro i x y v h; simp at h
  | cons b bs ih =>
    intro i x y v h hy
    by_cases hi : i < 8
    · have : i / 8 = 0 := by omega
      rw [this] at h ⊢
      simp only [List.getElem?_cons_zero, Option.some.injEq] at h
      subst h
      rw [List.set_cons_zero, flatBits_cons, flatBits_cons, List.set_append_left _ _ (by simpa using hi), hy,
        Nat.mod_eq_of_lt hi]
    · have e : i / 8 = (i - 8) / 8 + 1 := by omega
      have e' : i % 8 = (i - 8) % 8 := by omega
      rw [e, List.getElem?_cons_succ] at h
      rw [e, List.set_cons_succ, flatBits_cons, flatBits_cons, List.set_append_right _ _ (by simp; omega),
        byteBits_length, ih h (by rw [← e']; exact hy)]

/-! ## The byte vector -/

section
variable {P : Params} {s : VS Byte} {bytes : List Byte} {c : Nat} {b : Block Byte} {sl : List (Cell Byte)}

theorem store_ok (R : Rep P s ⟨bytes.map some, c, []⟩ b sl) {i : Nat} (hi : i < bytes.length) (x : Byte) :
    ∃ s' b', vecStore s i (some x) = .ret s' ∧ Rep P s' ⟨(bytes.set i x).map some, c, []⟩ b' sl := by
  have hlen : i + [some x].length ≤ b.cells.length := by rw [R.cells]; simp; omega
  have hc : b.cells.take i ++ [some x] ++ b.cells.drop (i + 1) = (bytes.set i x).map some ++ sl := by
    have h1 : b.cells.set i (some x) = b.cells.take i ++ [some x] ++ b.cells.drop (i + 1) := by
      rw [List.set_eq_take_append_cons_drop, if_pos (by simp at hlen; omega)]; simp
    rw [← h1, R.cells, List.set_append_left _ _ (by simpa using hi), List.map_set]
  refine ⟨{ s with v := { s.v with data := some { b with cells := (bytes.set i x).map some ++ sl } } },
    { b with cells := (bytes.set i x).map some ++ sl }, ?_, ?_⟩
  · unfold vecStore
    rw [R.data]
    simp only [withData, writeRange]
    rw [if_pos hlen]
    simp only [Out.ret_bind', List.length_singleton]
    rw [hc]
  · exact { R with
      size := by simpa using R.size
      data := rfl
      cells := rfl
      room := by have := R.room; rw [R.cells] at this; simpa using this
      dyn := by intro h; have := R.dyn h; rw [R.cells] at this; simpa using this
      fits := by simpa using R.fits
      len := by simpa using R.len
      alloc := R.alloc }

theorem load_ok (R : Rep P s ⟨bytes.map some, c, []⟩ b sl) {i : Nat} {x : Byte} (hi : bytes[i]? = some x) :
    loadByte s i = .ret x := by
  have hlt : i < bytes.length := by
    rcases Nat.lt_or_ge i bytes.length with h | h
    · exact h
    · rw [List.getElem?_eq_none h] at hi; cases hi
  unfold loadByte vecDeref
  rw [R.data]
  simp only [withData]
  rw [R.cells, List.getElem?_append_left (by simpa using hlt), List.getElem?_map, hi]
  rfl

theorem withPointer_in {β : Type} (R : Rep P s ⟨bytes.map some, c, []⟩ b sl) {i : Nat} (hi : i < bytes.length)
    (err : Status → β) (k : Nat → Out β) : withPointer s i err k = k i := by
  unfold withPointer vecGetPointer
  rw [R.size, if_neg (show ¬ i ≥ (bytes.map some).length by simp; omega)]
  simp

theorem withPointer_out {β : Type} (R : Rep P s ⟨bytes.map some, c, []⟩ b sl) {i : Nat}
    (hi : bytes.length ≤ i) (err : Status → β) (k : Nat → Out β) :
    withPointer s i err k = .ret (err stOutOfRange) := by
  unfold withPointer vecGetPointer
  rw [R.size, if_pos (show i ≥ (bytes.map some).length by simp; omega)]
  simp

theorem Rep.vsize (R : Rep P s ⟨bytes.map some, c, []⟩ b sl) : vecGetSize s = bytes.length := by
  unfold vecGetSize; rw [R.size]; simp

/-- Any byte operation, whatever its statuses are. -/
theorem opLoop_any {P' : Params} {u : VS Byte} {ys : List Byte} {c' : Nat} {bu : Block Byte}
    {slu : List (Cell Byte)} (U : Rep P' u ⟨ys.map some, c', []⟩ bu slu)
    (op : Byte → Byte → Status × Byte) (n : Nat) :
    ∀ {s : VS Byte} {bytes : List Byte} {b : Block Byte} {i : Nat},
      Rep P s ⟨bytes.map some, c, []⟩ b sl → i + n ≤ bytes.length → i + n ≤ ys.length →
      ∃ (st : Status) (s' : VS Byte) (bytes' : List Byte) (b' : Block Byte), bsOpLoop op u n s i = .ret (st, s') ∧ bytes'.length = bytes.length ∧
        Rep P s' ⟨bytes'.map some, c, []⟩ b' sl := by
  induction n with
  | zero => intro s bytes b i R _ _; exact ⟨_, s, bytes, b, rfl, rfl, R⟩
  | succ n ih =>
    intro s bytes b i R h1 h2
    unfold bsOpLoop
    rw [withPointer_in R (by omega), withPointer_in U (by omega),
      load_ok R (List.getElem?_eq_getElem (by omega)), Out.ret_bind',
      load_ok U (List.getElem?_eq_getElem (by omega)), Out.ret_bind']
    obtain ⟨s1, b1, e1, R1⟩ := store_ok R (i := i) (by omega) (op bytes[i] ys[i]).2
    simp only [e1, Out.ret_bind']
    split
    · exact ⟨_, s1, _, b1, rfl, by simp, R1⟩
    · obtain ⟨st, s', bytes', b', e, hl, R'⟩ := ih R1 (i := i + 1) (by simp; omega) (by omega)
      exact ⟨st, s', bytes', b', e, by simpa using hl, R'⟩

theorem opLoop_ok {P' : Params} {u : VS Byte} {ys : List Byte} {c' : Nat} {bu : Block Byte}
    {slu : List (Cell Byte)} (U : Rep P' u ⟨ys.map some, c', []⟩ bu slu) (f : Byte → Byte → Byte) (n : Nat) :
    ∀ {s : VS Byte} {bytes : List Byte} {b : Block Byte} {i : Nat},
      Rep P s ⟨bytes.map some, c, []⟩ b sl → i + n ≤ bytes.length → i + n ≤ ys.length →
      ∃ s' b', bsOpLoop (fun x y => (stSuccess, f x y)) u n s i = .ret (stSuccess, s') ∧
        Rep P s' ⟨(bytes.take i ++ List.zipWith f ((bytes.drop i).take n) ((ys.drop i).take n) ++
          bytes.drop (i + n)).map some, c, []⟩ b' sl := by
  induction n with
  | zero => intro s bytes b i R _ _; exact ⟨s, b, rfl, by simpa using R⟩
  | succ n ih =>
    intro s bytes b i R h1 h2
    unfold bsOpLoop
    rw [withPointer_in R (by omega), withPointer_in U (by omega),
      load_ok R (List.getElem?_eq_getElem (by omega)), Out.ret_bind',
      load_ok U (List.getElem?_eq_getElem (by omega)), Out.ret_bind']
    obtain ⟨s1, b1, e1, R1⟩ := store_ok R (i := i) (by omega) (f bytes[i] ys[i])
    simp only [e1, Out.ret_bind', failed_success, Bool.false_eq_true, if_false]
    obtain ⟨s', b', e, R'⟩ := ih R1 (i := i + 1) (by simp; omega) (by omega)
    refine ⟨s', b', e, ?_⟩
    have e1 : (bytes.set i (f bytes[i] ys[i])).take (i + 1) = bytes.take i ++ [f bytes[i] ys[i]] := by
      rw [List.take_add_one, List.take_set_of_le (Nat.le_refl i)]
      simp [show i < bytes.length by omega]
    have e2 : (bytes.set i (f bytes[i] ys[i])).drop (i + 1) = bytes.drop (i + 1) :=
      List.drop_set_of_lt (by omega)
    have e2' : (bytes.set i (f bytes[i] ys[i])).drop (i + 1 + n) = bytes.drop (i + (n + 1)) := by
      rw [List.drop_set_of_lt (by omega)]; congr 1; omega
    have e3 : (bytes.drop i).take (n + 1) = bytes[i] :: (bytes.drop (i + 1)).take n := by
      rw [List.drop_eq_getElem_cons (i := i) (by omega), List.take_succ_cons]
    have e4 : (ys.drop i).take (n + 1) = ys[i] :: (ys.drop (i + 1)).take n := by
      rw [List.drop_eq_getElem_cons (i := i) (by omega), List.take_succ_cons]
    rw [e1, e2, e2'] at R'
    rw [e3, e4, List.zipWith_cons_cons]
    simpa using R'

theorem mapLoop_ok (f : VS Byte → Nat → Out Byte) (g : Byte → Byte)
    (hf : ∀ {s : VS Byte} {bytes : List Byte} {b : Block Byte}, Rep P s ⟨bytes.map some, c, []⟩ b sl →
      ∀ (i : Nat) (h : i < bytes.length), f s i = .ret (g bytes[i])) (n : Nat) :
    ∀ {s : VS Byte} {bytes : List Byte} {b : Block Byte} {i : Nat},
      Rep P s ⟨bytes.map some, c, []⟩ b sl → i + n = bytes.length →
      ∃ s' b', bsMapLoop f n s i = .ret (stSuccess, s') ∧
        Rep P s' ⟨(bytes.take i ++ (bytes.drop i).map g).map some, c, []⟩ b' sl := by
  induction n with
  | zero =>
    intro s bytes b i R h
    refine ⟨s, b, rfl, ?_⟩
    have h1 : bytes.drop i = [] := List.drop_of_length_le (by omega)
    have h2 : bytes.take i = bytes := List.take_of_length_le (by omega)
    rw [h1, h2]
    simpa using R
  | succ n ih =>
    intro s bytes b i R h
    unfold bsMapLoop
    rw [withPointer_in R (by omega), hf R i (by omega), Out.ret_bind']
    obtain ⟨s1, b1, e1, R1⟩ := store_ok R (i := i) (by omega) (g bytes[i])
    simp only [e1, Out.ret_bind']
    obtain ⟨s', b', e, R'⟩ := ih R1 (i := i + 1) (by simp; omega)
    refine ⟨s', b', e, ?_⟩
    have e1 : (bytes.set i (g bytes[i])).take (i + 1) = bytes.take i ++ [g bytes[i]] := by
      rw [List.take_add_one, List.take_set_of_le (Nat.le_refl i)]
      simp [show i < bytes.length by omega]
    have e2 : (bytes.set i (g bytes[i])).drop (i + 1) = bytes.drop (i + 1) :=
      List.drop_set_of_lt (by omega)
    rw [e1, e2] at R'
    rw [List.drop_eq_getElem_cons (by omega), List.map_cons]
    simpa using R'

theorem countLoop_ok (R : Rep P s ⟨bytes.map some, c, []⟩ b sl) (n : Nat) : ∀ {i acc : Nat},
    i + n = bytes.length → acc + 8 * n < 18446744073709551616 →
    bsCountLoop s n i acc = .ret (stSuccess, acc + (flatBits (bytes.drop i)).count true) := by
  induction n with
  | zero =>
    intro i acc h _
    rw [List.drop_of_length_le (by omega)]
    rfl
  | succ n ih =>
    intro i acc h ha
    unfold bsCountLoop
    have hle : (byteBits bytes[i]).count true ≤ 8 := by
      have := List.count_le_length (a := true) (l := byteBits bytes[i]); simpa using this
    rw [withPointer_in R (by omega), load_ok R (List.getElem?_eq_getElem (by omega)), Out.ret_bind',
      popcnt_eq, add64_eq (by omega), ih (by omega) (by omega), List.drop_eq_getElem_cons (i := i) (by omega),
      flatBits_cons, List.count_append]
    simp only [Nat.add_assoc]

theorem scan_ok {t : Bits} (R : Rep P t.s ⟨bytes.map some, c, []⟩ b sl)
    (whole : Byte → Bool) (last : Byte → Byte → Bool) (hit miss : Status) (n : Nat) : ∀ {i : Nat},
    i + n = bytes.length → bsScan t whole last hit miss n i =
      .ret (if (bytes.drop i).dropLast.any whole ∨
        ((bytes.drop i).getLast?.any fun x => last x (lastMask t.size)) then hit else miss) := by
  have h64 : bytes.length < 18446744073709551616 := by
    have := (R.fits.mul_growth (g := 1) (by omega) R.esz1).2.2
    simpa using this
  induction n with
  | zero =>
    intro i h
    rw [List.drop_of_length_le (by omega)]
    simp [bsScan]
  | succ n ih =>
    intro i h
    unfold bsScan
    rw [withPointer_in R (by omega), load_ok R (List.getElem?_eq_getElem (by omega)), Out.ret_bind',
      R.vsize, ih (by omega), sub64_eq (by omega) h64, List.drop_eq_getElem_cons (i := i) (by omega)]
    by_cases hl : i < bytes.length - 1
    · rw [if_pos hl]
      have hne : bytes.drop (i + 1) ≠ [] := by
        intro h0
        have := congrArg List.length h0
        simp at this; omega
      rw [List.dropLast_cons_of_ne_nil hne, List.getLast?_cons_of_ne_nil hne]
      by_cases hw : whole bytes[i] <;> simp [hw]
    · rw [if_neg hl]
      have h0 : bytes.drop (i + 1) = [] := List.drop_of_length_le (by omega)
      rw [h0]
      by_cases hw : last bytes[i] (lastMask t.size) <;> simp [hw]

end

end Zy
