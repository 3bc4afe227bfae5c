import Verif.Spec.BitPrograms
import Verif.Lemmas.BitsetProps
import Verif.Lemmas.BitsetAlias

/-!
# Lemmas: programs that combine bitsets
-/

namespace Zy

open Spec

/-- A logical operation on bitsets of the same size acts position by position, on the valid and on the stray bits. -/
theorem logic_same {P P' : Params} {t u : Bits} (h : BReach P t) (hu : BReach P' u) (hs : t.size = u.size)
    {f : Byte → Byte → Byte} {g : Bool → Bool → Bool}
    (hg : ∀ x y, byteBits (f x y) = List.zipWith g (byteBits x) (byteBits y)) :
    ∃ t', bsPerform (fun x y => (stSuccess, f x y)) t u = .ret (stSuccess, t') ∧ t'.size = t.size ∧ BReach P t' ∧
      (babsOf t').bits = List.zipWith g (babsOf t).bits (babsOf u).bits ∧
      (babsOf t').stray = List.zipWith g (babsOf t).stray (babsOf u).stray := by
  obtain ⟨bytes, b, sl, R⟩ := h.rep
  obtain ⟨ys, bu, slu, U⟩ := hu.rep
  obtain ⟨t', b', e, hsz, R'⟩ := perform_ok R U f
  have h1 := R.len
  have h2 := U.len
  have h3 := R.short
  have h4 := U.short
  have h5 := R.size
  have h6 := U.size
  have hb : bytes.length = ys.length := by omega
  have hl : (babsOf t).bits.length = (babsOf u).bits.length := by omega
  have hflat : flatBits (List.zipWith f bytes ys ++ bytes.drop ys.length) =
      List.zipWith g (babsOf t).bits (babsOf u).bits ++ List.zipWith g (babsOf t).stray (babsOf u).stray := by
    rw [flatBits_zipWith hg bytes ys]
    unfold combine
    rw [← R.flat, ← U.flat, List.drop_of_length_le (by rw [List.length_append, List.length_append]; omega),
      List.append_nil, List.zipWith_append hl]
  have hz : (List.zipWith g (babsOf t).bits (babsOf u).bits).length = (babsOf t).bits.length := by
    rw [List.length_zipWith]; omega
  refine ⟨t', e, hsz, BReach.logic f h hu e, ?_, ?_⟩
  · rw [R'.abs_eq, hflat]
    exact List.take_left' hz
  · rw [R'.abs_eq, hflat]
    exact List.drop_left' hz

/-- The same, when both arguments are the same object. -/
theorem logic_self {P : Params} {t : Bits} (h : BReach P t) {f : Byte → Byte → Byte} {g : Bool → Bool → Bool}
    (hg : ∀ x y, byteBits (f x y) = List.zipWith g (byteBits x) (byteBits y)) :
    ∃ t', bsPerformSelf (fun x y => (stSuccess, f x y)) t = .ret (stSuccess, t') ∧ t'.size = t.size ∧ BReach P t' ∧
      (babsOf t').bits = List.zipWith g (babsOf t).bits (babsOf t).bits ∧
      (babsOf t').stray = List.zipWith g (babsOf t).stray (babsOf t).stray := by
  obtain ⟨bytes, b, sl, R⟩ := h.rep
  rw [performSelf_eq R]
  exact logic_same h h rfl hg

/-- Changing all bits. -/
theorem all_same {P : Params} {t : Bits} (h : BReach P t) {op : BOp} {g : Bool → Bool}
    (hd : BInDomain P (babsOf t) op) (hop : bstep P (babsOf t) op = changeAll (babsOf t) g) :
    ∃ t', bsOp t op = .ret (stSuccess, t') ∧ t'.size = t.size ∧ BReach P t' ∧
      (babsOf t').bits = (babsOf t).bits.map g ∧ (babsOf t').stray = (babsOf t).stray.map g := by
  obtain ⟨bytes, b, sl, R⟩ := h.rep
  obtain ⟨t', bytes', b', sl', e, R'⟩ := bop_ok R op hd
  rw [hop] at e R'
  refine ⟨t', e, ?_, BReach.step h hd e, ?_, ?_⟩
  · rw [R'.size, R.size]; simp [changeAll]
  · rw [R'.abs_eq]; rfl
  · rw [R'.abs_eq]; rfl

/-- Bitsets of one size that programs can obtain. -/
def Level (n : Nat) (env : Nat → Bits) : Prop := ∀ a, (∃ P, BReach P (env a)) ∧ (env a).size = n

/-- The bits at one position. -/
def bitAt (env : Nat → Bits) (i : Nat) : Nat → Bool := fun a => (babsOf (env a)).bits[i]?.getD false

theorem Level.bits_length {n : Nat} {env : Nat → Bits} (h : Level n env) (a : Nat) :
    (babsOf (env a)).bits.length = n := by
  obtain ⟨⟨P, hP⟩, hn⟩ := h a
  obtain ⟨bytes, b, sl, R⟩ := hP.rep
  rw [← R.size, hn]

theorem Level.test {n : Nat} {env : Nat → Bits} (h : Level n env) (a : Nat) {i : Nat} (hi : i < n) :
    bsTest (env a) i = .ret (answer (some (bitAt env i a))) := by
  have hl := h.bits_length a
  obtain ⟨⟨P, hP⟩, hn⟩ := h a
  obtain ⟨bytes, b, sl, R⟩ := hP.rep
  rw [test_ok R]
  unfold bitAt
  rw [List.getElem?_eq_getElem (by omega), Option.getD_some]

theorem Level.assign {n : Nat} {env : Nat → Bits} (h : Level n env) {a : Nat} {t : Bits} {P : Params}
    (ht : BReach P t) (hs : t.size = n) : Level n (assignAt env a t) := by
  intro c
  unfold assignAt
  split
  · exact ⟨⟨P, ht⟩, hs⟩
  · exact h c

theorem bitAt_assign {env : Nat → Bits} {a i : Nat} {t : Bits} {x : Bool}
    (hx : (babsOf t).bits[i]?.getD false = x) (f : Nat → Bool) (hf : ∀ c, f c = bitAt env i c) :
    ∀ c, bitAt (assignAt env a t) i c = assignAt f a x c := by
  intro c
  unfold bitAt assignAt
  split
  · exact hx
  · rw [hf]; rfl

theorem zip_at {g : Bool → Bool → Bool} {x y : List Bool} {i : Nat} (hx : i < x.length) (hy : i < y.length) :
    (List.zipWith g x y)[i]?.getD false = g (x[i]?.getD false) (y[i]?.getD false) := by
  rw [List.getElem?_eq_getElem hx, List.getElem?_eq_getElem hy,
    List.getElem?_eq_getElem (by rw [List.length_zipWith]; omega)]
  simp

theorem map_at {g : Bool → Bool} {x : List Bool} {i : Nat} (hx : i < x.length) :
    (x.map g)[i]?.getD false = g (x[i]?.getD false) := by
  rw [List.getElem?_eq_getElem hx, List.getElem?_eq_getElem (by rw [List.length_map]; exact hx)]
  simp

/-- The outcome of a command. -/
def CmdOK (n : Nat) (env : Nat → Bits) (c : BitCmd) : Prop :=
  ∃ env', bitCmd env c = .ret (stSuccess, env') ∧ Level n env' ∧
    ∀ i, i < n → ∀ a, bitAt env' i a = onOneBit (bitAt env i) c a

/-- The three logical operations. -/
theorem logic_cmd {n : Nat} {env : Nat → Bits} (h : Level n env) (a b : Nat) {f : Byte → Byte → Byte}
    {g : Bool → Bool → Bool} (hg : ∀ x y, byteBits (f x y) = List.zipWith g (byteBits x) (byteBits y)) :
    ∃ t', (if a = b then bsPerformSelf (fun x y => (stSuccess, f x y)) (env a)
        else bsPerform (fun x y => (stSuccess, f x y)) (env a) (env b)) = .ret (stSuccess, t') ∧
      Level n (assignAt env a t') ∧
      ∀ i, i < n → (babsOf t').bits[i]?.getD false = g (bitAt env i a) (bitAt env i b) := by
  have ha := h.bits_length a
  have hb := h.bits_length b
  obtain ⟨⟨P, hP⟩, hn⟩ := h a
  obtain ⟨⟨Q, hQ⟩, hm⟩ := h b
  by_cases hab : a = b
  · subst hab
    obtain ⟨t', e, hs, hr, hbits, _⟩ := logic_self hP hg
    refine ⟨t', by rw [if_pos rfl]; exact e, h.assign hr (hs.trans hn), fun i hi => ?_⟩
    rw [hbits, zip_at (by omega) (by omega)]; rfl
  · obtain ⟨t', e, hs, hr, hbits, _⟩ := logic_same hP hQ (hn.trans hm.symm) hg
    refine ⟨t', by rw [if_neg hab]; exact e, h.assign hr (hs.trans hn), fun i hi => ?_⟩
    rw [hbits, zip_at (by omega) (by omega)]; rfl

theorem all_cmd {n : Nat} {env : Nat → Bits} (h : Level n env) (a : Nat) {op : BOp} {g : Bool → Bool}
    (hd : ∀ P s, BInDomain P s op) (hop : ∀ P s, bstep P s op = changeAll s g) :
    ∃ t', bsOp (env a) op = .ret (stSuccess, t') ∧ Level n (assignAt env a t') ∧
      ∀ i, i < n → (babsOf t').bits[i]?.getD false = g (bitAt env i a) := by
  have ha := h.bits_length a
  obtain ⟨⟨P, hP⟩, hn⟩ := h a
  obtain ⟨t', e, hs, hr, hbits, _⟩ := all_same hP (hd _ _) (hop _ _)
  refine ⟨t', e, h.assign hr (hs.trans hn), fun i hi => ?_⟩
  rw [hbits, map_at (by omega)]; rfl

theorem bitCmd_ok {n : Nat} {env : Nat → Bits} (h : Level n env) (c : BitCmd) : CmdOK n env c := by
  cases c with
  | and a b =>
    obtain ⟨t', e, hl, hx⟩ := logic_cmd h a b byteBits_and
    refine ⟨_, ?_, hl, fun i hi => bitAt_assign (hx i hi) _ fun _ => rfl⟩
    simp only [bitCmd, bsAndSelf, bsAnd, e, Out.ret_bind']
  | or a b =>
    obtain ⟨t', e, hl, hx⟩ := logic_cmd h a b byteBits_or
    refine ⟨_, ?_, hl, fun i hi => bitAt_assign (hx i hi) _ fun _ => rfl⟩
    simp only [bitCmd, bsOrSelf, bsOr, e, Out.ret_bind']
  | xor a b =>
    obtain ⟨t', e, hl, hx⟩ := logic_cmd h a b byteBits_xor
    refine ⟨_, ?_, hl, fun i hi => bitAt_assign (hx i hi) _ fun _ => rfl⟩
    simp only [bitCmd, bsXorSelf, bsXor, e, Out.ret_bind']
  | flip a =>
    obtain ⟨t', e, hl, hx⟩ := all_cmd h a (op := .flip) (fun _ _ => trivial) fun _ _ => rfl
    refine ⟨_, ?_, hl, fun i hi => bitAt_assign (hx i hi) _ fun _ => rfl⟩
    simp only [bsOp] at e
    simp only [bitCmd, e, Out.ret_bind']
  | setAll a =>
    obtain ⟨t', e, hl, hx⟩ := all_cmd h a (op := .setAll) (fun _ _ => trivial) fun _ _ => rfl
    refine ⟨_, ?_, hl, fun i hi => bitAt_assign (hx i hi) _ fun _ => rfl⟩
    simp only [bsOp] at e
    simp only [bitCmd, e, Out.ret_bind']
  | resetAll a =>
    obtain ⟨t', e, hl, hx⟩ := all_cmd h a (op := .resetAll) (fun _ _ => trivial) fun _ _ => rfl
    refine ⟨_, ?_, hl, fun i hi => bitAt_assign (hx i hi) _ fun _ => rfl⟩
    simp only [bsOp] at e
    simp only [bitCmd, e, Out.ret_bind']

theorem onOneBit_congr {f f' : Nat → Bool} (h : ∀ a, f a = f' a) (c : BitCmd) :
    ∀ a, onOneBit f c a = onOneBit f' c a := by
  have : f = f' := funext h
  rw [this]
  exact fun _ => rfl

theorem runBitCmds_ok (cs : List BitCmd) : ∀ {n : Nat} {env : Nat → Bits}, Level n env →
    ∃ env', runBitCmds env cs = .ret (stSuccess, env') ∧ Level n env' ∧
      ∀ i, i < n → ∀ a, bitAt env' i a = cs.foldl onOneBit (bitAt env i) a := by
  induction cs with
  | nil => intro n env h; exact ⟨env, rfl, h, fun _ _ _ => rfl⟩
  | cons c cs ih =>
    intro n env h
    obtain ⟨env1, e1, h1, x1⟩ := bitCmd_ok h c
    obtain ⟨env2, e2, h2, x2⟩ := ih h1
    refine ⟨env2, ?_, h2, fun i hi a => ?_⟩
    · simp only [runBitCmds, e1, Out.ret_bind', failed_success, e2]
      rfl
    · rw [x2 i hi a, List.foldl_cons, show bitAt env1 i = onOneBit (bitAt env i) c from funext (x1 i hi)]

/-! ## Counting -/

theorem count_zip {x : List Bool} : ∀ {y : List Bool}, x.length = y.length →
    (List.zipWith and x y).count true + (List.zipWith or x y).count true = x.count true + y.count true ∧
    (List.zipWith xor x y).count true + 2 * (List.zipWith and x y).count true = x.count true + y.count true := by
  induction x with
  | nil =>
    intro y h
    cases y with
    | nil => simp
    | cons _ _ => simp at h
  | cons a x ih =>
    intro y h
    cases y with
    | nil => simp at h
    | cons b y =>
      obtain ⟨h1, h2⟩ := ih (by simpa using h)
      cases a <;> cases b <;> simp <;> omega

theorem zip_clean {g : Bool → Bool → Bool} (hg : g false false = false) {x : List Bool} :
    ∀ {y : List Bool}, true ∉ x → true ∉ y → true ∉ List.zipWith g x y := by
  induction x with
  | nil => intro y _ _; simp
  | cons a x ih =>
    intro y hx hy
    cases y with
    | nil => simp
    | cons b y =>
      simp only [List.mem_cons, not_or] at hx hy
      have ha : a = false := by cases a <;> simp_all
      have hb : b = false := by cases b <;> simp_all
      subst ha hb
      simp only [List.zipWith_cons_cons, List.mem_cons, hg, not_or]
      exact ⟨by decide, ih hx.2 hy.2⟩

/-- The count of a bitset without set stray bits. -/
theorem count_no_stray {P : Params} {t : Bits} (h : BReach P t) (hc : true ∉ (babsOf t).stray) :
    bsCount t = .ret (stSuccess, (babsOf t).bits.count true) := by
  obtain ⟨bytes, b, sl, R⟩ := h.rep
  rw [count_ok R, List.count_append, List.count_eq_zero.mpr hc, Nat.add_zero, Nat.min_eq_left List.count_le_length]

end Zy
