import Verif.Spec.ArgParseWord
import Verif.Lemmas.VectorWord

/-!
# Lemmas for the argument parser on targets with another width of `size_t`
-/

namespace Zy

open Spec

/-- Two computations end the same way, with related results. -/
def ORel {β γ : Type} (R : β → γ → Prop) : Out β → Out γ → Prop
  | .ret a, .ret b => R a b
  | .ub x, .ub y => x = y
  | _, _ => False

theorem ORel.bind {β γ δ ε : Type} {R : β → γ → Prop} {S : δ → ε → Prop} {o : Out β} {o' : Out γ}
    {f : β → Out δ} {g : γ → Out ε} (h : ORel R o o') (hf : ∀ a b, R a b → ORel S (f a) (g b)) :
    ORel S (o.bind f) (o'.bind g) := by
  cases o <;> cases o' <;> first | exact hf _ _ h | exact h | exact h.elim

/-- The same computation on both sides. -/
theorem ORel.same {β δ ε : Type} {S : δ → ε → Prop} (o : Out β) {f : β → Out δ} {g : β → Out ε}
    (hf : ∀ a, o = .ret a → ORel S (f a) (g a)) : ORel S (o.bind f) (o.bind g) := by
  cases o with
  | ret a => exact hf a rfl
  | ub x => exact rfl

/-- The vectors of the parser fit into the target. -/
structure AFit (m e B : Nat) : Prop where
  pos : 0 < e
  one : 1 ≤ B
  small : 2 * B * e < m

theorem AFit.lt {m e B : Nat} (F : AFit m e B) : 2 * B < m := by
  have := Nat.mul_le_mul_left (2 * B) F.pos
  have := F.small
  omega

theorem AFit.granted {m e B n : Nat} (F : AFit m e B) (h : n ≤ 2 * B) : grantedCellsW m e n = n := by
  unfold grantedCellsW mulW
  have : n * e ≤ 2 * B * e := Nat.mul_le_mul_right _ h
  rw [Nat.mul_comm e n, Nat.mod_eq_of_lt (Nat.lt_of_le_of_lt this F.small), Nat.mul_div_cancel _ F.pos]

/-- The world without the sizes of elements. -/
def wshape (w : World AArg) : World AArg := { w with trace := w.trace.map requestOf }

/-- The states of the parser on two targets: equal up to the size of an element; `k` more arguments may
be added. -/
structure AR (e e' B k : Nat) (s s' : VS AArg) : Prop where
  esz : s.v.esz = e
  esz' : s'.v.esz = e'
  rest : { s.v with esz := 0 } = { s'.v with esz := 0 }
  world : wshape s.w = wshape s'.w
  grow : s.v.growth = 2
  size : s.v.size + k ≤ B
  cap : s.v.cap ≤ 2 * B
  dtor : s.v.hasDtor = false

section
variable {e e' B k : Nat} {s s' : VS AArg}

theorem AR.size_eq (h : AR e e' B k s s') : s.v.size = s'.v.size := congrArg (·.size) h.rest
theorem AR.cap_eq (h : AR e e' B k s s') : s.v.cap = s'.v.cap := congrArg (·.cap) h.rest
theorem AR.data_eq (h : AR e e' B k s s') : s.v.data = s'.v.data := congrArg (·.data) h.rest
theorem AR.alloc_eq (h : AR e e' B k s s') : s.v.allocator = s'.v.allocator := congrArg (·.allocator) h.rest
theorem AR.grow_eq (h : AR e e' B k s s') : s.v.growth = s'.v.growth := congrArg (·.growth) h.rest
theorem AR.dtor_eq (h : AR e e' B k s s') : s.v.hasDtor = s'.v.hasDtor := congrArg (·.hasDtor) h.rest
theorem AR.oracle_eq (h : AR e e' B k s s') : s.w.oracle = s'.w.oracle := congrArg (·.oracle) h.world
theorem AR.calls_eq (h : AR e e' B k s s') : s.w.calls = s'.w.calls := congrArg (·.calls) h.world
theorem AR.next_eq (h : AR e e' B k s s') : s.w.nextBlk = s'.w.nextBlk := congrArg (·.nextBlk) h.world
theorem AR.trace_eq (h : AR e e' B k s s') : s.w.trace.map requestOf = s'.w.trace.map requestOf :=
  congrArg (·.trace) h.world

theorem AR.mono {j : Nat} (h : AR e e' B k s s') (hj : j ≤ k) : AR e e' B j s s' :=
  ⟨h.esz, h.esz', h.rest, h.world, h.grow, by have := h.size; omega, h.cap, h.dtor⟩

theorem AR.symm (h : AR e e' B k s s') : AR e' e B k s' s :=
  ⟨h.esz', h.esz, h.rest.symm, h.world.symm, h.grow_eq ▸ h.grow, h.size_eq ▸ h.size, h.cap_eq ▸ h.cap,
    h.dtor_eq ▸ h.dtor⟩

theorem AR.setData (h : AR e e' B k s s') (d : Option (Block AArg)) :
    AR e e' B k { s with v := { s.v with data := d } } { s' with v := { s'.v with data := d } } :=
  ⟨h.esz, h.esz', by
    have := congrArg (fun v : Vec AArg => { v with data := d }) h.rest
    exact this, h.world, h.grow, h.size, h.cap, h.dtor⟩

end

/-- `ZyanVectorEmplace` at the end without a constructor, in unbounded arithmetic. -/
def emplaceN (s : VS AArg) : Out (Status × VS AArg) :=
  if s.v.size + 1 > s.v.cap then
    match s.v.allocator with
    | none => .ret (stInsufficient, s)
    | some a =>
      withData s.v.data fun b =>
      let n := (s.v.size + 1) * 2
      let st := s.w.oracle s.w.calls
      let w := { s.w with calls := s.w.calls + 1 }
      if failed st then .ret (st, { v := { s.v with cap := n }, w := w.log (.refused a) })
      else .ret (stSuccess,
        { v := { s.v with cap := n, size := s.v.size + 1,
                          data := some ⟨w.nextBlk, b.cells.take n ++ List.replicate (n - b.cells.length) none⟩ }
          w := { w with nextBlk := w.nextBlk + 1 }.log (.realloc a b.id w.nextBlk s.v.esz n) })
  else .ret (stSuccess, { s with v := { s.v with size := s.v.size + 1 } })

theorem emplaceW_fit {m e B : Nat} (F : AFit m e B) {s : VS AArg} (he : s.v.esz = e) (hg : s.v.growth = 2)
    (hs : s.v.size + 1 ≤ B) : vecEmplaceExW m s s.v.size none = emplaceN s := by
  have hlt := F.lt
  have e1 : addW m s.v.size 1 = s.v.size + 1 := Nat.mod_eq_of_lt (by omega)
  have e2 : max 1 (mulW m (s.v.size + 1) 2) = (s.v.size + 1) * 2 := by
    unfold mulW
    rw [Nat.mod_eq_of_lt (by omega)]
    omega
  have hG : grantedCellsW m s.v.esz ((s.v.size + 1) * 2) = (s.v.size + 1) * 2 := by
    rw [he]; exact F.granted (by omega)
  unfold vecEmplaceExW emplaceN growForW
  rw [if_neg (by omega), e1, hg, e2]
  by_cases hc : s.v.size + 1 > s.v.cap
  · have hsg : shouldGrow (s.v.size + 1) s.v.cap = true := by simpa [shouldGrow] using hc
    rw [if_pos hsg, if_pos hc]
    unfold reallocateW
    cases ha : s.v.allocator with
    | none =>
      simp only
      rw [if_pos (by omega)]
      have : failed stInsufficient = true := by decide
      simp [Out.bind, this]
    | some a =>
      simp only
      rw [if_neg (by omega)]
      unfold reallocToW
      cases hd : s.v.data with
      | none => rfl
      | some b =>
        simp only [withData, reallocBlockW, hG]
        by_cases hf : failed (s.w.oracle s.w.calls) = true
        · simp [hf, Out.bind]
        · simp only [Bool.not_eq_true] at hf
          simp [hf, Out.bind, e1, failed_success]
  · have hsg : ¬ shouldGrow (s.v.size + 1) s.v.cap = true := by simpa [shouldGrow] using hc
    rw [if_neg hsg, if_neg hc]
    simp [Out.bind, e1, failed_success]

section
variable {m e m' e' B k : Nat} (F : AFit m e B) (F' : AFit m' e' B)

include F in
theorem emplaceN_rel {s s' : VS AArg} (h : AR e e' B (k + 1) s s') :
    ORel (fun r r' => r.1 = r'.1 ∧ AR e e' B k r.2 r'.2 ∧
      (failed r.1 = false → r.2.v.size = s.v.size + 1)) (emplaceN s) (emplaceN s') := by
  have hsz := h.size
  have hlt := F.lt
  unfold emplaceN
  rw [← h.size_eq, ← h.cap_eq, ← h.alloc_eq, ← h.data_eq, ← h.oracle_eq, ← h.calls_eq]
  split
  · cases ha : s.v.allocator with
    | none => exact ⟨rfl, h.mono (by omega), fun hx => absurd (show failed stInsufficient = false from hx) (by decide)⟩
    | some a =>
      simp only
      cases hd : s.v.data with
      | none => exact rfl
      | some b =>
        simp only [withData]
        split
        · rename_i hf
          refine ⟨rfl, ⟨h.esz, h.esz', ?_, ?_, h.grow, by simp only; omega, by simp only; omega, h.dtor⟩,
            fun hx => by rw [hf] at hx; cases hx⟩
          · simp only [← hd]
            exact congrArg (fun v : Vec AArg => { v with cap := (s.v.size + 1) * 2 }) h.rest
          · simp [wshape, World.log, h.trace_eq, h.oracle_eq, h.next_eq, requestOf]
        · refine ⟨rfl, ⟨h.esz, h.esz', ?_, ?_, h.grow, by simp only; omega, by simp only; omega, h.dtor⟩,
            fun _ => rfl⟩
          · have := congrArg (fun v : Vec AArg => { v with
              cap := (s.v.size + 1) * 2, size := s.v.size + 1,
              data := some ⟨s.w.nextBlk, b.cells.take ((s.v.size + 1) * 2) ++
                List.replicate ((s.v.size + 1) * 2 - b.cells.length) none⟩ }) h.rest
            simp only [← h.next_eq]
            exact this
          · simp [wshape, World.log, h.trace_eq, h.oracle_eq, h.next_eq, requestOf]
  · refine ⟨rfl, ⟨h.esz, h.esz', ?_, h.world, h.grow, by simp only; omega, h.cap, h.dtor⟩, fun _ => rfl⟩
    exact congrArg (fun v : Vec AArg => { v with size := s.v.size + 1 }) h.rest

include F F'

theorem newArgW_rel {s s' : VS AArg} (h : AR e e' B (k + 1) s s') :
    ORel (fun r r' => r.1 = r'.1 ∧ AR e e' B k r.2 r'.2 ∧
      (failed r.1 = false → 1 ≤ r.2.v.size)) (newArgW m s) (newArgW m' s') := by
  have hsz := h.size
  have hsz' := h.symm.size
  unfold newArgW
  rw [emplaceW_fit F h.esz h.grow (by omega), emplaceW_fit F' h.esz' h.symm.grow (by omega)]
  refine (emplaceN_rel F h).bind fun r r' hr => ?_
  obtain ⟨h1, h2, h3⟩ := hr
  rw [← h1]
  split
  · rename_i hf
    exact ⟨h1, h2, fun hx => by rw [hf] at hx; cases hx⟩
  · rename_i hf
    rw [← h2.data_eq, ← h.size_eq]
    have h4 := h3 (by simpa using hf)
    cases hd : r.2.v.data with
    | none => exact rfl
    | some b =>
      refine ORel.same _ fun cs _ => ⟨rfl, h2.setData _, fun _ => ?_⟩
      show 1 ≤ r.2.v.size
      omega

theorem modArgW_rel {s s' : VS AArg} (h : AR e e' B k s s') (h1 : 1 ≤ s.v.size) (f : AArg → AArg) :
    ORel (fun t t' => AR e e' B k t t' ∧ t.v.size = s.v.size) (modArgW m s f) (modArgW m' s' f) := by
  have hsz := h.size
  have hlt := F.lt
  have hlt' := F'.lt
  unfold modArgW
  rw [subW_nat (by omega) (by omega), subW_nat (by rw [← h.size_eq]; omega) (by rw [← h.size_eq]; omega),
    ← h.data_eq, ← h.size_eq]
  cases hd : s.v.data with
  | none => exact rfl
  | some b =>
    simp only [withData]
    split
    · exact rfl
    · exact rfl
    · exact ORel.same _ fun cs _ => ⟨h.setData _, rfl⟩

theorem putValueW_rel {s s' : VS AArg} (h : AR e e' B k s s') (h1 : 1 ≤ s.v.size) (p : List (Cell Byte))
    (hp : ∀ n, cStrlen p = .ret n → n < B) :
    ORel (fun r r' => r.1 = r'.1 ∧ AR e e' B k r.2 r'.2) (putValueW m s p) (putValueW m' s' p) := by
  have hlt := F.lt
  have hlt' := F'.lt
  unfold putValueW
  refine (modArgW_rel F F' h h1 _).bind fun t t' ht => ?_
  unfold viewInsideBufferW
  cases hc : cStrlen p with
  | ub x => exact rfl
  | ret n =>
    have hn := hp n hc
    have e1 : addW m n 1 = n + 1 := Nat.mod_eq_of_lt (by omega)
    have e2 : addW m' n 1 = n + 1 := Nat.mod_eq_of_lt (by omega)
    simp only [Out.bind, e1, e2]
    split
    · exact ⟨rfl, ht.1⟩
    · exact (modArgW_rel F F' ht.1 (by omega) _).bind fun u u' hu => ⟨rfl, hu.1⟩

/-! ## Tokens -/

/-- The number of arguments that the tokens from `i` on can stand for. -/
def tokenRoom (cfg : ArgConfig) (i : Nat) : Nat :=
  ((cfg.argv.drop i).map fun t => t.length + 1).sum

/-- How pieces of the parser end on two targets. The room after the end is that of the tokens that are
left. -/
def CRel (e e' B : Nat) (cfg : ArgConfig) (x : Nat) : Ctl → Ctl → Prop
  | .fall s i, .fall s' i' => i = i' ∧ AR e e' B (x + tokenRoom cfg (i + 1)) s s'
  | .cont s i, .cont s' i' => i = i' ∧ AR e e' B (tokenRoom cfg (i + 1)) s s'
  | .fail er t s, .fail er' t' s' => er = er' ∧ t = t' ∧ AR e e' B 0 s s'
  | .quit st s, .quit st' s' => st = st' ∧ AR e e' B 0 s s'
  | _, _ => False

end

theorem tokenRoom_at {cfg : ArgConfig} {i : Nat} {t : List Byte} (h : cfg.argv[i]? = some t) :
    tokenRoom cfg i = t.length + 1 + tokenRoom cfg (i + 1) := by
  obtain ⟨hi, he⟩ := List.getElem?_eq_some_iff.1 h
  unfold tokenRoom
  rw [List.drop_eq_getElem_cons hi, he]
  simp

theorem tokenRoom_le {cfg : ArgConfig} (i : Nat) : tokenRoom cfg (i + 1) ≤ tokenRoom cfg i := by
  cases h : cfg.argv[i]? with
  | none =>
    have := List.getElem?_eq_none_iff.1 h
    unfold tokenRoom
    rw [List.drop_eq_nil_of_le (by omega), List.drop_eq_nil_of_le (by omega)]
    exact Nat.le_refl _
  | some t => rw [tokenRoom_at h]; omega

theorem tokenRoom_zero (cfg : ArgConfig) :
    tokenRoom cfg 0 = cfg.argv.length + (cfg.argv.map List.length).sum := by
  unfold tokenRoom
  rw [List.drop_zero]
  induction cfg.argv with
  | nil => rfl
  | cons t ts ih => simp only [List.map_cons, List.sum_cons, List.length_cons, ih]; omega

theorem tokenRoom_le_zero {cfg : ArgConfig} : ∀ i, tokenRoom cfg i ≤ tokenRoom cfg 0
  | 0 => Nat.le_refl _
  | i + 1 => Nat.le_trans (tokenRoom_le i) (tokenRoom_le_zero i)

theorem cStrlen_le : ∀ (p : List (Cell Byte)) (n : Nat), cStrlen p = .ret n → n < p.length := by
  intro p
  induction p with
  | nil => intro n h; cases h
  | cons c cs ih =>
    intro n h
    cases c with
    | none => cases h
    | some b =>
      simp only [cStrlen] at h
      split at h
      · cases h; simp
      · cases hc : cStrlen cs with
        | ub x => rw [hc] at h; cases h
        | ret k =>
          rw [hc] at h
          have := ih k hc
          cases h
          simp only [List.length_cons]
          omega

theorem strMem_length (t : List Byte) : (strMem t).length = t.length + 1 := by simp [strMem]

theorem argvAt_ret {cfg : ArgConfig} {i : Nat} {t : List Byte} (h : argvAt cfg i = .ret t) :
    cfg.argv[i]? = some t := by
  unfold argvAt at h
  split at h
  · cases h
  · rename_i x hx; cases h; exact hx

section
variable {m e m' e' B : Nat} (F : AFit m e B) (F' : AFit m' e' B) {cfg : ArgConfig}
  (hB : tokenRoom cfg 0 ≤ B) (hargc : cfg.argc ≤ B) (h1c : 1 ≤ cfg.argc)
include hB in
theorem token_lt {i : Nat} {t : List Byte} (h : cfg.argv[i]? = some t) : t.length < B := by
  have := tokenRoom_at h
  have := tokenRoom_le_zero (cfg := cfg) i
  omega

include F F' hB hargc h1c

theorem takeNextW_rel {cur : List Byte} {s s' : VS AArg} {i x : Nat}
    (h : AR e e' B (tokenRoom cfg (i + 1)) s s') (h1 : 1 ≤ s.v.size) :
    ORel (CRel e e' B cfg x) (takeNextW m cfg cur s i) (takeNextW m' cfg cur s' i) := by
  have hlt := F.lt
  have hlt' := F'.lt
  unfold takeNextW
  rw [subW_nat (by omega) (by omega), subW_nat (by omega) (by omega)]
  split
  · exact ⟨rfl, rfl, h.mono (by omega)⟩
  · refine ORel.same _ fun v hv => ?_
    have hv' := argvAt_ret hv
    have hvl := token_lt hB hv'
    refine (putValueW_rel F F' h h1 _ fun n hn => ?_).bind fun r r' hr => ?_
    · have := cStrlen_le _ _ hn
      rw [strMem_length] at this
      omega
    · rw [← hr.1]
      split
      · exact ⟨rfl, hr.2.mono (by omega)⟩
      · exact ⟨rfl, hr.2.mono (tokenRoom_le _)⟩

theorem longArgW_rel {cur : List Byte} {s s' : VS AArg} {i x : Nat}
    (h : AR e e' B (tokenRoom cfg (i + 1) + 1) s s') :
    ORel (CRel e e' B cfg x) (longArgW m cfg cur s i) (longArgW m' cfg cur s' i) := by
  unfold longArgW
  refine (newArgW_rel F F' h).bind fun r r' hr => ?_
  rw [← hr.1]
  split
  · exact ⟨rfl, hr.2.1.mono (by omega)⟩
  · rename_i hf
    have hsz := hr.2.2 (by simpa using hf)
    refine ORel.same _ fun f _ => ?_
    split
    · exact ⟨rfl, rfl, hr.2.1.mono (by omega)⟩
    · refine (modArgW_rel F F' hr.2.1 hsz _).bind fun t t' ht => ?_
      split
      · exact ⟨rfl, ht.1⟩
      · exact takeNextW_rel F F' hB hargc h1c ht.1 (by omega)

theorem shortLoopW_rel {cur : List Byte} {i x : Nat} (hcur : cur.length < B) : ∀ (fuel : Nat) {s s' : VS AArg} (k : Nat),
    AR e e' B (fuel + (x + tokenRoom cfg (i + 1))) s s' →
    ORel (CRel e e' B cfg x) (shortLoopW m cfg cur i fuel s k) (shortLoopW m' cfg cur i fuel s' k) := by
  intro fuel
  induction fuel with
  | zero => intros; exact rfl
  | succ fuel ih =>
    intro s s' k h
    simp only [shortLoopW]
    refine ORel.same _ fun c _ => ?_
    split
    · exact ⟨rfl, h.mono (by omega)⟩
    · have h' : AR e e' B (fuel + (x + tokenRoom cfg (i + 1)) + 1) s s' := h.mono (by omega)
      refine (newArgW_rel F F' h').bind fun r r' hr => ?_
      rw [← hr.1]
      split
      · exact ⟨rfl, hr.2.1.mono (by omega)⟩
      · rename_i hf
        have hsz := hr.2.2 (by simpa using hf)
        refine ORel.same _ fun f _ => ?_
        split
        · exact ⟨rfl, rfl, hr.2.1.mono (by omega)⟩
        · refine (modArgW_rel F F' hr.2.1 hsz _).bind fun t t' ht => ?_
          split
          · exact ih _ ht.1
          · refine ORel.same _ fun n _ => ?_
            split
            · refine (putValueW_rel F F' ht.1 (by omega) _ fun n hn => ?_).bind fun q q' hq => ?_
              · have := cStrlen_le _ _ hn
                rw [List.length_drop, strMem_length] at this
                omega
              · rw [← hq.1]
                split
                · exact ⟨rfl, hq.2.mono (by omega)⟩
                · exact ⟨rfl, hq.2.mono (by omega)⟩
            · exact takeNextW_rel F F' hB hargc h1c (ht.1.mono (by omega)) (by omega)

omit hB hargc h1c in
theorem unnamedArgW_rel {cur : List Byte} {s s' : VS AArg} {i x num : Nat} (hcur : cur.length < B)
    (h : AR e e' B (tokenRoom cfg (i + 1) + 1) s s') :
    ORel (CRel e e' B cfg x) (unnamedArgW m cfg cur s i num) (unnamedArgW m' cfg cur s' i num) := by
  unfold unnamedArgW
  split
  · exact ⟨rfl, rfl, h.mono (by omega)⟩
  · refine (newArgW_rel F F' h).bind fun r r' hr => ?_
    rw [← hr.1]
    split
    · exact ⟨rfl, hr.2.1.mono (by omega)⟩
    · rename_i hf
      refine (putValueW_rel F F' hr.2.1 (hr.2.2 (by simpa using hf)) _ fun n hn => ?_).bind fun q q' hq => ?_
      · have := cStrlen_le _ _ hn
        rw [strMem_length] at this
        omega
      · rw [← hq.1]
        split
        · exact ⟨rfl, hq.2.mono (by omega)⟩
        · exact ⟨rfl, hq.2⟩

end

/-- How the main loop ends on two targets. -/
def LRel (e e' B : Nat) (cfg : ArgConfig) (n : Nat) : LoopRes → LoopRes → Prop
  | .done p, .done p' => p.i = p'.i ∧ p.accept = p'.accept ∧ p.num = p'.num ∧ p.num ≤ n ∧
      AR e e' B (tokenRoom cfg (p.i + 1)) p.s p'.s
  | .fail er t s, .fail er' t' s' => er = er' ∧ t = t' ∧ AR e e' B 0 s s'
  | .quit st s, .quit st' s' => st = st' ∧ AR e e' B 0 s s'
  | _, _ => False

theorem finishTok_rel {e e' B : Nat} {cfg : ArgConfig} {x num n : Nat} {accept : Bool} (hn : num ≤ n)
    {c c' : Ctl} (h : CRel e e' B cfg x c c') :
    ORel (LRel e e' B cfg n) (finishTok num accept c) (finishTok num accept c') := by
  cases c <;> cases c' <;> first | exact h.elim | skip
  · obtain ⟨rfl, h⟩ := h
    exact ⟨rfl, rfl, rfl, hn, h.mono (Nat.le_add_left _ _)⟩
  · exact ⟨h.1, rfl, rfl, hn, h.2⟩
  · exact h
  · exact h

section
variable {m e m' e' B : Nat} (F : AFit m e B) (F' : AFit m' e' B) {cfg : ArgConfig}
  (hB : tokenRoom cfg 0 ≤ B) (hargc : cfg.argc ≤ B)
include F F' hB hargc

theorem argTokenW_rel (h1c : 1 ≤ cfg.argc) {s s' : VS AArg} {i num n : Nat} {accept : Bool} (hn : num < n) (hnB : n ≤ B)
    (h : AR e e' B (tokenRoom cfg i) s s') :
    ORel (LRel e e' B cfg n) (argTokenW m cfg ⟨s, i, accept, num⟩) (argTokenW m' cfg ⟨s', i, accept, num⟩) := by
  have hlt := F.lt
  have hlt' := F'.lt
  simp only [argTokenW]
  refine ORel.same _ fun cur hcur => ?_
  have hcur' := argvAt_ret hcur
  have hb := tokenRoom_at hcur'
  have hcl := token_lt hB hcur'
  refine ORel.same _ fun len hlen => ?_
  have hll := cStrlen_le _ _ hlen
  rw [strMem_length] at hll
  refine ORel.same _ fun dd _ => ?_
  split
  · split
    · exact ⟨rfl, rfl, rfl, Nat.le_of_lt hn, h.mono (tokenRoom_le i)⟩
    · exact (longArgW_rel F F' hB hargc h1c (x := 0) (h.mono (by omega))).bind
        fun c c' hc => finishTok_rel (by omega) hc
  · refine ORel.same _ fun sd _ => ?_
    refine ORel.bind (R := CRel e e' B cfg 1) ?_ fun c c' hc => ?_
    · split
      · exact shortLoopW_rel F F' hB hargc h1c hcl len 1 (h.mono (by omega))
      · exact ⟨rfl, h.mono (by omega)⟩
    · have e1 : addW m num 1 = num + 1 := Nat.mod_eq_of_lt (by omega)
      have e2 : addW m' num 1 = num + 1 := Nat.mod_eq_of_lt (by omega)
      cases c <;> cases c' <;> first | exact hc.elim | skip
      · obtain ⟨hi, ha⟩ := hc
        subst hi
        simp only [e1, e2]
        exact (unnamedArgW_rel F F' (x := 0) hcl (ha.mono (by omega))).bind
          fun c c' hc => finishTok_rel (by omega) hc
      · exact finishTok_rel (x := 1) (by omega) hc
      · exact finishTok_rel (x := 1) (by omega) hc
      · exact finishTok_rel (x := 1) (by omega) hc

theorem argLoopW_rel : ∀ (fuel : Nat) {s s' : VS AArg} {i num n : Nat} {accept : Bool}, num + fuel ≤ n →
    n ≤ B → AR e e' B (tokenRoom cfg i) s s' →
    ORel (fun l l' => match l, l' with
      | .done p, .done p' => p.num = p'.num ∧ AR e e' B 0 p.s p'.s
      | .fail er t s, .fail er' t' s' => er = er' ∧ t = t' ∧ AR e e' B 0 s s'
      | .quit st s, .quit st' s' => st = st' ∧ AR e e' B 0 s s'
      | _, _ => False)
      (argLoopW m cfg fuel ⟨s, i, accept, num⟩) (argLoopW m' cfg fuel ⟨s', i, accept, num⟩) := by
  intro fuel
  induction fuel with
  | zero =>
    intro s s' i num n accept hn hnB h
    simp only [argLoopW]
    split
    · exact rfl
    · exact ⟨rfl, h.mono (by omega)⟩
  | succ fuel ih =>
    intro s s' i num n accept hn hnB h
    simp only [argLoopW]
    split
    · refine (argTokenW_rel F F' hB hargc (by omega) (n := num + 1) (by omega) (by omega) h).bind fun l l' hl => ?_
      cases l <;> cases l' <;> first | exact hl.elim | skip
      · rename_i p p'
        obtain ⟨hi, ha, hnum, hle, hr⟩ := hl
        obtain ⟨ps, pi, pa, pn⟩ := p
        obtain ⟨ps', pi', pa', pn'⟩ := p'
        simp only at hi ha hnum hle hr
        subst hi ha hnum
        exact ih (n := n) (by simp only; omega) hnB hr
      · exact hl
      · exact hl
    · exact ⟨rfl, h.mono (by omega)⟩

end

/-! ## The whole parser -/

/-- Results of the parser on two targets. -/
structure RRel (r r' : ArgResult) : Prop where
  status : r.status = r'.status
  tok : r.tok = r'.tok
  vec : r.vec.map (fun v => { v with esz := 0 }) = r'.vec.map (fun v => { v with esz := 0 })
  world : wshape r.w = wshape r'.w

theorem RRel.same {r r' : ArgResult} (h : RRel r r') : SameParse r r' := by
  refine ⟨h.status, h.tok, ?_, congrArg (·.trace) h.world⟩
  have := h.vec
  unfold output
  cases hv : r.vec with
  | none =>
    rw [hv] at this
    cases hv' : r'.vec with
    | none => rfl
    | some v => rw [hv'] at this; cases this
  | some v =>
    rw [hv] at this
    cases hv' : r'.vec with
    | none => rw [hv'] at this; cases this
    | some v' =>
      rw [hv'] at this
      have hvv := Option.some.inj this
      have h1 : v.data = v'.data := congrArg (·.data) hvv
      have h2 : v.size = v'.size := congrArg (·.size) hvv
      simp only [contents, h1, h2]

section
variable {e e' B k : Nat} {s s' : VS AArg}

theorem vecDestroy_rel (h : AR e e' B k s s') :
    ORel (fun r r' => r.1 = r'.1 ∧ { r.2.v with esz := 0 } = { r'.2.v with esz := 0 } ∧
      wshape r.2.w = wshape r'.2.w) (vecDestroy s) (vecDestroy s') := by
  have hw := h.world
  have ho := h.oracle_eq
  have hc := h.calls_eq
  have ht := h.trace_eq
  have hn := h.next_eq
  have hd := h.dtor
  have hr := h.rest
  clear h
  obtain ⟨⟨al, g, sh, sz, cp, es, dt, da⟩, w⟩ := s
  obtain ⟨⟨al', g', sh', sz', cp', es', dt', da'⟩, w'⟩ := s'
  simp only [Vec.mk.injEq, true_and] at hr ho hc ht hn hd hw
  obtain ⟨rfl, rfl, rfl, rfl, rfl, rfl, rfl⟩ := hr
  subst hd
  simp only [vecDestroy, runDtors, Bool.false_eq_true, if_false, Out.bind]
  cases al with
  | none => exact ⟨rfl, rfl, hw⟩
  | some a =>
    simp only
    split
    · cases da with
      | none => exact rfl
      | some b =>
        simp only [withData, deallocate, ← ho, ← hc]
        by_cases hf : failed (w.oracle w.calls) = true
        · simp only [hf, if_true]
          refine ⟨rfl, rfl, ?_⟩
          simp [wshape, World.log, ht, hn, requestOf]
        · simp only [Bool.not_eq_true] at hf
          simp only [hf, Bool.false_eq_true, if_false]
          refine ⟨rfl, rfl, ?_⟩
          simp [wshape, World.log, ht, hn, requestOf]
    · exact ⟨rfl, rfl, hw⟩

theorem argFail_rel (h : AR e e' B k s s') (err : Status) (tok : ErrTok) :
    ORel RRel (argFail err tok s) (argFail err tok s') := by
  unfold argFail
  refine (vecDestroy_rel h).bind fun r r' hr => ?_
  rw [← hr.1]
  split
  · exact ⟨rfl, rfl, congrArg some hr.2.1, hr.2.2⟩
  · exact ⟨rfl, rfl, congrArg some hr.2.1, hr.2.2⟩

theorem argFound_eq (h : AR e e' B k s s') (j : Nat) : ∀ n i, argFound s j i n = argFound s' j i n := by
  intro n
  induction n with
  | zero => intro i; rfl
  | succ n ih =>
    intro i
    simp only [argFound, vecGetPointer, vecDeref, h.size_eq, h.data_eq, ih]
    rfl

theorem requiredLoop_eq (h : AR e e' B k s s') : ∀ (ds : List ArgDef) (j : Nat),
    requiredLoop s j ds = requiredLoop s' j ds := by
  intro ds
  induction ds with
  | nil => intro j; rfl
  | cons d ds ih => intro j; simp only [requiredLoop, vecGetSize, h.size_eq, argFound_eq h, ih]

end

theorem vecInitExW_fit {m e B : Nat} (F : AFit m e B) (w : World AArg) {n : Nat} (hn : n ≤ 2 * B) (a : Nat) :
    vecInitExW m w e n false (some a) 2 4 =
      if failed (w.oracle w.calls) then
        (w.oracle w.calls, some ⟨some a, 2, 4, 0, max 1 n, e, false, none⟩,
          { w with calls := w.calls + 1 }.log (.refused a))
      else
        (w.oracle w.calls, some ⟨some a, 2, 4, 0, max 1 n, e, false,
            some ⟨w.nextBlk, List.replicate (max 1 n) none⟩⟩,
          { w with calls := w.calls + 1, nextBlk := w.nextBlk + 1 }.log (.alloc a w.nextBlk e (max 1 n))) := by
  have hp := F.pos
  have h1 := F.one
  have hg : grantedCellsW m e (max 1 n) = max 1 n := F.granted (by omega)
  simp only [vecInitExW, allocateW, hg]
  rw [if_neg (by omega)]
  split <;> rfl

theorem argParseExW_rel {m e m' e' B : Nat} (F : AFit m e B) (F' : AFit m' e' B) {cfg : ArgConfig}
    (hB : tokenRoom cfg 0 + 1 ≤ B) (hargc : cfg.argc ≤ tokenRoom cfg 0) (w : World AArg) (want : Bool)
    (allocator : Option Nat) :
    ORel RRel (argParseExW m e w cfg want allocator) (argParseExW m' e' w cfg want allocator) := by
  have hlt := F.lt
  unfold argParseExW
  split
  · exact ⟨rfl, rfl, rfl, rfl⟩
  · refine ORel.same _ fun ok _ => ?_
    split
    · exact ⟨rfl, rfl, rfl, rfl⟩
    · cases allocator with
      | none =>
        have : failed stInvalidArgument = true := by decide
        simp only [vecInitExW, this, if_true]
        exact ⟨rfl, rfl, rfl, rfl⟩
      | some a =>
        rw [vecInitExW_fit F w (by omega) a, vecInitExW_fit F' w (by omega) a]
        by_cases hf : failed (w.oracle w.calls) = true
        · simp only [hf, if_true]
          exact ⟨rfl, rfl, rfl, rfl⟩
        · simp only [Bool.not_eq_true] at hf
          simp only [hf, Bool.false_eq_true, if_false]
          have hAR : AR e e' B (tokenRoom cfg 1)
              ⟨⟨some a, 2, 4, 0, max 1 cfg.argc, e, false, some ⟨w.nextBlk, List.replicate (max 1 cfg.argc) none⟩⟩,
                { w with calls := w.calls + 1, nextBlk := w.nextBlk + 1 }.log
                  (.alloc a w.nextBlk e (max 1 cfg.argc))⟩
              ⟨⟨some a, 2, 4, 0, max 1 cfg.argc, e', false, some ⟨w.nextBlk, List.replicate (max 1 cfg.argc) none⟩⟩,
                { w with calls := w.calls + 1, nextBlk := w.nextBlk + 1 }.log
                  (.alloc a w.nextBlk e' (max 1 cfg.argc))⟩ := by
            refine ⟨rfl, rfl, rfl, ?_, rfl, ?_, ?_, rfl⟩
            · simp [wshape, World.log, requestOf]
            · have : tokenRoom cfg 1 ≤ tokenRoom cfg 0 := tokenRoom_le 0
              simp only
              omega
            · simp only
              omega
          refine (argLoopW_rel F F' (by omega) (by omega) cfg.argc (num := 0) (n := cfg.argc) (by omega)
            (by omega) hAR).bind fun l l' hl => ?_
          cases l <;> cases l' <;> first | exact hl.elim | skip
          · rename_i p p'
            obtain ⟨hn, hr⟩ := hl
            simp only [← hn]
            split
            · exact argFail_rel hr _ _
            · rw [requiredLoop_eq hr]
              refine ORel.same _ fun q _ => ?_
              split
              · exact ⟨rfl, rfl, congrArg some hr.rest, hr.world⟩
              · split
                · exact argFail_rel hr _ _
                · exact ⟨rfl, rfl, congrArg some hr.rest, hr.world⟩
          · obtain ⟨h1, h2, h3⟩ := hl
            subst h1 h2
            exact argFail_rel h3 _ _
          · obtain ⟨h1, h3⟩ := hl
            subst h1
            exact ⟨rfl, rfl, congrArg some h3.rest, h3.world⟩

/-! ## The widths of the other properties -/

theorem newArgW_64 (s : VS AArg) : newArgW 18446744073709551616 s = newArg s := rfl
theorem modArgW_64 (s : VS AArg) (f : AArg → AArg) : modArgW 18446744073709551616 s f = modArg s f := rfl
theorem putValueW_64 (s : VS AArg) (p : List (Cell Byte)) :
    putValueW 18446744073709551616 s p = putValue s p := rfl
theorem takeNextW_64 (cfg : ArgConfig) (cur : List Byte) (s : VS AArg) (i : Nat) :
    takeNextW 18446744073709551616 cfg cur s i = takeNext cfg cur s i := rfl
theorem longArgW_64 (cfg : ArgConfig) (cur : List Byte) (s : VS AArg) (i : Nat) :
    longArgW 18446744073709551616 cfg cur s i = longArg cfg cur s i := rfl
theorem unnamedArgW_64 (cfg : ArgConfig) (cur : List Byte) (s : VS AArg) (i num : Nat) :
    unnamedArgW 18446744073709551616 cfg cur s i num = unnamedArg cfg cur s i num := rfl

theorem shortLoopW_64 (cfg : ArgConfig) (cur : List Byte) (i : Nat) : ∀ (fuel : Nat) (s : VS AArg) (k : Nat),
    shortLoopW 18446744073709551616 cfg cur i fuel s k = shortLoop cfg cur i fuel s k
  | 0, _, _ => rfl
  | fuel + 1, s, k => by
    simp only [shortLoopW, shortLoop, newArgW_64, modArgW_64, putValueW_64, takeNextW_64,
      shortLoopW_64 cfg cur i fuel]
    rfl

theorem argTokenW_64 (cfg : ArgConfig) (p : PState) :
    argTokenW 18446744073709551616 cfg p = argToken cfg p := by
  simp only [argTokenW, argToken, longArgW_64, unnamedArgW_64, shortLoopW_64]
  rfl

theorem argLoopW_64 (cfg : ArgConfig) : ∀ (fuel : Nat) (p : PState),
    argLoopW 18446744073709551616 cfg fuel p = argLoop cfg fuel p
  | 0, _ => rfl
  | fuel + 1, p => by
    simp only [argLoopW, argLoop, argTokenW_64, argLoopW_64 cfg fuel]
    rfl

theorem argParseExW_64 (w : World AArg) (cfg : ArgConfig) (want : Bool) (allocator : Option Nat) :
    argParseExW 18446744073709551616 80 w cfg want allocator = argParseEx w cfg want allocator := by
  simp only [argParseExW, argParseEx, argLoopW_64]
  rfl

/-! ## Command lines that do not fit -/

section
variable {m : Nat} {cfg : ArgConfig} {c : Byte}

/-- The state before an unnamed argument is stored: there is capacity, and `g` elements of memory. -/
structure Short (m n g k : Nat) (s : VS AArg) : Prop where
  size : s.v.size = k
  cap : s.v.cap = n
  cells : ∃ b, s.v.data = some b ∧ b.cells.length = g

theorem newArgW_short {n g k : Nat} {s : VS AArg} (h : Short m n g k s) (hk : k < n) (hn : n < m) :
    (k = g → newArgW m s = .ub .oob) ∧
    (k < g → ∃ s' b, newArgW m s = .ret (stSuccess, s') ∧ s'.v.size = k + 1 ∧ s'.v.cap = n ∧
      s'.v.data = some b ∧ b.cells.length = g ∧ b.cells[k]? = some (some zeroArg)) := by
  obtain ⟨b, hb, hl⟩ := h.cells
  have e1 : addW m s.v.size 1 = k + 1 := by
    rw [h.size]; exact Nat.mod_eq_of_lt (by omega)
  have e0 : vecEmplaceExW m s s.v.size none =
      .ret (stSuccess, { s with v := { s.v with size := k + 1 } }) := by
    have hg : shouldGrow (k + 1) s.v.cap = false := by
      rw [h.cap]; simp [shouldGrow]; omega
    simp [vecEmplaceExW, growForW, e1, hg, Out.bind, failed_success]
  unfold newArgW
  rw [e0]
  simp only [Out.bind, failed_success, Bool.false_eq_true, if_false, withData, hb, writeRange, h.size, hl,
    List.length_singleton]
  refine ⟨fun hkg => ?_, fun hkg => ?_⟩
  · rw [if_neg (by omega)]
  · rw [if_pos (by omega)]
    refine ⟨_, _, rfl, rfl, h.cap, rfl, ?_, ?_⟩
    · simp; omega
    · simp only
      rw [List.append_assoc, List.getElem?_append_right (by simp; omega)]
      have : k - (b.cells.take k).length = 0 := by simp; omega
      rw [this]
      rfl

theorem modArgW_short {g k : Nat} {s : VS AArg} {b : Block AArg} {x : AArg} (hs : s.v.size = k + 1)
    (hd : s.v.data = some b) (hl : b.cells.length = g) (hx : b.cells[k]? = some (some x)) (hk : k + 1 < m)
    (f : AArg → AArg) :
    ∃ s' b', modArgW m s f = .ret s' ∧ s'.v.size = k + 1 ∧ s'.v.cap = s.v.cap ∧ s'.v.data = some b' ∧
      b'.cells.length = g ∧ b'.cells[k]? = some (some (f x)) := by
  obtain ⟨hlt, -⟩ := List.getElem?_eq_some_iff.1 hx
  have e1 : subW m s.v.size 1 = k := by rw [hs, subW_nat (by omega) hk]; rfl
  unfold modArgW
  rw [e1, hd]
  simp only [withData, hx, writeRange, List.length_singleton]
  rw [if_pos (by omega)]
  refine ⟨_, _, rfl, hs, rfl, rfl, ?_, ?_⟩
  · simp; omega
  · simp only
    rw [List.append_assoc, List.getElem?_append_right (by simp; omega)]
    have : k - (b.cells.take k).length = 0 := by simp; omega
    rw [this]
    rfl

theorem unnamedArgW_short {n g k num i : Nat} {s : VS AArg} (h : Short m n g k s) (hk : k < n) (hn : n < m)
    (hmax : num ≤ cfg.maxUnnamed) (hc : c ≠ 0#8) :
    (k = g → unnamedArgW m cfg [c] s i num = .ub .oob) ∧
    (k < g → ∃ s', unnamedArgW m cfg [c] s i num = .ret (.cont s' i) ∧ Short m n g (k + 1) s') := by
  obtain ⟨h1, h2⟩ := newArgW_short h hk hn
  unfold unnamedArgW
  rw [if_neg (by omega)]
  refine ⟨fun hkg => by rw [h1 hkg]; rfl, fun hkg => ?_⟩
  obtain ⟨s1, b1, e1, hs1, hc1, hd1, hl1, hx1⟩ := h2 hkg
  obtain ⟨s2, b2, e2, hs2, hc2, hd2, hl2, hx2⟩ :=
    modArgW_short (m := m) hs1 hd1 hl1 hx1 (by omega) (fun x => { x with hasValue := true })
  obtain ⟨s3, b3, e3, hs3, hc3, hd3, hl3, -⟩ :=
    modArgW_short (m := m) hs2 hd2 hl2 hx2 (by omega)
      (fun x => { x with value := some ⟨strMem [c], addW m 1 1⟩ })
  have el : cStrlen (strMem [c]) = .ret 1 := by
    simp [strMem, cStrlen, hc, Out.bind]
  refine ⟨s3, ?_, hs3, by rw [hc3, hc2, hc1], b3, hd3, hl3⟩
  rw [e1]
  simp only [Out.bind, failed_success, Bool.false_eq_true, if_false, putValueW, e2, viewInsideBufferW, el, e3]

theorem argTokenW_short {n g k i : Nat} {s : VS AArg} (h : Short m n g k s) (hk : k < n) (hn : n < m)
    (ht : cfg.argv[i]? = some [c]) (hmax : k + 1 ≤ cfg.maxUnnamed) (hc : c ≠ 0#8) :
    (k = g → argTokenW m cfg ⟨s, i, true, k⟩ = .ub .oob) ∧
    (k < g → ∃ s', argTokenW m cfg ⟨s, i, true, k⟩ = .ret (.done ⟨s', i, true, k + 1⟩) ∧
      Short m n g (k + 1) s') := by
  have ea : argvAt cfg i = .ret [c] := by simp [argvAt, ht]
  have el : cStrlen (strMem [c]) = .ret 1 := by
    simp [strMem, cStrlen, hc, Out.bind]
  have e1 : addW m k 1 = k + 1 := Nat.mod_eq_of_lt (by omega)
  obtain ⟨h1, h2⟩ := unnamedArgW_short (cfg := cfg) (i := i) h hk hn hmax hc
  simp only [argTokenW, ea, el, Out.bind, e1]
  have n1 : ¬ (True ∧ (1 : Nat) ≥ 2) := by omega
  have n2 : ¬ (True ∧ (1 : Nat) > 1) := by omega
  simp only [n1, n2, if_false, Bool.false_eq_true]
  refine ⟨fun hkg => by rw [h1 hkg], fun hkg => ?_⟩
  obtain ⟨s', e', hs'⟩ := h2 hkg
  exact ⟨s', by rw [e']; rfl, hs'⟩

theorem argLoopW_short {n g : Nat} (hn : n < m) (hg : g + 1 < n) (hargc : cfg.argc = n)
    (ht : ∀ i, 1 ≤ i → i < n → cfg.argv[i]? = some [c]) (hmax : n ≤ cfg.maxUnnamed) (hc : c ≠ 0#8) :
    ∀ (d fuel k : Nat) {s : VS AArg}, k + d = g → n ≤ fuel + (k + 1) → Short m n g k s →
    argLoopW m cfg fuel ⟨s, k + 1, true, k⟩ = .ub .oob := by
  intro d
  induction d with
  | zero =>
    intro fuel k s hk hf h
    cases fuel with
    | zero => omega
    | succ fuel =>
      simp only [argLoopW]
      rw [if_pos (by omega), (argTokenW_short h (by omega) hn (ht (k + 1) (by omega) (by omega)) (by omega) hc).1 (by omega)]
      rfl
  | succ d ih =>
    intro fuel k s hk hf h
    cases fuel with
    | zero => omega
    | succ fuel =>
      simp only [argLoopW]
      obtain ⟨s', e', h'⟩ :=
        (argTokenW_short h (by omega) hn (ht (k + 1) (by omega) (by omega)) (by omega) hc).2 (by omega)
      rw [if_pos (by omega), e']
      exact ih fuel (k + 1) (by omega) (by omega) h'

end

theorem granted_short {m sz n : Nat} (hz : 0 < sz) (hm : 2 * sz ≤ m) (hw : m ≤ n * sz) :
    grantedCellsW m sz n + 1 < n := by
  unfold grantedCellsW mulW
  have h1 : sz * n % m ≤ sz * n - m := by
    rw [Nat.mod_eq_sub_mod (by rw [Nat.mul_comm]; exact hw)]
    exact Nat.mod_le _ _
  have h2 : sz * n % m / sz * sz ≤ sz * n % m := Nat.div_mul_le_self _ _
  have h3 : (sz * n % m / sz + 2) * sz ≤ n * sz := by
    rw [Nat.add_mul, Nat.mul_comm n sz]
    have : m ≤ sz * n := by rw [Nat.mul_comm]; exact hw
    omega
  have := Nat.le_of_mul_le_mul_right h3 hz
  omega

end Zy
