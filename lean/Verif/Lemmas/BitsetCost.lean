import Verif.Spec.BitsetCost
import Verif.Lemmas.VectorCost
import Verif.Lemmas.BitsetReach

/-!
# Lemmas: what a bitset costs
-/

namespace Zy

open Spec

/-! ## The functions that only write bits -/

theorem vecStore_still (s : VS Byte) (k : Nat) (c : Cell Byte) : Ensures (vecStore s k c) (Still s) :=
  ensures_withData fun _ _ => (ensures_any _).bind fun _ _ => ensures_ret ⟨rfl, rfl, rfl, rfl, rfl⟩

theorem bsModify_still (f : Byte → Byte → Byte) (t : Bits) (i : Nat) :
    Ensures (bsModify f t i) fun r => Still t.s r.2.s :=
  ensures_ite (fun _ => ensures_ret (.refl _)) fun _ =>
    ensures_withPointer (fun _ => .refl _) fun _ => (ensures_any _).bind fun _ _ =>
      (vecStore_still _ _ _).bind fun _ h => ensures_ret h

theorem bsAssign_still (t : Bits) (i : Nat) (v : Bool) : Ensures (bsAssign t i v) fun r => Still t.s r.2.s :=
  ensures_ite (fun _ => bsModify_still _ t i) fun _ => bsModify_still _ t i

theorem bsMapLoop_still (f : VS Byte → Nat → Out Byte) : ∀ (n : Nat) (s : VS Byte) (i : Nat),
    Ensures (bsMapLoop f n s i) fun r => Still s r.2
  | 0, s, _ => ensures_ret (.refl s)
  | n + 1, s, i => ensures_withPointer (fun _ => .refl s) fun _ => (ensures_any _).bind fun _ _ =>
      (vecStore_still _ _ _).bind fun r h => (bsMapLoop_still f n r (i + 1)).imp fun _ h' => h.trans h'

theorem bsMapAll_still (f : VS Byte → Nat → Out Byte) (t : Bits) :
    Ensures (bsMapAll f t) fun r => Still t.s r.2.s :=
  (bsMapLoop_still f _ _ _).bind fun _ h => ensures_ret h

theorem Once.still {s r q : VS Byte} (h : Once s r) (h' : Still r q) : Once s q := by
  unfold Once at h ⊢
  rw [h'.1, h'.2.1, h]

/-- What pushing a bit costs. -/
theorem bsPush_cost (t : Bits) (v : Bool) :
    Ensures (bsPush t v) fun r => (t.size % 8 ≠ 0 → Still t.s r.2.s) ∧
      Cost (t.s.v.cap < add64 t.s.v.size 1) t.s r.2.s ∧
      (t.size % 8 = 0 → t.s.v.cap < add64 t.s.v.size 1 → t.s.v.allocator.isSome → failed r.1 = false →
        Once t.s r.2.s) := by
  unfold bsPush
  by_cases h8 : t.size % 8 = 0
  · simp only [h8, if_true]
    refine (vecPushBack_cost t.s _).bind fun r hr => ensures_ite (fun hf => ensures_ret ?_) fun hf => ?_
    · exact ⟨fun h => absurd rfl h, hr.1, fun _ _ _ h => by rw [hf] at h; cases h⟩
    · refine (bsAssign_still _ _ v).imp fun q hq => ⟨fun h => absurd rfl h, hr.1.still hq, fun _ h1 h2 _ => ?_⟩
      exact (hr.2 h1 h2 (by simpa using hf) rfl).still hq
  · simp only [h8, if_false, Out.ret_bind', failed_success, Bool.false_eq_true]
    refine (bsAssign_still _ _ v).imp fun q hq => ⟨fun _ => hq, Still.cost hq _, fun h => absurd h (by simp)⟩

/-- What popping a bit costs. -/
theorem bsPop_cost (t : Bits) (h0 : t.size ≠ 0) (h64 : t.size < 18446744073709551616) :
    Ensures (bsPop t) fun r => (t.size % 8 ≠ 1 → Still t.s r.2.s) ∧
      Cost (shouldShrink (t.s.v.size - 1) t.s.v.cap t.s.v.shrink = true) t.s r.2.s ∧
      (t.size % 8 = 1 → shouldShrink (t.s.v.size - 1) t.s.v.cap t.s.v.shrink = true → t.s.v.allocator.isSome →
        failed r.1 = false → t.s.v.size ≠ 0 → Once t.s r.2.s) := by
  unfold bsPop
  have e : sub64 t.size 1 = t.size - 1 := sub64_eq (by omega) h64
  simp only [e]
  by_cases h8 : t.size % 8 = 1
  · rw [if_pos (by omega)]
    refine (vecPopBack_cost t.s).bind fun r hr => ensures_ret ?_
    exact ⟨fun h => absurd h8 h, hr.1.mono fun h => h.2, fun _ h1 h2 h3 h4 => hr.2 h1 h2 h3 h4⟩
  · rw [if_neg (by omega)]
    exact ensures_ret ⟨fun _ => .refl _, (Still.refl _).cost _, fun h => absurd h h8⟩

/-! ## One operation -/

section
variable {P : Params} {t : Bits} {a : BState} {bytes : List Byte} {b : Block Byte} {sl : List (Cell Byte)}

theorem BRep.full (R : BRep P t a bytes b sl) : a.stray = [] ↔ a.bits.length % 8 = 0 := by
  have h1 := R.len
  have h2 := R.short
  constructor
  · intro h; rw [h] at h1; simp at h1; omega
  · intro h; exact List.length_eq_zero_iff.1 (by omega)

theorem BRep.vlen (R : BRep P t a bytes b sl) : t.s.v.size = bytesFor a.bits.length := by
  have := R.rep.size
  simp only [List.length_map] at this
  rw [this, R.bytes_len]

theorem pay_bstep (R : BRep P t a bytes b sl) (hg : 2 ≤ P.growth) (ht : P.thr = 0 ∨ P.growth < P.thr) (op : BOp)
    (hd : BInDomain P a op) {t' : Bits} {bytes' : List Byte} {b' : Block Byte} {sl' : List (Cell Byte)}
    (hop : bsOp t op = .ret ((bstep P a op).1, t')) (R' : BRep P t' (bstep P a op).2 bytes' b' sl') :
    spent t'.s.w.trace + credit P.growth (bytesFor (bstep P a op).2.bits.length) (bstep P a op).2.cap ≤
      spent t.s.w.trace + credit P.growth (bytesFor a.bits.length) a.cap +
        P.growth * P.growth * btouched a op := by
  have hdyn := R.rep.dynamic hg
  have hcap := R'.rep.cap
  dsimp only at hcap
  have hcap0 := R.rep.cap
  dsimp only at hcap0
  have hlen : bytesFor a.bits.length ≤ a.cap := by
    have := R.rep.len
    simp only [List.length_map] at this
    rw [← R.bytes_len]; exact this
  have hfits : Fits P (bytesFor a.bits.length) := by
    have := R.rep.fits
    simp only [List.length_map] at this
    rw [← R.bytes_len]; exact this
  -- the operations that only write bits
  have same : ∀ a' : BState, (bstep P a op).2 = a' → a'.bits.length = a.bits.length → a'.cap = a.cap →
      Still t.s t'.s → spent t'.s.w.trace + credit P.growth (bytesFor (bstep P a op).2.bits.length)
        (bstep P a op).2.cap ≤ spent t.s.w.trace + credit P.growth (bytesFor a.bits.length) a.cap +
        P.growth * P.growth * btouched a op := by
    intro a' e1 e2 e3 hs
    rw [e1, e2, e3, hs.1]
    omega
  have hch : ∀ (i : Nat) (f : Bool → Bool), (change a i f).2.bits.length = a.bits.length ∧
      (change a i f).2.cap = a.cap := by
    intro i f
    unfold change
    split <;> simp
  cases op with
  | push v =>
    obtain ⟨hst, hc, -⟩ := bsPush_cost t v _ hop
    dsimp only at hst hc
    by_cases h8 : a.bits.length % 8 = 0
    · have hs := R.full.2 h8
      obtain ⟨hf, hr⟩ := hd hs
      obtain ⟨c', hr⟩ := Option.isSome_iff_exists.1 hr
      have h64 := R.rep.len64 hf
      obtain ⟨⟨-, h1⟩, h2⟩ := hc
      rw [R.vlen, hcap0, add64_eq h64] at h2
      simp only [bstep, hs, hr] at hcap ⊢
      rw [hcap] at h1
      have e : bytesFor (a.bits ++ [v]).length = bytesFor a.bits.length + 1 := by
        simp only [List.length_append, List.length_cons, List.length_nil, bytesFor]; omega
      rw [e]
      simp only [btouched, h8, if_true]
      exact pay_room hg hr h1 h2
    · have hstray : a.stray ≠ [] := fun h => h8 (R.full.1 h)
      obtain ⟨x, xs, hx⟩ := List.exists_cons_of_ne_nil hstray
      have hs := hst (by rw [R.size]; exact h8)
      simp only [bstep, hx]
      have h1 := R.len
      have h2 := R.short
      have e : bytesFor (a.bits ++ [v]).length = bytesFor a.bits.length := by
        simp only [List.length_append, List.length_cons, List.length_nil, bytesFor]
        omega
      rw [e, hs.1]
      omega
  | pop =>
    have hne : a.bits.length ≠ 0 := fun h => hd (List.length_eq_zero_iff.1 h)
    have hsm := R.small
    obtain ⟨hst, hc, -⟩ := bsPop_cost t (by rw [R.size]; exact hne) (by rw [R.size]; omega) _ hop
    dsimp only at hst hc
    have hl : a.bits.getLast? = some (a.bits.getLast (fun h => hd h)) := List.getLast?_eq_some_getLast _
    by_cases h8 : a.bits.length % 8 = 1
    · simp only [bstep, hl, h8, if_true] at hcap ⊢
      obtain ⟨⟨-, h1⟩, h2⟩ := hc
      have e : bytesFor a.bits.length - 1 = bytesFor (a.bits.length - 1) := by unfold bytesFor; omega
      have hf' : Fits P (bytesFor (a.bits.length - 1)) := hfits.mono (by unfold bytesFor; omega)
      rw [R.vlen, e, R.rep.shrinks hf'] at h2
      rw [hcap] at h1
      have e2 : bytesFor a.bits.dropLast.length = bytesFor (a.bits.length - 1) := by simp
      rw [e2]
      simp only [btouched, h8, if_true]
      exact pay_trim hdyn hg ht (by unfold bytesFor; omega) (by unfold bytesFor; omega) (by omega) h1 h2
    · have hs := hst (by rw [R.size]; exact h8)
      simp only [bstep, hl, h8, if_false]
      have e2 : bytesFor a.bits.dropLast.length = bytesFor a.bits.length := by
        simp only [List.length_dropLast, bytesFor]; omega
      rw [e2, hs.1]
      omega
  | set i => exact same _ rfl (hch i _).1 (hch i _).2 (bsModify_still _ t i _ hop)
  | reset i => exact same _ rfl (hch i _).1 (hch i _).2 (bsModify_still (fun x m => x &&& ~~~m) t i _ hop)
  | assign i v => exact same _ rfl (hch i _).1 (hch i _).2 (bsAssign_still t i v _ hop)
  | toggle i => exact same _ rfl (hch i _).1 (hch i _).2 (bsModify_still _ t i _ hop)
  | setAll => exact same _ rfl (by simp [bstep, changeAll]) rfl (bsMapAll_still _ t _ hop)
  | resetAll => exact same _ rfl (by simp [bstep, changeAll]) rfl (bsMapAll_still _ t _ hop)
  | flip => exact same _ rfl (by simp [bstep, changeAll]) rfl (bsMapAll_still _ t _ hop)
  | clear =>
    have hc : Ensures (bsClear t) fun r =>
        Cost (0 ≠ t.s.v.size ∧ (t.s.v.cap < 0 ∨ shouldShrink 0 t.s.v.cap t.s.v.shrink = true)) t.s r.2.s :=
      (vecResizeEx_cost t.s 0 .null).bind fun _ h => ensures_ret h
    obtain ⟨⟨-, h1⟩, h2⟩ := hc _ hop
    dsimp only at h1 h2
    rw [R.vlen] at h2
    simp only [bstep] at hcap ⊢
    by_cases h0 : a.bits = []
    · rw [h0]
      have := h2 (by rw [h0]; simp [bytesFor])
      simp only [if_true]
      simp only [List.length_nil]
      omega
    · have hpos : a.bits.length ≠ 0 := fun h => h0 (List.length_eq_zero_iff.1 h)
      rw [if_neg h0] at hcap ⊢
      rw [hcap] at h1
      rw [R.rep.shrinks (hfits.mono (Nat.zero_le _))] at h2
      refine pay_trim (n := 0) hdyn hg ht (k := bytesFor a.bits.length) (by omega) (by omega)
        (by unfold bytesFor; omega) h1 fun h => h2 fun h' => ?_
      rcases h'.2 with h3 | h3
      · omega
      · exact h h3
  | reserve n =>
    have hc : Ensures (bsReserve t n) fun r => Cost (t.s.v.cap < bitsToBytes n) t.s r.2.s :=
      (vecReserve_cost t.s _).bind fun _ h => ensures_ret h
    have hbn : bitsToBytes n = n / 8 := by
      have : n < 34359738368 := hd
      have h : n / 8 < 4294967296 := by omega
      unfold bitsToBytes bsCeil
      rw [Nat.mod_eq_of_lt h, if_pos rfl]
    obtain ⟨⟨-, h1⟩, h2⟩ := hc _ hop
    dsimp only at h1 h2
    rw [hcap0, hbn] at h2
    simp only [bstep] at hcap ⊢
    by_cases h : n / 8 ≤ a.cap
    · rw [if_pos h] at hcap ⊢
      have := h2 (by omega)
      dsimp only
      omega
    · rw [if_neg h, if_pos hdyn] at hcap ⊢
      dsimp only at hcap ⊢
      rw [hcap] at h1
      have := pay_reserve (s := bytesFor a.bits.length) hg hlen (Nat.lt_of_not_le h)
      simp only [btouched]
      omega
  | shrinkToFit =>
    have hc : Ensures (bsShrinkToFit t) fun r => Cost True t.s r.2.s :=
      (reallocate_cost t.s _).bind fun _ h => ensures_ret h.1
    obtain ⟨⟨-, h1⟩, -⟩ := hc _ hop
    dsimp only at h1
    simp only [bstep, hdyn, if_true] at hcap ⊢
    rw [hcap] at h1
    have := pay_fit (g := P.growth) (s := bytesFor a.bits.length) hg
    simp only [btouched]
    omega

end

theorem pay_brun {P : Params} (hg : 2 ≤ P.growth) (ht : P.thr = 0 ∨ P.growth < P.thr) (ops : List BOp) :
    ∀ {t : Bits} {a : BState} {bytes : List Byte} {b : Block Byte} {sl : List (Cell Byte)},
    BRep P t a bytes b sl → BAllInDomain P a ops →
    ∃ t' a' bytes' b' sl', runBits t ops = .ret ((brun P a ops).1, t') ∧ BRep P t' a' bytes' b' sl' ∧
      spent t'.s.w.trace + credit P.growth (bytesFor a'.bits.length) a'.cap ≤
        spent t.s.w.trace + credit P.growth (bytesFor a.bits.length) a.cap +
          P.growth * P.growth * btouchedRun P a ops := by
  induction ops with
  | nil =>
    intro t a bytes b sl R _
    exact ⟨t, a, bytes, b, sl, rfl, R, by simp [btouchedRun]⟩
  | cons op ops ih =>
    intro t a bytes b sl R hd
    obtain ⟨t1, bytes1, b1, sl1, hop, R1⟩ := bop_ok R op hd.1
    obtain ⟨t', a', bytes', b', sl', hrun, R', hle⟩ := ih R1 hd.2
    have h1 := pay_bstep R hg ht op hd.1 hop R1
    refine ⟨t', a', bytes', b', sl', by simp [runBits, hop, hrun, brun], R', ?_⟩
    rw [btouchedRun, Nat.mul_add]
    omega

/-! ## Parameters for which it is expensive -/

theorem runBits_append (xs : List BOp) : ∀ (t : Bits) (ys : List BOp),
    runBits t (xs ++ ys) = (runBits t xs).bind fun r => (runBits r.2 ys).bind fun q => .ret (r.1 ++ q.1, q.2) := by
  induction xs with
  | nil =>
    intro t ys
    show runBits t ys = (runBits t ys).bind fun q => .ret (q.1, q.2)
    cases runBits t ys <;> rfl
  | cons op xs ih =>
    intro t ys
    simp only [List.cons_append, runBits]
    cases bsOp t op with
    | ub u => rfl
    | ret r =>
      simp only [Out.ret_bind']
      rw [ih]
      cases runBits r.2 xs with
      | ub u => rfl
      | ret q =>
        simp only [Out.ret_bind']
        cases runBits q.2 ys <;> rfl

theorem runBits_three {t t1 t2 t3 : Bits} {op : BOp} {xs ys : List BOp} {s : Status} {s2 s3 : List Status}
    (h1 : bsOp t op = .ret (s, t1)) (h2 : runBits t1 xs = .ret (s2, t2)) (h3 : runBits t2 ys = .ret (s3, t3)) :
    runBits t (op :: (xs ++ ys)) = .ret (s :: (s2 ++ s3), t3) := by
  simp only [runBits, h1, Out.ret_bind', runBits_append, h2, h3]

theorem btouchedRun_pops {P : Params} (n : Nat) : ∀ {a : BState}, a.bits.length = n →
    btouchedRun P a (List.replicate n .pop) = bytesFor n := by
  induction n with
  | zero => intro a _; rfl
  | succ n ih =>
    intro a h
    have hl : a.bits.getLast? = some (a.bits.getLast (by intro e; rw [e] at h; cases h)) :=
      List.getLast?_eq_some_getLast _
    have hlen : (bstep P a .pop).2.bits.length = n := by
      simp only [bstep, hl]
      split <;> simp [h]
    rw [List.replicate_succ, btouchedRun, ih hlen, btouched, h]
    unfold bytesFor
    split <;> omega

section
variable {P : Params}

/-- Popping a bit that does not free a byte. -/
theorem bpop_stay {t : Bits} {a : BState} {bytes : List Byte} {b : Block Byte} {sl : List (Cell Byte)}
    (R : BRep P t a bytes b sl) (h0 : a.bits.length ≠ 0) (h8 : a.bits.length % 8 ≠ 1) :
    ∃ t' a' bytes' b' sl', bsOp t .pop = .ret (stSuccess, t') ∧ BRep P t' a' bytes' b' sl' ∧
      a'.bits.length = a.bits.length - 1 ∧ a'.cap = a.cap ∧ spent t'.s.w.trace = spent t.s.w.trace := by
  have hne : a.bits ≠ [] := fun e => h0 (by rw [e]; rfl)
  have hsm := R.small
  obtain ⟨t', bytes', b', sl', hop, R'⟩ := bop_ok R .pop hne
  have hl : a.bits.getLast? = some (a.bits.getLast hne) := List.getLast?_eq_some_getLast _
  have hst := (bsPop_cost t (by rw [R.size]; exact h0) (by rw [R.size]; omega) _ hop).1 (by rw [R.size]; exact h8)
  simp only [bstep, hl, h8, if_false] at hop R'
  exact ⟨t', _, bytes', b', sl', hop, R', by simp, rfl, hst.1⟩

/-- Popping a bit that frees a byte and shrinks the storage. -/
theorem bpop_shrink {t : Bits} {a : BState} {bytes : List Byte} {b : Block Byte} {sl : List (Cell Byte)}
    (R : BRep P t a bytes b sl) (hdyn : P.allocator.isSome = true) (ht : P.thr ≠ 0) {k : Nat}
    (hk : a.bits.length = 8 * k + 1) (hs : k * P.thr < a.cap) :
    ∃ t' a' bytes' b' sl', bsOp t .pop = .ret (stSuccess, t') ∧ BRep P t' a' bytes' b' sl' ∧
      a'.bits.length = 8 * k ∧ a'.cap = max 1 (k * P.growth) ∧
      spent t'.s.w.trace = spent t.s.w.trace + max 1 (k * P.growth) := by
  have hne : a.bits ≠ [] := fun e => by rw [e] at hk; simp at hk
  have hsm := R.small
  obtain ⟨t', bytes', b', sl', hop, R'⟩ := bop_ok R .pop hne
  have hl : a.bits.getLast? = some (a.bits.getLast hne) := List.getLast?_eq_some_getLast _
  have h8 : a.bits.length % 8 = 1 := by omega
  have e1 : bytesFor a.bits.length - 1 = k := by unfold bytesFor; omega
  have e2 : bytesFor (a.bits.length - 1) = k := by unfold bytesFor; omega
  have hf : Fits P k := by
    have := R.rep.fits
    simp only [List.length_map] at this
    exact this.mono (by rw [R.bytes_len]; unfold bytesFor; omega)
  have hsh := (R.rep.shrinks hf).2 ⟨ht, hs⟩
  have hc := (bsPop_cost t (by rw [R.size]; omega) (by rw [R.size]; omega) _ hop).2.2 (by rw [R.size]; exact h8)
    (by rw [R.vlen, e1]; exact hsh) (by rw [R.rep.allocator]; exact hdyn)
  have htr : trim P a.cap k = max 1 (k * P.growth) := by unfold trim; rw [if_pos ⟨hdyn, ht, hs⟩]
  simp only [bstep, hl, h8, if_true, e2, htr] at hop R' hc
  have hc := hc failed_success (by rw [R.vlen]; unfold bytesFor; omega)
  unfold Once at hc
  have hcap := R'.rep.cap
  dsimp only at hc hcap
  rw [hcap] at hc
  exact ⟨t', _, bytes', b', sl', hop, R', by simp; omega, rfl, hc⟩

/-- Popping up to seven bits that free no byte. -/
theorem bpops_stay (n : Nat) : ∀ {t : Bits} {a : BState} {bytes : List Byte} {b : Block Byte} {sl : List (Cell Byte)}
    {k : Nat}, BRep P t a bytes b sl → n ≤ 7 → a.bits.length = 8 * k + 1 + n →
    ∃ sts t' a' bytes' b' sl', runBits t (List.replicate n .pop) = .ret (sts, t') ∧ BRep P t' a' bytes' b' sl' ∧
      a'.bits.length = 8 * k + 1 ∧ a'.cap = a.cap ∧ spent t'.s.w.trace = spent t.s.w.trace := by
  induction n with
  | zero => intro t a bytes b sl k R _ h; exact ⟨[], t, a, bytes, b, sl, rfl, R, h, rfl, rfl⟩
  | succ n ih =>
    intro t a bytes b sl k R hn h
    obtain ⟨t1, a1, bytes1, b1, sl1, hop, R1, h1, h2, h3⟩ := bpop_stay R (by omega) (by omega)
    obtain ⟨sts, t', a', bytes', b', sl', hrun, R', h4, h5, h6⟩ := ih R1 (by omega) (k := k) (by omega)
    exact ⟨stSuccess :: sts, t', a', bytes', b', sl', by simp [List.replicate_succ, runBits, hop, hrun], R', h4,
      by rw [h5, h2], by rw [h6, h3]⟩

theorem pops_split (k : Nat) : List.replicate (8 * (k + 1) + 1) BOp.pop =
    .pop :: (List.replicate 7 .pop ++ List.replicate (8 * k + 1) .pop) := by
  rw [List.replicate_append_replicate, show 8 * (k + 1) + 1 = (7 + (8 * k + 1)) + 1 by omega, List.replicate_succ]

/-- Emptying a bitset bit by bit. -/
theorem bpops_cost (hdyn : P.allocator.isSome = true) (ht : P.thr ≠ 0) (htg : P.thr ≤ P.growth) (k : Nat) :
    ∀ {t : Bits} {a : BState} {bytes : List Byte} {b : Block Byte} {sl : List (Cell Byte)},
    BRep P t a bytes b sl → a.bits.length = 8 * k + 1 → k * P.thr < a.cap →
    ∃ sts t' a' bytes' b' sl', runBits t (List.replicate (8 * k + 1) .pop) = .ret (sts, t') ∧
      BRep P t' a' bytes' b' sl' ∧ a'.bits = [] ∧
      2 * spent t.s.w.trace + P.growth * (k * (k + 1)) ≤ 2 * spent t'.s.w.trace := by
  induction k with
  | zero =>
    intro t a bytes b sl R hk hs
    obtain ⟨t1, a1, bytes1, b1, sl1, hop, R1, h1, h2, h3⟩ := bpop_shrink R hdyn ht hk hs
    refine ⟨[stSuccess], t1, a1, bytes1, b1, sl1, ?_, R1, List.length_eq_zero_iff.1 (by omega), by simp; omega⟩
    rw [Nat.mul_zero, Nat.zero_add, List.replicate_one]
    simp only [runBits, hop, Out.ret_bind']
  | succ k ih =>
    intro t a bytes b sl R hk hs
    obtain ⟨t1, a1, bytes1, b1, sl1, hop, R1, h1, h2, h3⟩ := bpop_shrink R hdyn ht hk hs
    obtain ⟨sts2, t2, a2, bytes2, b2, sl2, hrun2, R2, h4, h5, h6⟩ := bpops_stay 7 R1 (by omega) (k := k) (by omega)
    have hlt : k * P.thr < a2.cap := by
      rw [h5, h2]
      have h7 : k * P.thr ≤ k * P.growth := Nat.mul_le_mul_left _ htg
      have h8 : (k + 1) * P.growth = k * P.growth + P.growth := Nat.succ_mul _ _
      omega
    obtain ⟨sts3, t3, a3, bytes3, b3, sl3, hrun3, R3, h9, h10⟩ := ih R2 h4 hlt
    refine ⟨stSuccess :: (sts2 ++ sts3), t3, a3, bytes3, b3, sl3, ?_, R3, h9, ?_⟩
    · exact (congrArg (runBits t) (pops_split k)).trans (runBits_three hop hrun2 hrun3)
    · have e : P.growth * ((k + 1) * (k + 1 + 1)) = P.growth * (k * (k + 1)) + 2 * ((k + 1) * P.growth) := by
        rw [show (k + 1) * (k + 1 + 1) = k * (k + 1) + 2 * (k + 1) by
          rw [Nat.mul_comm, Nat.add_mul]; simp [Nat.add_mul]; omega]
        rw [Nat.mul_add, Nat.mul_comm P.growth (2 * (k + 1)), Nat.mul_assoc]
      rw [e]
      omega

/-- Pushing a bit that needs a new byte where there is none. -/
theorem bpush_grow {t : Bits} {a : BState} {bytes : List Byte} {b : Block Byte} {sl : List (Cell Byte)}
    (R : BRep P t a bytes b sl) (hdyn : P.allocator.isSome = true) {m : Nat} (hm : a.bits.length = 8 * m)
    (hc : a.cap ≤ m) (hf : Fits P (m + 1)) (v : Bool) :
    ∃ t' a' bytes' b' sl', bsOp t (.push v) = .ret (stSuccess, t') ∧ BRep P t' a' bytes' b' sl' ∧
      bstep P a (.push v) = (stSuccess, a') ∧ a'.bits = a.bits ++ [v] ∧ a'.cap = (m + 1) * P.growth ∧
      spent t'.s.w.trace = spent t.s.w.trace + (m + 1) * P.growth := by
  have hs := R.full.2 (show a.bits.length % 8 = 0 by omega)
  have e : bytesFor a.bits.length = m := by unfold bytesFor; omega
  have hr : room P a.cap (bytesFor a.bits.length + 1) = some ((m + 1) * P.growth) := by
    unfold room
    rw [e, if_neg (by omega), if_pos hdyn]
  obtain ⟨t', bytes', b', sl', hop, R'⟩ := bop_ok R (.push v) fun _ => ⟨e.symm ▸ hf, by rw [hr]; rfl⟩
  have h64 := R.rep.len64 hf
  have hcap0 := R.rep.cap
  dsimp only at hcap0
  have hst := (bsPush_cost t v _ hop).2.2 (by rw [R.size]; omega)
    (by rw [R.vlen, e, add64_eq h64, hcap0]; omega) (by rw [R.rep.allocator]; exact hdyn)
  simp only [bstep, hs, hr] at hop R' hst ⊢
  have hst := hst failed_success
  unfold Once at hst
  have hcap := R'.rep.cap
  dsimp only at hst hcap
  rw [hcap] at hst
  exact ⟨t', _, bytes', b', sl', hop, R', rfl, rfl, rfl, hst⟩

/-- Pushing a bit into the byte that is there. -/
theorem bpush_stay {t : Bits} {a : BState} {bytes : List Byte} {b : Block Byte} {sl : List (Cell Byte)}
    (R : BRep P t a bytes b sl) (h8 : a.bits.length % 8 ≠ 0) (v : Bool) :
    ∃ t' a' bytes' b' sl', bsOp t (.push v) = .ret (stSuccess, t') ∧ BRep P t' a' bytes' b' sl' ∧
      a'.bits = a.bits ++ [v] ∧ a'.cap = a.cap ∧ spent t'.s.w.trace = spent t.s.w.trace := by
  have hstray : a.stray ≠ [] := fun h => h8 (R.full.1 h)
  obtain ⟨x, xs, hx⟩ := List.exists_cons_of_ne_nil hstray
  obtain ⟨t', bytes', b', sl', hop, R'⟩ := bop_ok R (.push v) fun h => absurd h hstray
  have hst := (bsPush_cost t v _ hop).1 (by rw [R.size]; exact h8)
  simp only [bstep, hx] at hop R'
  exact ⟨t', _, bytes', b', sl', hop, R', rfl, rfl, hst.1⟩

theorem bpushes_stay (vs : List Bool) : ∀ {t : Bits} {a : BState} {bytes : List Byte} {b : Block Byte}
    {sl : List (Cell Byte)} {r : Nat}, BRep P t a bytes b sl → a.bits.length % 8 = r → 1 ≤ r → r + vs.length ≤ 8 →
    ∃ sts t' a' bytes' b' sl', runBits t (vs.map .push) = .ret (sts, t') ∧ BRep P t' a' bytes' b' sl' ∧
      a'.bits = a.bits ++ vs ∧ a'.cap = a.cap ∧ spent t'.s.w.trace = spent t.s.w.trace := by
  induction vs with
  | nil => intro t a bytes b sl r R _ _ _; exact ⟨[], t, a, bytes, b, sl, rfl, R, by simp, rfl, rfl⟩
  | cons v vs ih =>
    intro t a bytes b sl r R h8 hr hl
    rw [List.length_cons] at hl
    obtain ⟨t1, a1, bytes1, b1, sl1, hop, R1, h1, h2, h3⟩ := bpush_stay R (by omega) v
    by_cases hvs : vs = []
    · subst hvs
      exact ⟨[stSuccess], t1, a1, bytes1, b1, sl1, by simp [runBits, hop], R1, h1, h2, h3⟩
    · have hpos : vs.length ≠ 0 := fun h => hvs (List.length_eq_zero_iff.1 h)
      obtain ⟨sts, t', a', bytes', b', sl', hrun, R', h4, h5, h6⟩ := ih R1 (r := r + 1)
        (by rw [h1]; simp; omega) (by omega) (by omega)
      exact ⟨stSuccess :: sts, t', a', bytes', b', sl', by simp [runBits, hop, hrun], R', by rw [h4, h1]; simp,
        by rw [h5, h2], by rw [h6, h3]⟩

/-- Filling a bitset bit by bit with growth factor 1. -/
theorem bpushes_cost (hdyn : P.allocator.isSome = true) (hg : P.growth = 1) (k : Nat) :
    ∀ {t : Bits} {a : BState} {bytes : List Byte} {b : Block Byte} {sl : List (Cell Byte)} {m : Nat} (vs : List Bool),
    BRep P t a bytes b sl → vs.length = 8 * k → a.bits.length = 8 * m → a.cap ≤ m → Fits P (m + k) →
    ∃ sts t' a' bytes' b' sl', runBits t (vs.map .push) = .ret (sts, t') ∧
      BRep P t' a' bytes' b' sl' ∧ a'.bits = a.bits ++ vs ∧
      2 * spent t.s.w.trace + 2 * (m * k) + k * (k + 1) ≤ 2 * spent t'.s.w.trace := by
  induction k with
  | zero =>
    intro t a bytes b sl m vs R hv _ _ _
    obtain rfl := List.length_eq_zero_iff.1 hv
    exact ⟨[], t, a, bytes, b, sl, rfl, R, by simp, by simp⟩
  | succ k ih =>
    intro t a bytes b sl m vs R hv hm hc hf
    cases vs with
    | nil => simp at hv
    | cons v vs =>
      rw [List.length_cons] at hv
      obtain ⟨t1, a1, bytes1, b1, sl1, hop, R1, -, h1, h2, h3⟩ := bpush_grow R hdyn hm hc (hf.mono (by omega)) v
      obtain ⟨sts2, t2, a2, bytes2, b2, sl2, hrun2, R2, h4, h5, h6⟩ := bpushes_stay (vs.take 7) R1 (r := 1)
        (by rw [h1]; simp; omega) (by omega) (by simp; omega)
      rw [hg, Nat.mul_one] at h2 h3
      obtain ⟨sts3, t3, a3, bytes3, b3, sl3, hrun3, R3, h7, h8⟩ := ih (m := m + 1) (vs.drop 7) R2
        (by simp; omega) (by rw [h4, h1]; simp; omega) (by rw [h5, h2]; omega)
        (by rw [show m + 1 + k = m + (k + 1) by omega]; exact hf)
      refine ⟨stSuccess :: (sts2 ++ sts3), t3, a3, bytes3, b3, sl3, ?_, R3, ?_, ?_⟩
      · rw [List.map_cons, runBits, hop, Out.ret_bind']
        have e : vs.map BOp.push = (vs.take 7).map BOp.push ++ (vs.drop 7).map BOp.push := by
          rw [← List.map_append, List.take_append_drop]
        rw [e, runBits_append]
        simp only [hrun2, Out.ret_bind', hrun3]
      · rw [h7, h4, h1]
        simp
      · rw [h6, h3] at h8
        simp only [Nat.mul_add, Nat.add_mul, Nat.mul_one, Nat.one_mul] at h8 ⊢
        omega

end

end Zy
