import Verif.Lemmas.StringQuiet
import Verif.Lemmas.StringReach
import Verif.Lemmas.FormatNeg

/-!
# Helper lemmas: duplication, insertion and formatting with assertions
-/

namespace Zy

open Spec

theorem strInitEx_cap {w w' : World Byte} {c : Nat} {al : Option Nat} {g th : Nat} {st : Status} {t : Str}
    (e : strInitEx w c al g th = .ret (st, some t, w')) : t.s.v.cap = max 1 (add64 (max 32 c) 1) := by
  unfold strInitEx at e
  simp only at e
  split at e
  · cases e
  split at e
  · cases e
  rename_i v hd
  obtain ⟨v', e1, e⟩ := bind_ret e
  cases e
  have f := strStart_frame e1
  show v'.cap = _
  rw [f.cap]
  unfold vecInitEx at hd
  split at hd
  · cases hd
  · split at hd
    · cases hd
    · cases hd
      rfl

theorem strDuplicateExD_eq (w : World Byte) {src : View} {c : Nat} (al : Option Nat) (g th : Nat)
    (hs : src.size < 18446744073709551616) (hc : c + 1 < 18446744073709551616) :
    strDuplicateExD w src c al g th = strDuplicateEx w src c al g th := by
  unfold strDuplicateExD strDuplicateEx
  rw [strInitExD_eq]
  split
  · rfl
  rename_i h0
  refine bind_same fun r e => ?_
  split
  · rfl
  obtain ⟨st, o, w2⟩ := r
  cases o with
  | none => rfl
  | some t =>
    have hcap := strInitEx_cap e
    simp only
    rw [assertThat, if_pos]
    rw [sub64_eq (by omega) hs, add64_eq (by omega)] at hcap
    simp only [ge_iff_le, decide_eq_true_eq]
    omega

theorem strDuplicateBufferD_eq (w : World Byte) (src : View) (b : Option (Block Byte)) (c : Nat) :
    strDuplicateBufferD w src b c = strDuplicateBuffer w src b c := by
  unfold strDuplicateBufferD strDuplicateBuffer
  rw [strInitBufferD_eq]
  split
  · rfl
  split
  · rfl
  rename_i h1
  refine bind_same fun r e => ?_
  split
  · rfl
  obtain ⟨st, o⟩ := r
  cases o with
  | none => rfl
  | some t =>
    have hcap := (strInitBuffer_made e).2
    simp only
    rw [assertThat, if_pos]
    simp only [ge_iff_le, decide_eq_true_eq]
    omega

theorem concat_room {n c : Nat} (hn : n < 18446744073709551616) (hc : c + 1 < 18446744073709551616) :
    n ≤ max 1 (add64 (max 32 (max c (sub64 n 1))) 1) := by
  by_cases h : n = 0
  · omega
  · rw [sub64_eq (by omega) hn, add64_eq (by omega)]
    omega

theorem strConcatExD_eq (w : World Byte) {s1 s2 : View} {c : Nat} (al : Option Nat) (g th : Nat)
    (hc : c + 1 < 18446744073709551616) :
    strConcatExD w s1 s2 c al g th = strConcatEx w s1 s2 c al g th := by
  unfold strConcatExD strConcatEx
  simp only [strInitExD_eq]
  split
  · rfl
  refine bind_same fun r e => ?_
  split
  · rfl
  obtain ⟨st, o, w2⟩ := r
  cases o with
  | none => rfl
  | some t =>
    have hcap := strInitEx_cap e
    simp only
    rw [assertThat, if_pos]
    simp only [ge_iff_le, decide_eq_true_eq]
    rw [hcap]
    exact concat_room (sub64_lt _ _) hc

theorem strConcatBufferD_eq (w : World Byte) (s1 s2 : View) (b : Option (Block Byte)) (c : Nat) :
    strConcatBufferD w s1 s2 b c = strConcatBuffer w s1 s2 b c := by
  unfold strConcatBufferD strConcatBuffer
  simp only [strInitBufferD_eq]
  split
  · rfl
  split
  · rfl
  rename_i h1
  refine bind_same fun r e => ?_
  split
  · rfl
  obtain ⟨st, o⟩ := r
  cases o with
  | none => rfl
  | some t =>
    have hcap := (strInitBuffer_made e).2
    simp only
    rw [assertThat, if_pos]
    simp only [ge_iff_le, decide_eq_true_eq]
    omega

theorem strDestroyD_eq {t : Str} (h : Usable t.s) : strDestroyD t = strDestroy t := by
  unfold strDestroyD strDestroy
  rw [vecDestroyD_eq h]

/-! ## Insertion -/

theorem SRep.usable {P : Params} {t : Str} {a : SState} {b : Block Byte} {sl : List (Cell Byte)}
    (R : SRep P t a b sl) : Usable t.s where
  esz := by rw [R.rep.esz, R.one]; decide
  data := by rw [R.rep.data]; rfl
  cap := by rw [R.rep.cap]; exact R.rep.cap1
  growth := by rw [R.rep.growth]; exact R.rep.growth1
  growth255 := by rw [R.rep.growth]; exact R.rep.growth255

theorem SRep.assertTerminated {β : Type} {P : Params} {t : Str} {a : SState} {b : Block Byte}
    {sl : List (Cell Byte)} (R : SRep P t a b sl) (k : Out β) : assertTerminated t.s.v k = k := by
  unfold Zy.assertTerminated
  have hs := R.size
  have hr : rdChar b.cells ((t.s.v.size : Int) - 1) = .ret 0#8 := by
    unfold rdChar
    have h1 : ((t.s.v.size : Int) - 1).toNat = a.text.length := by omega
    rw [if_neg (by omega), h1, R.rep.cells]
    simp
  rw [R.rep.data]
  simp only [withData, hr, Out.ret_bind']
  rfl

theorem insertTail_eq {t : Str} (h : Usable t.s) {i n : Nat} {x : Src Byte} {q : Status × Str}
    (hn : (t.s.v.size + n) * 255 < 18446744073709551616)
    (hT : ∀ k : Out (Status × Str), assertTerminated q.2.s.v k = k)
    (e : ((vecInsertRange t.s i x n).bind fun r =>
      if failed r.1 then .ret (r.1, { t with s := r.2 }) else .ret (stSuccess, { t with s := r.2 })) =
      Out.ret q) :
    ((vecInsertRangeD t.s i x n).bind fun r =>
      if failed r.1 then .ret (r.1, { t with s := r.2 })
      else assertTerminated r.2.v (.ret (stSuccess, { t with s := r.2 }))) = .ret q := by
  rw [vecInsertRangeD_eq h hn]
  obtain ⟨r, e1, e⟩ := bind_ret e
  rw [e1, Out.ret_bind']
  by_cases hf : failed r.1 = true
  · rw [if_pos hf] at e ⊢
    exact e
  · rw [if_neg hf] at e ⊢
    cases e
    exact hT _

theorem strInsertD_eq {t : Str} (h : Usable t.s) {i : Nat} {v : View} {q : Status × Str}
    (hn : (t.s.v.size + sub64 v.size 1) * 255 < 18446744073709551616)
    (hT : ∀ k : Out (Status × Str), assertTerminated q.2.s.v k = k)
    (e : strInsert t i v = .ret q) : strInsertD t i v = .ret q := by
  unfold strInsertD
  unfold strInsert at e
  split
  · rename_i h0
    rw [if_pos h0] at e; exact e
  rename_i h0
  rw [if_neg h0] at e
  split
  · rename_i h1
    rw [if_pos h1] at e
    rw [strAppendSrcD_eq h]
    exact e
  rename_i h1
  rw [if_neg h1] at e
  split
  · rename_i h2
    rw [if_pos h2] at e; exact e
  rename_i h2
  rw [if_neg h2] at e
  exact insertTail_eq h hn hT e

theorem strInsertExD_eq {t : Str} (h : Usable t.s) {i j n : Nat} {v : View} {q : Status × Str}
    (hn : add64 j n < v.size → (t.s.v.size + n) * 255 < 18446744073709551616)
    (hT : ∀ k : Out (Status × Str), assertTerminated q.2.s.v k = k)
    (e : strInsertEx t i v j n = .ret q) : strInsertExD t i v j n = .ret q := by
  unfold strInsertExD
  unfold strInsertEx at e
  split
  · rename_i h0
    rw [if_pos h0] at e; exact e
  rename_i h0
  rw [if_neg h0] at e
  split
  · rename_i h1
    rw [if_pos h1] at e
    rw [strAppendExSrcD_eq h]
    exact e
  rename_i h1
  rw [if_neg h1] at e
  split
  · rename_i h2
    rw [if_pos h2] at e; exact e
  rename_i h2
  rw [if_neg h2] at e
  split
  · rename_i h3
    rw [if_pos h3] at e; exact e
  rename_i h3
  rw [if_neg h3] at e
  exact insertTail_eq h (hn (by omega)) hT e

theorem sopD_ok {P : Params} {t : Str} {a : SState} {b : Block Byte} {sl : List (Cell Byte)}
    (R : SRep P t a b sl) (op : SOp) (hd : SInDomain a op) : strOpD t op = strOp t op := by
  by_cases hop : isInsertion op = false
  · exact strOpD_eq R.usable hop
  obtain ⟨junk, st, t', a', b', sl', -, -, e, R'⟩ := sop_ok R op hd
  rw [e]
  have hsz := R.size
  cases op with
  | insert i x =>
    have hd' : (a.text.length + x.length + 1) * 255 < 18446744073709551616 := hd
    have hs : sub64 (textView x).size 1 = x.length := by
      show sub64 (x.length + 1) 1 = _
      rw [sub64_eq (by omega) (by omega)]; omega
    refine strInsertD_eq R.usable ?_ (fun k => R'.assertTerminated k) e
    rw [hs, hsz]
    exact Nat.lt_of_le_of_lt (Nat.mul_le_mul_right 255 (by omega)) hd'
  | insertEx i x j n =>
    have hd' : (a.text.length + x.length + 1) * 255 < 18446744073709551616 := hd.1
    refine strInsertExD_eq R.usable (fun hlt => ?_) (fun k => R'.assertTerminated k) e
    rw [add64_eq hd.2] at hlt
    have hlt' : j + n < x.length + 1 := hlt
    rw [hsz]
    exact Nat.lt_of_le_of_lt (Nat.mul_le_mul_right 255 (by omega)) hd'
  | _ => exact absurd rfl hop

/-! ## printf-style append -/

/-- When the text is written a second time, the assertion is about the state that is returned. -/
theorem formatD_again {t : Str} (h : Usable t.s) {fmt : Fmt} {x y : List Byte} (hx : fmt 0 = .text x)
    (hx31 : x.length ≤ 0x7fffffff) (hno : toI32 (sub64 t.s.v.cap t.s.v.size) < x.length)
    (hy : fmt 1 = .text y) (hy31 : y.length ≤ 0x7fffffff) :
    strAppendFormatD t fmt = (strAppendFormat t fmt).bind fun r =>
      if failed r.1 then .ret r
      else assertThat ((y.length : Int) ≤ toI32 (sub64 r.2.s.v.cap r.2.s.v.size)) (.ret r) := by
  unfold strAppendFormatD strAppendFormat
  simp only
  rw [bind_bind]
  refine bind_same fun r e => ?_
  obtain ⟨n, v⟩ := r
  have hl := vsnprintf_len e
  have f := vsnprintf_frame h.data e
  rw [hx, fmtLen, if_pos hx31] at hl
  subst hl
  have h1 : Usable (⟨v, t.s.w⟩ : VS Byte) := f.usable h
  simp only
  rw [f.cap, if_neg (by omega), if_neg (by omega), if_neg (by omega), if_neg (by omega),
    strResizeD_eq (t := { t with s := { t.s with v := v } }) h1, bind_bind]
  refine bind_same fun r e2 => ?_
  by_cases hf : failed r.1 = true
  · rw [if_pos hf, if_pos hf, Out.ret_bind', if_pos hf]
  rw [if_neg hf, if_neg hf, bind_bind]
  refine bind_same fun q e3 => ?_
  obtain ⟨n, v'⟩ := q
  have hl := vsnprintf_len e3
  rw [hy, fmtLen, if_pos hy31] at hl
  subst hl
  simp only
  rw [if_neg (by omega), if_neg (by omega), Out.ret_bind', if_neg (by simp)]

/-- In all other cases the assertion is not reached. -/
theorem formatD_eq {t : Str} (h : Usable t.s) {fmt : Fmt}
    (hno : ∀ x y, fmt 0 = .text x → fmt 1 = .text y → x.length ≤ 0x7fffffff → y.length ≤ 0x7fffffff →
      (x.length : Int) ≤ toI32 (sub64 t.s.v.cap t.s.v.size)) :
    strAppendFormatD t fmt = strAppendFormat t fmt := by
  unfold strAppendFormatD strAppendFormat
  simp only
  refine bind_same fun r e => ?_
  obtain ⟨n, v⟩ := r
  have hl := vsnprintf_len e
  have f := vsnprintf_frame h.data e
  have h1 : Usable (⟨v, t.s.w⟩ : VS Byte) := f.usable h
  simp only
  by_cases hn : n < 0
  · rw [if_pos hn, if_pos hn]
  rw [if_neg hn, if_neg hn]
  by_cases hle : n ≤ toI32 (sub64 v.cap t.s.v.size)
  · rw [if_pos hle, if_pos hle]
  rw [if_neg hle, if_neg hle, strResizeD_eq (t := { t with s := { t.s with v := v } }) h1]
  refine bind_same fun r e2 => ?_
  by_cases hf : failed r.1 = true
  · rw [if_pos hf, if_pos hf]
  rw [if_neg hf, if_neg hf]
  refine bind_same fun q e3 => ?_
  obtain ⟨m, v'⟩ := q
  have hl' := vsnprintf_len e3
  simp only
  by_cases hm : m < 0
  · rw [if_pos hm, if_pos hm]
  exfalso
  rw [f.cap] at hle
  generalize h0 : fmt 0 = f0 at hl
  generalize h1 : fmt 1 = f1 at hl'
  cases f0 with
  | error x => simp only [fmtLen] at hl; omega
  | text x =>
    cases f1 with
    | error y => simp only [fmtLen] at hl'; omega
    | text y =>
      simp only [fmtLen] at hl hl'
      by_cases hx : x.length ≤ 0x7fffffff
      · by_cases hy : y.length ≤ 0x7fffffff
        · rw [if_pos hx] at hl
          have := hno x y h0 h1 hx hy
          omega
        · rw [if_neg hy] at hl'; omega
      · rw [if_neg hx] at hl; omega

/-! ## A capacity whose successor is 0 -/

theorem tiny_init {w : World Byte} {a g th c : Nat} (hg : 1 ≤ g) (hok : failed (w.oracle w.calls) = false)
    (hc : c = 18446744073709551615) : ∃ t w', strInitEx w c (some a) g th = .ret (stSuccess, some t, w') ∧
      t.s.v.cap = 1 ∧ t.s.v.data = some ⟨w.nextBlk, [some 0#8]⟩ := by
  have hcap : add64 (max 32 c) 1 = 0 := by unfold add64; omega
  have hv : vecInitEx w 1 0 false (some a) g th = (w.oracle w.calls,
      some { allocator := some a, growth := g, shrink := th, size := 0, cap := 1, esz := 1,
             hasDtor := false, data := some ⟨w.nextBlk, [none]⟩ },
      { w with calls := w.calls + 1, nextBlk := w.nextBlk + 1 }.log (.alloc a w.nextBlk 1 1)) := by
    unfold vecInitEx
    simp only
    rw [if_neg (by omega)]
    unfold allocate
    simp only [hok, Bool.false_eq_true, if_false]
    rfl
  unfold strInitEx
  rw [hcap, hv]
  simp only [hok, Bool.false_eq_true, if_false]
  exact ⟨_, _, rfl, rfl, rfl⟩

theorem memcpy_cases {v : Vec Byte} {b : Block Byte} (hd : v.data = some b) {m : List (Cell Byte)}
    {d n : Nat} (hn : n ≤ m.length) : vecMemcpy v d (.ext m) n = .ub .oob ∨
      ∃ v' b', vecMemcpy v d (.ext m) n = .ret v' ∧ v'.data = some b' ∧
        b'.cells.length = b.cells.length := by
  unfold vecMemcpy
  rw [hd]
  simp only [withData, memcpyIn, readRange]
  rw [if_pos (by omega), Out.ret_bind']
  unfold writeRange
  split
  · rename_i h
    refine Or.inr ⟨_, _, rfl, rfl, ?_⟩
    simp only [List.length_append, List.length_take, List.length_drop] at h ⊢
    omega
  · exact Or.inl rfl

theorem poke_behind {v : Vec Byte} {b : Block Byte} {j : Nat} {c : Cell Byte} (hd : v.data = some b)
    (h : b.cells.length ≤ j) : strPoke v j c = .ub .oob := by
  unfold strPoke
  rw [hd]
  exact if_neg (Nat.not_lt.2 h)

theorem terminate_behind {v : Vec Byte} {b : Block Byte} {n k : Nat} (hd : v.data = some b)
    (hl : b.cells.length = k) (h : k ≤ sub64 n 1) (w : World Byte) (f : Bool) :
    nullTerminate ⟨⟨{ v with size := n }, w⟩, f⟩ = .ub .oob := by
  have hp : strPoke { v with size := n } (sub64 n 1) (some 0#8) = .ub .oob :=
    poke_behind (b := b) (v := { v with size := n }) hd (hl ▸ h)
  unfold nullTerminate
  simp only [hp]
  rfl

theorem tiny_dup {t : Str} {v : View} {i : Nat} (hd : t.s.v.data = some ⟨i, [some 0#8]⟩)
    (h2 : 2 ≤ v.size) (hm : v.size - 1 ≤ v.mem.length) (hs : v.size < 18446744073709551616) :
    dupInto t v = .ub .oob := by
  have hs1 : sub64 v.size 1 = v.size - 1 := sub64_eq (by omega) hs
  unfold dupInto
  rcases memcpy_cases (v := t.s.v) hd (d := 0) (n := sub64 v.size 1) (by rw [hs1]; exact hm) with
    e | ⟨v', b', e, hd', hl⟩
  · rw [e]; rfl
  · rw [e, Out.ret_bind']
    have hk : 1 ≤ sub64 v.size 1 := by rw [hs1]; omega
    exact terminate_behind hd' hl hk _ _

theorem tiny_concat {t : Str} {v v2 : View} {i : Nat} (hd : t.s.v.data = some ⟨i, [some 0#8]⟩)
    (h1 : 1 ≤ v.size) (h2 : 1 ≤ v2.size) (h3 : 3 ≤ v.size + v2.size) (hm : v.size - 1 ≤ v.mem.length)
    (hm2 : v2.size - 1 ≤ v2.mem.length) (hs : v.size + v2.size < 18446744073709551616) :
    concatInto t v v2 = .ub .oob := by
  have hs3 : ∀ n m : Nat, 3 ≤ n + m → n + m < 18446744073709551616 →
      1 ≤ sub64 (sub64 (add64 n m) 1) 1 := by
    intro n m h1 h2
    rw [add64_eq h2, sub64_eq (a := n + m) (by omega) h2, sub64_eq (by omega) (by omega)]
    omega
  have hk := hs3 _ _ h3 hs
  clear hs3
  have hs2 : sub64 v2.size 1 = v2.size - 1 := sub64_eq h2 (by clear hk; omega)
  have hs1 : sub64 v.size 1 = v.size - 1 := sub64_eq h1 (by clear hk hs2; omega)
  unfold concatInto
  rcases memcpy_cases (v := t.s.v) hd (d := 0) (n := sub64 v.size 1) (by rw [hs1]; exact hm) with
    e | ⟨v', b', e, hd', hl⟩
  · rw [e]; rfl
  rw [e, Out.ret_bind']
  rcases memcpy_cases (v := v') hd' (d := sub64 v.size 1) (n := sub64 v2.size 1) (by rw [hs2]; exact hm2)
    with e2 | ⟨v'', b'', e2, hd'', hl2⟩
  · rw [e2]; rfl
  · rw [e2, Out.ret_bind']
    generalize sub64 (add64 v.size v2.size) 1 = len at hk ⊢
    exact terminate_behind hd'' (hl2.trans hl) hk _ _

theorem cStrlen_lt : ∀ {mem : List (Cell Byte)} {n : Nat}, cStrlen mem = .ret n → n < mem.length
  | [], n, e => by cases e
  | none :: _, n, e => by cases e
  | some c :: rest, n, e => by
    unfold cStrlen at e
    split at e
    · cases e; simp
    · obtain ⟨m, e1, e⟩ := bind_ret e
      cases e
      have := cStrlen_lt e1
      simp only [List.length_cons]
      omega

end Zy
