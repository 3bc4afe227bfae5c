import Verif.Props.FormatNeg
import Verif.Lemmas.StringAssert

/-!
# C121: assertions of the string and formatting functions

The functions ending in `D` are the functions with their assertions (`ZYAN_ASSERT`, which aborts the process
in builds without `NDEBUG`); `.ub .assertion` is the aborted process. `SUsed t`: `t` was obtained by any
constructor and any calls that are not insertions, with an allocator that grants or refuses every single
request as it likes. `SReach P t`: by any calls in the domain of the specification, with an allocator that
does not refuse.
-/

namespace Zy

open Spec

/-! ## What holds -/

/-- C121 for the constructors, the copies and the concatenations, whatever the allocator answers and the
buffer contains. Missing: the capacity `2^64 - 1` for `DuplicateEx` and `ConcatEx`; see
`C121_capacity_negation`. -/
theorem C121_constructors_partial (w : World Byte) {v v2 : View} {cap : Nat} (al : Option Nat) (g th : Nat)
    (b : Option (Block Byte)) (hv : v.size < 2 ^ 64) :
    (strInitExD w cap al g th = strInitEx w cap al g th ∧ strInitExD w cap al g th ≠ .ub .assertion) ∧
    (strInitBufferD w b cap = strInitBuffer w b cap ∧ strInitBufferD w b cap ≠ .ub .assertion) ∧
    (strDuplicateBufferD w v b cap = strDuplicateBuffer w v b cap ∧
      strDuplicateBufferD w v b cap ≠ .ub .assertion) ∧
    (strConcatBufferD w v v2 b cap = strConcatBuffer w v v2 b cap ∧
      strConcatBufferD w v v2 b cap ≠ .ub .assertion) ∧
    (cap < 2 ^ 64 - 1 →
      strDuplicateExD w v cap al g th = strDuplicateEx w v cap al g th ∧
      strDuplicateExD w v cap al g th ≠ .ub .assertion ∧
      strConcatExD w v v2 cap al g th = strConcatEx w v v2 cap al g th ∧
      strConcatExD w v v2 cap al g th ≠ .ub .assertion) := by
  refine ⟨⟨strInitExD_eq w cap al g th, ?_⟩, ⟨strInitBufferD_eq w b cap, ?_⟩,
    ⟨strDuplicateBufferD_eq w v b cap, ?_⟩, ⟨strConcatBufferD_eq w v v2 b cap, ?_⟩, fun hc => ?_⟩
  · rw [strInitExD_eq]; exact quiet_strInitEx _ _ _ _ _
  · rw [strInitBufferD_eq]; exact quiet_strInitBuffer _ _ _
  · rw [strDuplicateBufferD_eq]; exact quiet_strDuplicateBuffer _ _ _ _
  · rw [strConcatBufferD_eq]; exact quiet_strConcatBuffer _ _ _ _ _
  · have e1 := strDuplicateExD_eq w (src := v) (c := cap) al g th hv (by omega)
    have e2 := strConcatExD_eq w (s1 := v) (s2 := v2) (c := cap) al g th (by omega)
    exact ⟨e1, e1 ▸ quiet_strDuplicateEx _ _ _ _ _ _, e2, e2 ▸ quiet_strConcatEx _ _ _ _ _ _ _⟩

/-- C121 for all calls on strings of any history, whatever the allocator answers: the operations other than
insertions, appending numbers, the destructor, the capacity and character pointers. Missing: insertions
(`C121_reliable`), `AppendFormat` (`C121_format_exact`) and the size. -/
theorem C121_any_allocator_partial {t : Str} (h : SUsed t) :
    (∀ op, isInsertion op = false → strOpD t op = strOp t op ∧ strOpD t op ≠ .ub .assertion) ∧
    (∀ value padding, strAppendDecUD t value padding = strAppendDecU t value padding ∧
      strAppendDecUD t value padding ≠ .ub .assertion) ∧
    (∀ value padding upper, strAppendHexUD t value padding upper = strAppendHexU t value padding upper ∧
      strAppendHexUD t value padding upper ≠ .ub .assertion) ∧
    (∀ value padding sign pre, strAppendDecSD t value padding sign pre =
        strAppendDecS t value padding sign pre ∧
      strAppendDecSD t value padding sign pre ≠ .ub .assertion) ∧
    (∀ value padding upper sign pre, strAppendHexSD t value padding upper sign pre =
        strAppendHexS t value padding upper sign pre ∧
      strAppendHexSD t value padding upper sign pre ≠ .ub .assertion) ∧
    (strDestroyD t = strDestroy t ∧ strDestroyD t ≠ .ub .assertion) ∧
    strGetCapacityD t = .ret (strGetCapacity t) ∧
    ∀ i, strGetCharMutableD t i = .ret (strGetCharMutable t i) := by
  have hu := h.usable
  have hdec : ∀ t', Usable t'.s → ∀ p m, strAppendDecUD t' m p = strAppendDecU t' m p :=
    fun t' h' p m => strAppendDecWithD_eq h' 20 m p
  have hhex : ∀ t', Usable t'.s → ∀ u p m, strAppendHexUD t' m p u = strAppendHexU t' m p u :=
    fun t' h' u p m => strAppendHexWithD_eq h' _ m p u
  refine ⟨fun op hop => ?_, fun value padding => ?_, fun value padding u => ?_,
    fun value padding sign pre => ?_, fun value padding u sign pre => ?_, ?_, ?_, fun i => ?_⟩
  · have e := strOpD_eq hu hop
    exact ⟨e, e ▸ quiet_strOp _ _⟩
  · have e := hdec t hu padding value
    exact ⟨e, e ▸ quiet_strAppendDecWith _ _ _ _⟩
  · have e := hhex t hu u padding value
    exact ⟨e, e ▸ quiet_strAppendHexWith _ _ _ _ _⟩
  · have e : strAppendDecSD t value padding sign pre = strAppendDecS t value padding sign pre :=
      strAppendSignedD_eq hu (fun t' h' m => hdec t' h' padding m) value sign pre
    exact ⟨e, e ▸ quiet_strAppendSigned (fun t n => quiet_strAppendDecWith _ _ _ _) _ _ _ _⟩
  · have e : strAppendHexSD t value padding u sign pre = strAppendHexS t value padding u sign pre :=
      strAppendSignedD_eq hu (fun t' h' m => hhex t' h' u padding m) value sign pre
    exact ⟨e, e ▸ quiet_strAppendSigned (fun t n => quiet_strAppendHexWith _ _ _ _ _) _ _ _ _⟩
  · have e := strDestroyD_eq hu
    exact ⟨e, e ▸ quiet_strDestroy _⟩
  · unfold strGetCapacityD
    rw [assertThat, if_pos (decide_eq_true hu.cap)]
    rfl
  · unfold strGetCharMutableD strGetCharMutable
    split
    · rfl
    · exact vecGetPointerD_eq hu i

/-- C121 with an allocator that does not refuse: all operations, insertions included, the size, and reading
characters through the view of the string. -/
theorem C121_reliable {P : Params} {t : Str} (h : SReach P t) :
    (∀ op, SInDomain (sabsOf t) op → strOpD t op = strOp t op ∧ strOpD t op ≠ .ub .assertion) ∧
    strGetSizeD t = .ret (strGetSize t) ∧ viewGetSizeD (strView t) = .ret (viewGetSize (strView t)) ∧
    ∀ i, strGetCharD (strView t) (some 1) i = strGetChar (strView t) (some 1) i := by
  obtain ⟨b, sl, R⟩ := h.rep
  have hs : 1 ≤ t.s.v.size := by have := R.size; omega
  refine ⟨fun op hd => ?_, ?_, ?_, fun i => ?_⟩
  · have e := sopD_ok R op hd
    exact ⟨e, e ▸ quiet_strOp _ _⟩
  · unfold strGetSizeD
    rw [assertThat, if_pos (decide_eq_true hs)]
    rfl
  · unfold viewGetSizeD
    rw [assertThat, if_pos (decide_eq_true (p := (strView t).size ≥ 1) hs)]
    rfl
  · unfold strGetCharD strGetChar
    split
    · rfl
    split
    · rfl
    · rfl

/-- C121 for `AppendFormat`, whatever the allocator answers: no assertion fails if the formatter reports an
error in one of its calls, or its text is not longer than the signed low 32 bits of the remaining capacity. -/
theorem C121_format_partial {t : Str} (h : SUsed t) {fmt : Fmt}
    (hno : ∀ x y, fmt 0 = .text x → fmt 1 = .text y → x.length < 2 ^ 31 → y.length < 2 ^ 31 →
      (x.length : Int) ≤ asInt32 (sub64 t.s.v.cap t.s.v.size)) :
    strAppendFormatD t fmt = strAppendFormat t fmt ∧ strAppendFormatD t fmt ≠ .ub .assertion := by
  have e := formatD_eq h.usable (fmt := fmt) fun x y hx hy h1 h2 => by
    rw [toI32_asInt32]
    exact hno x y hx hy (by omega) (by omega)
  exact ⟨e, e ▸ quiet_strAppendFormat _ _⟩

/-- C121 for `AppendFormat` with an allocator that does not refuse, exactly: if the first call's text fits it
is appended; if it does not and the buffer cannot grow the call fails; otherwise the assertion fails if and only
if the text of the second call is longer than what is *then* the (signed 32-bit) rest of the capacity. -/
theorem C121_format_exact {P : Params} {t : Str} (h : SReach P t) (hc : t.s.v.cap < 2 ^ 64)
    {fmt : Fmt} {x y : List Byte} (hx : fmt 0 = .text x) (hy : fmt 1 = .text y)
    (hx31 : x.length < 2 ^ 31) (hy31 : y.length < 2 ^ 31)
    (hf : SFits ((textOf t).length + x.length + 1)) :
    ((x.length : Int) ≤ asInt32 (t.s.v.cap - ((textOf t).length + 1)) ∨
        (P.allocator = none ∧ t.s.v.cap < (textOf t).length + x.length + 1) →
      strAppendFormatD t fmt = strAppendFormat t fmt ∧ strAppendFormatD t fmt ≠ .ub .assertion) ∧
    (asInt32 (t.s.v.cap - ((textOf t).length + 1)) < x.length →
      (textOf t).length + x.length + 1 ≤ t.s.v.cap ∨ P.allocator.isSome →
      strAppendFormatD t fmt =
        if (y.length : Int) ≤ asInt32 ((if (textOf t).length + x.length + 1 ≤ t.s.v.cap
            then (if x = [] then t.s.v.cap else trim P t.s.v.cap ((textOf t).length + x.length + 1))
            else ((textOf t).length + x.length + 1) * P.growth) - ((textOf t).length + x.length + 1))
        then strAppendFormat t fmt else .ub .assertion) := by
  obtain ⟨b, sl, R⟩ := h.rep
  have hu := R.usable
  have hsz : t.s.v.size = (textOf t).length + 1 := by rw [R.size, sabsOf_text]
  have hcap : (textOf t).length + 1 ≤ t.s.v.cap := len_cap R
  have hf' := hf
  unfold SFits at hf'
  have hroom0 : toI32 (sub64 t.s.v.cap t.s.v.size) = asInt32 (t.s.v.cap - ((textOf t).length + 1)) := by
    rw [toI32_asInt32, hsz, sub64_eq hcap hc]
  have key : asInt32 (t.s.v.cap - ((textOf t).length + 1)) < x.length →
      strAppendFormatD t fmt = (strAppendFormat t fmt).bind fun r =>
        if failed r.1 then .ret r
        else assertThat ((y.length : Int) ≤ toI32 (sub64 r.2.s.v.cap r.2.s.v.size)) (.ret r) := fun hlt =>
    formatD_again hu hx (by omega) (by rw [hroom0]; exact hlt) hy (by omega)
  refine ⟨fun hcase => ?_, fun hlt hroom => ?_⟩
  · suffices e : strAppendFormatD t fmt = strAppendFormat t fmt from ⟨e, e ▸ quiet_strAppendFormat _ _⟩
    by_cases hle : (x.length : Int) ≤ asInt32 (t.s.v.cap - ((textOf t).length + 1))
    · refine formatD_eq hu fun x' y' hx' hy' _ _ => ?_
      rw [hx] at hx'
      cases hx'
      rw [hroom0]
      exact hle
    · obtain ⟨hd, hlt2⟩ := hcase.resolve_left hle
      obtain ⟨t', e, _⟩ := C36_failure_exact h hc (Or.inr ⟨hx, by omega, hd, rfl, hlt2, hf⟩)
      rw [key (by omega), e, Out.ret_bind', if_pos (by simp)]
  · have hE := format_exact R (by rw [sabsOf_bytes]; exact hc) hx (by omega) (by rw [sabsOf_text]; exact hf)
    rw [sabsOf_text, sabsOf_bytes] at hE
    obtain ⟨t', D, b', sl', e, hD, R'⟩ := hE.2 hlt
      (hroom.imp_right fun h => Option.isSome_iff_ne_none.1 h) hy (by omega)
    generalize written (formatCap P t.s.v.cap (textOf t).length x.length -
      ((textOf t).length + x.length + 1)) y ++ D = W at hD R'
    have hW : (textOf t ++ W.take (x.length + 1)).length = (textOf t).length + x.length + 1 := by
      rw [List.length_append, List.length_take, Nat.min_eq_left hD, ← Nat.add_assoc]
    have hsz' : t'.s.v.size = (textOf t).length + x.length + 1 := by rw [R'.size]; exact hW
    have hcap' : t'.s.v.cap = formatCap P t.s.v.cap (textOf t).length x.length := R'.cap
    have hlen' : (textOf t).length + x.length + 1 ≤ formatCap P t.s.v.cap (textOf t).length x.length := by
      rw [← hW]; exact R'.len
    have hmul : ((textOf t).length + x.length + 1) * P.growth < 18446744073709551616 :=
      Nat.lt_of_le_of_lt (Nat.mul_le_mul_left _ R.rep.growth255) hf'
    have hword : formatCap P t.s.v.cap (textOf t).length x.length < 18446744073709551616 := by
      unfold formatCap trim
      generalize ((textOf t).length + x.length + 1) * P.growth = m at hmul
      split
      · split
        · exact hc
        · split
          · omega
          · exact hc
      · exact hmul
    rw [key hlt, e, Out.ret_bind', if_neg (by simp), hsz', hcap', toI32_asInt32, sub64_eq hlen' hword]
    have hcapeq : formatCap P t.s.v.cap (textOf t).length x.length =
        (if (textOf t).length + x.length + 1 ≤ t.s.v.cap
          then (if x = [] then t.s.v.cap else trim P t.s.v.cap ((textOf t).length + x.length + 1))
          else ((textOf t).length + x.length + 1) * P.growth) := by
      unfold formatCap
      simp only [List.length_eq_zero_iff]
    rw [hcapeq]
    unfold assertThat
    simp only [decide_eq_true_eq]

/-! ## What fails -/

/-- C121 fails for every text that does not fit into a string with growth factor 1 (in particular for every
such text of at least one character): the string grows to exactly the length needed, and the assertion asks
for room for a second copy of the text. -/
theorem C121_format_negation {P : Params} {t : Str} (h : SReach P t) (hc : t.s.v.cap < 2 ^ 64)
    {fmt : Fmt} {x : List Byte} (hx : fmt 0 = .text x) (hy : fmt 1 = .text x) (hx31 : x.length < 2 ^ 31)
    (hf : SFits ((textOf t).length + x.length + 1)) (hal : P.allocator.isSome) (hg : P.growth = 1)
    (hfull : t.s.v.cap < (textOf t).length + x.length + 1) :
    strAppendFormatD t fmt = .ub .assertion := by
  have hle := asInt32_le (t.s.v.cap - ((textOf t).length + 1))
  obtain ⟨b, sl, R⟩ := h.rep
  have hcap : (textOf t).length + 1 ≤ t.s.v.cap := len_cap R
  rw [(C121_format_exact h hc hx hy hx31 hx31 hf).2 (by omega) (Or.inr hal),
    if_neg (show ¬ (textOf t).length + x.length + 1 ≤ t.s.v.cap by omega), hg, Nat.mul_one, Nat.sub_self,
    if_neg]
  show ¬ ((x.length : Int) ≤ 0)
  omega

/-- C121 fails for `DuplicateEx` and `ConcatEx` with the capacity `2^64 - 1`, for every text of at least one
character and every allocator that grants one byte: the capacity plus one is 0 and the string gets a single
byte. Without assertions the text is written behind the end of that byte's block. -/
theorem C121_capacity_negation {w : World Byte} {a g th : Nat} {v v2 : View} (hg : 1 ≤ g)
    (hok : failed (w.oracle w.calls) = false) (h1 : 1 ≤ v.size) (h2 : 1 ≤ v2.size) (hm : v.size - 1 ≤ v.mem.length)
    (hm2 : v2.size - 1 ≤ v2.mem.length) (hs : v.size + v2.size < 2 ^ 64) :
    (2 ≤ v.size → strDuplicateExD w v (2 ^ 64 - 1) (some a) g th = .ub .assertion ∧
      strDuplicateEx w v (2 ^ 64 - 1) (some a) g th = .ub .oob) ∧
    (3 ≤ v.size + v2.size → strConcatExD w v v2 (2 ^ 64 - 1) (some a) g th = .ub .assertion ∧
      strConcatEx w v v2 (2 ^ 64 - 1) (some a) g th = .ub .oob) := by
  have hs' : v.size + v2.size < 18446744073709551616 := hs
  constructor
  · intro hv
    obtain ⟨t, w', e, hcap, hd⟩ := tiny_init (w := w) (a := a) (g := g) (th := th) hg hok
      (c := max (2 ^ 64 - 1) (sub64 v.size 1)) (by rw [sub64_eq (by omega) (by omega)]; omega)
    constructor
    · unfold strDuplicateExD
      rw [if_neg (by omega), strInitExD_eq, e, Out.ret_bind', if_neg (by simp)]
      simp only
      rw [assertThat, if_neg (by rw [hcap]; simp; omega)]
    · unfold strDuplicateEx
      rw [if_neg (by omega), e, Out.ret_bind', if_neg (by simp)]
      simp only
      rw [tiny_dup hd hv hm (by omega)]
      rfl
  · intro hv
    have hs3 : sub64 (add64 v.size v2.size) 1 = v.size + v2.size - 1 := by
      rw [add64_eq hs', sub64_eq (by omega) hs']
    obtain ⟨t, w', e, hcap, hd⟩ := tiny_init (w := w) (a := a) (g := g) (th := th) hg hok
      (c := max (2 ^ 64 - 1) (sub64 (sub64 (add64 v.size v2.size) 1) 1))
      (by rw [hs3, sub64_eq (by omega) (by omega)]; omega)
    constructor
    · unfold strConcatExD
      simp only
      rw [if_neg (by omega), strInitExD_eq, e, Out.ret_bind', if_neg (by simp)]
      simp only
      rw [assertThat, if_neg (by rw [hcap, hs3]; simp; omega)]
    · unfold strConcatEx
      rw [if_neg (by omega), e, Out.ret_bind', if_neg (by simp)]
      simp only
      rw [tiny_concat hd h1 h2 hv hm hm2 hs']
      rfl

/-- C121 for views: the size of every view of a buffer can be asked for. It fails for every empty view
inside of another view: it is created successfully, with a size of 0 instead of 1, and asking for its size
fails the assertion (without assertions the size is `2^64 - 1`). -/
theorem C121_view_negation (src : View) (i : Nat) (hi : i < src.size) (hs : src.size ≤ 2 ^ 64) :
    ∃ v, viewInsideViewEx src i 0 = (stSuccess, some v) ∧ viewGetSizeD v = .ub .assertion ∧
      viewGetSize v = 2 ^ 64 - 1 := by
  refine ⟨⟨src.mem.drop i, 0⟩, ?_, ?_, ?_⟩
  rotate_left
  · rfl
  · show sub64 0 1 = _
    decide +kernel
  unfold viewInsideViewEx
  rw [add64_eq (by omega), if_neg (by omega)]

/-- All other ways to make a view: inside of another view with at least one character, inside of a
terminated buffer, and inside of a buffer with a given length. -/
theorem C121_view_partial :
    (∀ src i n st v, viewInsideViewEx src i n = (st, some v) → 1 ≤ n →
      viewGetSizeD v = .ret (viewGetSize v)) ∧
    (∀ mem st v, mem.length < 2 ^ 64 → viewInsideBuffer mem = .ret (st, v) →
      viewGetSizeD v = .ret (viewGetSize v)) ∧
    (∀ mem n st v, n < 2 ^ 64 - 1 → viewInsideBufferEx mem n = (st, some v) →
      viewGetSizeD v = .ret (viewGetSize v)) := by
  have key : ∀ v : View, 1 ≤ v.size → viewGetSizeD v = .ret (viewGetSize v) := fun v h => by
    unfold viewGetSizeD
    rw [assertThat, if_pos (decide_eq_true h)]
    rfl
  refine ⟨fun src i n st v h hn => ?_, fun mem st v hm h => ?_, fun mem n st v hn h => ?_⟩
  · unfold viewInsideViewEx at h
    split at h
    · cases h
    · cases h; exact key _ hn
  · unfold viewInsideBuffer at h
    obtain ⟨n, e, h⟩ := bind_ret h
    cases h
    have : n < mem.length := cStrlen_lt e
    refine key _ ?_
    show 1 ≤ add64 n 1
    rw [add64_eq (by omega)]; omega
  · unfold viewInsideBufferEx at h
    split at h
    · cases h
    · cases h
      refine key _ ?_
      show 1 ≤ add64 n 1
      rw [add64_eq (by omega)]; omega

/-- C121 fails when a character is read through a zero-filled view object that a view function has filled
(the functions do not write the element size): for every index inside of the text. -/
theorem C121_getChar_negation (v : View) (i : Nat) (hi : i + 1 < v.size) (hs : v.size < 2 ^ 64) :
    strGetCharD v (some 0) i = .ub .assertion := by
  unfold strGetCharD
  rw [add64_eq (by omega), if_neg (by omega), if_neg (by omega)]
  rfl

/-! ## Insertions and refused requests, and examples -/

/-- The second request is refused, all others are granted. -/
def exOneW : World Byte := ⟨fun n => if n = 1 then stNoMemory else stSuccess, 0, 0, []⟩

/-- The four letters "aB@c" in 33 bytes, made in that world. -/
def exOne0 : Str := { exStr with s := ⟨exStr.s.v, ⟨exOneW.oracle, 1, 1, [.alloc 0 0 1 33]⟩⟩ }

/-- After `Clear`, whose request is refused: the capacity has become 1, the size is still 5. -/
def exOne1 : Str := { exOne0 with s := ⟨{ exOne0.s.v with cap := 1 },
  ⟨exOneW.oracle, 2, 1, [.alloc 0 0 1 33, .refused 0]⟩⟩ }

/-- After reserving two bytes, which gives away the rest of the text. -/
def exOne2 : Str := { exOne0 with s := ⟨
  { exOne0.s.v with cap := 2, data := some ⟨1, (chars ['a', 'B']).map some⟩ },
  ⟨exOneW.oracle, 3, 2, [.alloc 0 0 1 33, .refused 0, .realloc 0 0 1 1 2]⟩⟩ }

/-- After `ShrinkToFit`, which makes the storage as large as the size. -/
def exOne3 : Str := { exOne0 with s := ⟨
  { exOne0.s.v with cap := 5, data := some ⟨2, (chars ['a', 'B']).map some ++ [none, none, none]⟩ },
  ⟨exOneW.oracle, 4, 3, [.alloc 0 0 1 33, .refused 0, .realloc 0 0 1 1 2, .realloc 0 1 2 1 5]⟩⟩ }

theorem exOne0_made : strDuplicateEx exOneW (textView ((chars ['a', 'B', '@', 'c']).map some)) 0 (some 0) 2 4 =
    .ret (stSuccess, some exOne0, exOne0.s.w) := by cbv
theorem exOne_clear : strOp exOne0 .clear = .ret (stNoMemory, exOne1) := by cbv
theorem exOne_reserve : strOp exOne1 (.reserve 2) = .ret (stSuccess, exOne2) := by cbv
theorem exOne_shrink : strOp exOne2 .shrinkToFit = .ret (stSuccess, exOne3) := by cbv

theorem exOne3_used : SUsed exOne3 :=
  .step (.step (.step (.dup (by decide) exOne0_made) rfl exOne_clear) rfl exOne_reserve) rfl exOne_shrink

/-- The termination assertion of insertions cannot be promised under every allocator: one refused request in
`Clear` is enough to make it read a byte that was never written, while the function without assertions
succeeds. -/
theorem C121_insert_negation : ∃ t, SUsed t ∧ (∃ t', strInsert t 0 (textView [some 7#8]) = .ret (stSuccess, t')) ∧
    strInsertD t 0 (textView [some 7#8]) = .ub .indet := by
  refine ⟨exOne3, exOne3_used, ⟨{ exOne0 with s := ⟨
    { exOne0.s.v with
      size := 6, cap := 12, data := some ⟨3, [some 7#8, some 97#8, some 66#8] ++ List.replicate 9 none⟩ },
    ⟨exOneW.oracle, 5, 4, [.alloc 0 0 1 33, .refused 0, .realloc 0 0 1 1 2, .realloc 0 1 2 1 5,
      .realloc 0 2 3 1 12]⟩⟩ }, by cbv⟩, by cbv⟩

/-- Copying the letters into a string whose allocator refuses: the call returns the refusal. -/
example : strDuplicateExD ⟨fun _ => stNoMemory, 0, 0, []⟩ (textView [some 97#8]) 5 (some 0) 2 4 ≠ .ub .assertion :=
  ((C121_constructors_partial _ (v2 := textView []) (some 0) 2 4 none (by decide)).2.2.2.2 (by decide)).2.1

example : strConcatBufferD exSW (textView [some 97#8]) (textView [some 98#8]) (some ⟨9, [none, none, none]⟩) 3 ≠
    .ub .assertion :=
  (C121_constructors_partial exSW none 1 0 _ (by decide)).2.2.2.1.2

/-- Calls on a string in whose history a request was refused. -/
example : strOpD exOne1 (.append ((chars "hello".toList).map some)) ≠ .ub .assertion ∧
    strAppendDecSD exOne1 5#64 3 true none = strAppendDecS exOne1 5#64 3 true none :=
  have h := C121_any_allocator_partial (.step (.dup (by decide) exOne0_made) rfl exOne_clear)
  ⟨(h.1 _ rfl).2, (h.2.2.2.1 _ _ _ _).1⟩

example : strOpD exStr (.insert 2 ((chars "hello".toList).map some)) ≠ .ub .assertion :=
  ((C121_reliable exStr_reach).1 _ (by show _ < _; decide +kernel)).2

/-- The inserted text, in the build with assertions. -/
example : (strOpD exStr (.insert 2 ((chars "xy".toList).map some))).bind (fun r => .ret (textOf r.2)) =
    .ret ((chars "aBxy@c".toList).map some) := by decide +kernel

example : strAppendFormatD exOne0 (fmtConst (chars "hello".toList)) ≠ .ub .assertion :=
  (C121_format_partial (.dup (by decide) exOne0_made) (by
    intro x y hx _ _ _
    cases hx
    decide +kernel)).2

/-- A text that does not fit, and the doubled capacity is enough for the second copy: no assertion fails. -/
example : strAppendFormatD exStr (fmtConst (List.replicate 30 7#8)) =
    strAppendFormat exStr (fmtConst (List.replicate 30 7#8)) := by
  rw [(C121_format_exact exStr_reach (by decide) (fmt := fmtConst (List.replicate 30 7#8)) rfl rfl (by decide)
    (by decide) (by show _ < _; decide +kernel)).2 (by decide +kernel) (Or.inr rfl), if_pos (by decide +kernel)]

/-- 32 letters and growth factor 1: "xyz" does not fit. -/
example : strAppendFormatD exG1Str (fmtConst (chars "xyz".toList)) = .ub .assertion :=
  C121_format_negation exG1Str_reach (by decide) rfl rfl (by decide) (by show _ < _; decide +kernel) rfl rfl
    (by decide +kernel)

example : strDuplicateExD exSW (textView [some 97#8]) (2 ^ 64 - 1) (some 0) 2 4 = .ub .assertion :=
  ((C121_capacity_negation (v2 := textView []) (by decide) rfl (by decide) (by decide) (by decide) (by decide)
    (by decide)).1 (by decide)).1

example : ∃ v, viewInsideViewEx (textView [some 97#8]) 1 0 = (stSuccess, some v) ∧
    viewGetSizeD v = .ub .assertion :=
  let ⟨v, h1, h2, _⟩ := C121_view_negation (textView [some 97#8]) 1 (by decide) (by decide)
  ⟨v, h1, h2⟩

example : viewGetSizeD ⟨[some 97#8, some 0#8], 2⟩ = .ret 1 :=
  C121_view_partial.2.1 [some 97#8, some 0#8] stSuccess _ (by decide) rfl

example : strGetCharD (textView [some 97#8]) (some 0) 0 = .ub .assertion :=
  C121_getChar_negation _ 0 (by decide) (by decide)

end Zy
