import Verif.Lemmas.StringProps

/-!
# Property theorems about strings (C18 - C31, C76 - C78)

The theorems speak about strings that a program can obtain (`SReach`), about the modelled API functions,
and about what a caller can observe: `textOf`, `Terminated`, sizes and statuses. Views are described by
`Shows` (these are its characters) and `ShowsTerminated` (and a NUL follows).
-/

namespace Zy

open Spec

/-! ## Concrete reachable strings, used by the examples -/

/-- Characters of a text, for examples. -/
def chars (s : List Char) : List Byte := s.map fun c => BitVec.ofNat 8 c.toNat

/-- Allocator 0, growth factor 2, shrink threshold 4 (the defaults). -/
def exSP : Params := ⟨some 0, 2, 4, 1, false⟩

/-- A fresh world whose allocator always succeeds. -/
def exSW : World Byte := ⟨fun _ => stSuccess, 0, 0, []⟩

/-- The dynamic string "aB@c" with the smallest possible storage of 33 bytes. -/
def exStr : Str :=
  ⟨⟨{ allocator := some 0, growth := 2, shrink := 4, size := 5, cap := 33, esz := 1, hasDtor := false,
      data := some ⟨0, (chars ['a', 'B', '@', 'c']).map some ++ [some 0#8] ++ List.replicate 28 none⟩ },
    ⟨fun _ => stSuccess, 1, 1, [.alloc 0 0 1 33]⟩⟩, false⟩

theorem exStr_reach : SReach exSP exStr :=
  SReach.dup (P := exSP) (w := exSW) (st := stSuccess) (w' := exStr.s.w) (x := (chars ['a', 'B', '@', 'c']).map some) (cap := 0) (a := 0) ⟨rfl, rfl⟩
    (fun _ => failed_success) ⟨rfl, by decide, by decide, rfl, rfl⟩ (by decide) (by show _ < _; decide)
    (by cbv)

/-- Parameters of a string on a caller buffer. -/
def exFSP : Params := ⟨none, 1, 0, 1, false⟩

/-- The string "ab" in a caller buffer of five bytes. -/
def exFStr : Str :=
  ⟨⟨{ allocator := none, growth := 1, shrink := 0, size := 3, cap := 5, esz := 1, hasDtor := false,
      data := some ⟨9, (chars ['a', 'b']).map some ++ [some 0#8] ++ List.replicate 2 none⟩ }, exSW⟩, true⟩

theorem exFStr_reach : SReach exFSP exFStr :=
  SReach.dupBuffer (P := exFSP) (w := exSW) (st := stSuccess) (x := (chars ['a', 'b']).map some) (cap := 5)
    (b := ⟨9, List.replicate 5 none⟩) ⟨rfl, rfl⟩ (fun _ => failed_success) ⟨rfl, rfl, rfl, rfl, rfl⟩
    (by decide) (by show _ < _; decide) (by cbv)

/-! ## C18: termination -/

/-- C18: every obtainable string is terminated inside its storage, and stays so during every history of
calls, successful or not, whose requests do not wrap around the machine word (`SAllInDomain`). Since every
prefix of a history is a history, this holds after each call.
Missing for the full claim: requests whose `index + count` or `size + 1` wraps; see `C18_negation`. -/
theorem C18_terminated_partial {P : Params} {t : Str} (h : SReach P t) (ops : List SOp)
    (hd : SAllInDomain P (sabsOf t) ops) :
    Terminated t ∧ ∃ sts t', runStr t ops = .ret (sts, t') ∧ Terminated t' := by
  obtain ⟨b, sl, R⟩ := h.rep
  obtain ⟨sts, t', a', b', sl', hrun, _, R'⟩ := runStr_ok ops R hd
  exact ⟨R.terminated, sts, t', hrun, R'.terminated⟩

/-- C18 is false for requests that wrap around: resizing the string "aB@c" to 2^64-1 characters makes
the library write a NUL in front of the first byte of the storage; deleting one character at position
2^64-1 reads outside of the storage as well. -/
theorem C18_negation : ∃ (P : Params) (t : Str), SReach P t ∧
    strResize t 18446744073709551615 = .ub .oob ∧ strDelete t 18446744073709551615 1 = .ub .oob :=
  ⟨exSP, exStr, exStr_reach, by cbv, by cbv⟩

/-- The history used as an example: an insertion, a failing insertion, a deletion, a truncation. -/
def exSOps : List SOp :=
  [.insert 1 ((chars ['x', 'y']).map some), .insert 99 [], .delete 0 1, .lower 0 5, .truncate 3]

theorem exSOps_inDomain : SAllInDomain exSP (sabsOf exStr) exSOps := by
  refine .cons (by show _ < _; decide) fun j hj => ?_
  obtain rfl := List.eq_nil_of_length_eq_zero hj
  refine .cons (by show _ < _; decide) fun j hj => ?_
  obtain rfl := List.eq_nil_of_length_eq_zero hj
  refine .cons (by show _ < _; decide) fun j hj => ?_
  obtain rfl := List.eq_nil_of_length_eq_zero hj
  refine .cons ⟨by decide, by unfold Determinate; decide⟩ fun j hj => ?_
  obtain rfl := List.eq_nil_of_length_eq_zero hj
  exact .cons trivial fun j hj => .nil _

example : Terminated exStr ∧ ∃ sts t', runStr exStr exSOps = .ret (sts, t') ∧ Terminated t' :=
  C18_terminated_partial exStr_reach exSOps exSOps_inDomain

/-! ## C19: refinement of character sequences -/

/-- C19: every history of the thirteen kinds of calls is defined, returns the statuses and leaves the text,
the length and the storage size of the abstract character sequence. -/
theorem C19_string_behaves_like_text {P : Params} {t : Str} (h : SReach P t) (ops : List SOp)
    (hd : SAllInDomain P (sabsOf t) ops) :
    ∃ sts t' a', runStr t ops = .ret (sts, t') ∧ SRuns P (sabsOf t) ops sts a' ∧
      textOf t' = a'.text ∧ strGetSize t' = a'.text.length ∧ t'.s.v.cap = a'.bytes ∧
      (a'.bytes < 18446744073709551616 → strGetCapacity t' = a'.bytes - 1) := by
  obtain ⟨b, sl, R⟩ := h.rep
  obtain ⟨sts, t', a', b', sl', hrun, hruns, R'⟩ := runStr_ok ops R hd
  refine ⟨sts, t', a', hrun, hruns, R'.textOf, R'.getSize, R'.rep.cap, ?_⟩
  intro hb
  have hc := R'.rep.cap1
  unfold strGetCapacity
  rw [R'.rep.cap]
  exact sub64_eq hc hb

example : (runStr exStr exSOps).bind (fun r => .ret (r.1, textOf r.2)) =
    .ret ([stSuccess, stOutOfRange, stSuccess, stSuccess, stSuccess],
      (chars ['x', 'y', 'b']).map some) := by decide +kernel

/-! ## C20: fixed-capacity strings -/

/-- C20: a string on a buffer of exactly `n` bytes never accesses memory outside of those bytes (every such
access is undefined behaviour in the model, and the buffer block has no other bytes), keeps its
capacity, and never calls an allocator, during every history whose requests do not wrap around.
Missing for the full claim: requests that wrap around; see `C20_negation`. -/
theorem C20_fixed_within_buffer_partial {P : Params} {w : World Byte} {b : Block Byte} (hw : Fresh w)
    (hr : Reliable w)
    (hP : P.allocator = none ∧ P.growth = 1 ∧ P.thr = 0 ∧ P.esz = 1 ∧ P.dtor = false)
    (hn : b.cells.length ≠ 0) :
    ∃ t, strInitBuffer w (some b) b.cells.length = .ret (stSuccess, some t) ∧
      ∀ ops, SAllInDomain P ⟨[], b.cells.length⟩ ops → ∃ sts t', runStr t ops = .ret (sts, t') ∧
        Terminated t' ∧ t'.s.v.cap = b.cells.length ∧ strGetSize t' < b.cells.length ∧
        t'.s.w.calls = 0 := by
  obtain ⟨v, e, R⟩ := strInitBuffer_ok hw hr hP (Nat.le_refl _) hn
  refine ⟨_, e, ?_⟩
  intro ops hd
  obtain ⟨sts, t', a', b', sl', hrun, hruns, R'⟩ := runStr_ok ops R hd
  have hb := sruns_fixed_bytes hP.1 hruns
  have hlen := R'.rep.len
  have hA := R'.rep.alloc
  simp only [AllocOK, hP.1] at hA
  simp only [List.length_append, List.length_singleton] at hlen hb
  refine ⟨sts, t', hrun, R'.terminated, ?_, ?_, hA.1⟩
  · rw [R'.rep.cap]; exact hb
  · rw [R'.getSize]; omega

/-- C20: an append or insertion that does not fit is answered with `INSUFFICIENT_BUFFER_SIZE` and leaves the
text unchanged; one that fits succeeds. -/
theorem C20_fixed_overflow_refused {P : Params} {t : Str} (h : SReach P t) (hf : P.allocator = none)
    (x : List (Cell Byte)) (hx : x ≠ []) (hfit : SFits ((textOf t).length + x.length + 1)) :
    (t.s.v.cap < (textOf t).length + x.length + 1 →
      (∃ t', strAppend t (textView x) = .ret (stInsufficient, t') ∧ textOf t' = textOf t) ∧
      ∀ i, i ≤ (textOf t).length →
        ∃ t', strInsert t i (textView x) = .ret (stInsufficient, t') ∧ textOf t' = textOf t) ∧
    ((textOf t).length + x.length + 1 ≤ t.s.v.cap →
      (∃ t', strAppend t (textView x) = .ret (stSuccess, t') ∧ textOf t' = textOf t ++ x) ∧
      ∀ i, i ≤ (textOf t).length → ∃ t', strInsert t i (textView x) = .ret (stSuccess, t') ∧
        textOf t' = (textOf t).take i ++ x ++ (textOf t).drop i) := by
  obtain ⟨b, sl, R⟩ := h.rep
  have key := fixed_append_insert R hf x hx (by rw [sabsOf_text]; exact hfit)
  rw [sabsOf_text, sabsOf_bytes] at key
  exact key

/-- C20 is false for requests that wrap around: on a string in a five-byte buffer, resizing to 2^64-1
characters writes in front of the buffer. -/
theorem C20_negation : ∃ (P : Params) (t : Str), SReach P t ∧ P.allocator = none ∧
    strResize t 18446744073709551615 = .ub .oob :=
  ⟨exFSP, exFStr, exFStr_reach, rfl, by cbv⟩

example : ∃ t', strAppend exFStr (textView [some 1#8, some 2#8, some 3#8]) = .ret (stInsufficient, t') ∧
    textOf t' = textOf exFStr :=
  ((C20_fixed_overflow_refused exFStr_reach rfl _ (by simp) (by show _ < _; decide)).1 (by decide)).1
example : ∃ t', strInsert exFStr 1 (textView [some 1#8, some 2#8]) = .ret (stSuccess, t') ∧
    textOf t' = (textOf exFStr).take 1 ++ [some 1#8, some 2#8] ++ (textOf exFStr).drop 1 :=
  ((C20_fixed_overflow_refused exFStr_reach rfl _ (by simp) (by show _ < _; decide)).2 (by decide)).2 1
    (by decide)

/-! ## C21: left search -/

/-- The view of an obtainable string shows its text, terminated; the theorems about views below apply to
strings through this. -/
theorem string_view_shows {P : Params} {t : Str} (h : SReach P t) {x : List Byte}
    (hx : textOf t = x.map some) : ShowsTerminated (strView t) x := by
  obtain ⟨b, sl, R⟩ := h.rep
  exact R.view ((sabsOf_text t).trans hx)

/-- C21: searching from the left in a range reports the leftmost occurrence that lies entirely inside of the
range, or -1 if there is none. -/
theorem C21_left_search {v1 v2 : View} {h x : List Byte} (h1 : ShowsTerminated v1 h)
    (h2 : ShowsTerminated v2 x) (hx : x ≠ []) (hx0 : 0#8 ∉ x) {i n : Nat} (hin : i + n ≤ h.length)
    (hb : h.length + x.length + 2 < 9223372036854775808) :
    ∃ st p, strLPosEx v1 v2 i n = .ret (st, some p) ∧
      ((st = stTrue ∧ 0 ≤ p ∧ Leftmost (fun a b => a = b) h x i (i + n) p.toNat) ∨
       (st = stFalse ∧ p = -1 ∧ Absent (fun a b => a = b) h x i (i + n))) := by
  obtain ⟨r1, rfl⟩ := h1.eq
  obtain ⟨r2, rfl⟩ := h2.eq
  obtain ⟨st, p, e, hc⟩ := lpos_ok eqExact (rest := r1) (rest' := r2) hx
    (fun c hc h0 => hx0 (h0 ▸ hc)) hin hb
  refine ⟨st, p, e, ?_⟩
  rcases hc with ⟨h1, h2, h3⟩ | ⟨h1, h2, h3⟩
  · exact Or.inl ⟨h1, h2, Leftmost.congr (fun a _ b _ => rel_exact a b) h3⟩
  · exact Or.inr ⟨h1, h2, Absent.congr (fun a _ b _ => rel_exact a b) h3⟩

/-- C21 for the whole text. -/
theorem C21_left_search_whole {v1 v2 : View} {h x : List Byte} (h1 : ShowsTerminated v1 h)
    (h2 : ShowsTerminated v2 x) (hx : x ≠ []) (hx0 : 0#8 ∉ x)
    (hb : h.length + x.length + 2 < 9223372036854775808) :
    ∃ st p, strLPos v1 v2 = .ret (st, some p) ∧
      ((st = stTrue ∧ 0 ≤ p ∧ Leftmost (fun a b => a = b) h x 0 h.length p.toNat) ∨
       (st = stFalse ∧ p = -1 ∧ Absent (fun a b => a = b) h x 0 h.length)) := by
  have hs : sub64 v1.size 1 = h.length := by
    rw [h1.1, sub64_eq (by omega) (by omega)]; omega
  obtain ⟨st, p, e, hc⟩ := C21_left_search h1 h2 hx hx0 (i := 0) (n := h.length) (by omega) hb
  unfold strLPos
  rw [hs]
  rw [Nat.zero_add] at hc
  exact ⟨st, p, e, hc⟩

/-- C21: a range that is not inside the text is refused. -/
theorem C21_out_of_range {v1 v2 : View} {h : List Byte} (h1 : Shows v1 h) {i n : Nat}
    (hin : h.length < i + n) (hw : i + n < 18446744073709551616) :
    strLPosEx v1 v2 i n = .ret (stOutOfRange, none) := by
  unfold strLPosEx strLPosExWith
  rw [h1.1, add64_eq hw, if_pos (by omega)]

example : ∃ st p, strLPosEx (litView (chars ['a', 'b', 'a', 'a', 'b'])) (litView (chars ['a', 'b'])) 1 4 =
    .ret (st, some p) ∧ ((st = stTrue ∧ 0 ≤ p ∧ Leftmost (fun a b => a = b) (chars ['a', 'b', 'a', 'a', 'b']) (chars ['a', 'b']) 1 (1 + 4) p.toNat) ∨
      (st = stFalse ∧ p = -1 ∧ Absent (fun a b => a = b) (chars ['a', 'b', 'a', 'a', 'b']) (chars ['a', 'b']) 1 (1 + 4))) :=
  C21_left_search (litView_shows _) (litView_shows _) (by decide) (by decide) (by decide) (by decide)
example : strLPosEx (litView (chars ['a', 'b', 'a', 'a', 'b'])) (litView (chars ['a', 'b'])) 1 4 =
    .ret (stTrue, some 3) := by decide +kernel
example : strLPosEx (litView (chars ['a', 'b', 'a', 'a', 'b'])) (litView (chars ['a', 'b'])) 1 3 =
    .ret (stFalse, some (-1)) := by decide +kernel

/-! ## C22: right search -/

/-- C22: searching from the right in the `n` characters in front of position `i` reports the rightmost
occurrence that lies entirely inside of that range, or -1. The views need not be terminated. -/
theorem C22_right_search {v1 v2 : View} {h x : List Byte} (h1 : Shows v1 h) (h2 : Shows v2 x)
    (hx : x ≠ []) {i n : Nat} (hi : i ≤ h.length) (hn : n ≤ i) :
    ∃ st p, strRPosEx v1 v2 i n = .ret (st, some p) ∧
      ((st = stTrue ∧ 0 ≤ p ∧ Rightmost (fun a b => a = b) h x (i - n) i p.toNat) ∨
       (st = stFalse ∧ p = -1 ∧ Absent (fun a b => a = b) h x (i - n) i)) := by
  obtain ⟨r1, rfl⟩ := h1.eq
  obtain ⟨r2, rfl⟩ := h2.eq
  obtain ⟨st, p, e, hc⟩ := rpos_ok eqExact (rest := r1) (rest' := r2) hx hi hn
  refine ⟨st, p, e, ?_⟩
  rcases hc with ⟨h1, h2, h3⟩ | ⟨h1, h2, h3⟩
  · exact Or.inl ⟨h1, h2, Rightmost.congr (fun a _ b _ => rel_exact a b) h3⟩
  · exact Or.inr ⟨h1, h2, Absent.congr (fun a _ b _ => rel_exact a b) h3⟩

/-- C22 for the whole text. -/
theorem C22_right_search_whole {v1 v2 : View} {h x : List Byte} (h1 : Shows v1 h) (h2 : Shows v2 x)
    (hx : x ≠ []) (hb : h.length + 1 < 18446744073709551616) :
    ∃ st p, strRPos v1 v2 = .ret (st, some p) ∧
      ((st = stTrue ∧ 0 ≤ p ∧ Rightmost (fun a b => a = b) h x 0 h.length p.toNat) ∨
       (st = stFalse ∧ p = -1 ∧ Absent (fun a b => a = b) h x 0 h.length)) := by
  have hs : sub64 v1.size 1 = h.length := by
    rw [h1.1, sub64_eq (by omega) (by omega)]; omega
  obtain ⟨st, p, e, hc⟩ := C22_right_search h1 h2 hx (i := h.length) (n := h.length) (by omega) (by omega)
  unfold strRPos
  rw [hs]
  rw [Nat.sub_self] at hc
  exact ⟨st, p, e, hc⟩

/-- C22: a range that is not inside the text is refused, for every pair of machine words. -/
theorem C22_out_of_range {v1 v2 : View} {h : List Byte} (h1 : Shows v1 h) {i n : Nat}
    (hin : h.length < i ∨ i < n) : strRPosEx v1 v2 i n = .ret (stOutOfRange, none) := by
  unfold strRPosEx strRPosExWith
  rw [h1.1, if_pos (by omega)]

example : ∃ st p, strRPosEx (litView (chars ['a', 'b', 'a', 'a', 'b'])) (litView (chars ['a', 'b'])) 4 4 =
    .ret (st, some p) ∧ ((st = stTrue ∧ 0 ≤ p ∧ Rightmost (fun a b => a = b) (chars ['a', 'b', 'a', 'a', 'b']) (chars ['a', 'b']) (4 - 4) 4 p.toNat) ∨
      (st = stFalse ∧ p = -1 ∧ Absent (fun a b => a = b) (chars ['a', 'b', 'a', 'a', 'b']) (chars ['a', 'b']) (4 - 4) 4)) :=
  C22_right_search (litView_shows _).shows (litView_shows _).shows (by decide) (by decide) (by decide)
example : strRPosEx (litView (chars ['a', 'b', 'a', 'a', 'b'])) (litView (chars ['a', 'b'])) 4 4 =
    .ret (stTrue, some 0) := by decide +kernel

/-! ## C23: case-insensitive search -/

/-- C23: when no character of the text differs from a character of the needle in bit 5 alone unless it is a
letter, the case-insensitive searches report the leftmost (rightmost) occurrence up to letter case.
Missing for the full claim: texts with such non-letters; see `C23_negation`. -/
theorem C23_search_ignoring_case_partial {v1 v2 : View} {h x : List Byte} (h1 : ShowsTerminated v1 h)
    (h2 : ShowsTerminated v2 x) (hx : x ≠ [])
    (hg : ∀ a ∈ h, ∀ b ∈ x, a ^^^ 32#8 = b → IsLetter a) :
    (∀ i n, 0#8 ∉ x → i + n ≤ h.length → h.length + x.length + 2 < 9223372036854775808 →
      ∃ st p, strLPosIEx v1 v2 i n = .ret (st, some p) ∧
        ((st = stTrue ∧ 0 ≤ p ∧ Leftmost SameLetter h x i (i + n) p.toNat) ∨
         (st = stFalse ∧ p = -1 ∧ Absent SameLetter h x i (i + n)))) ∧
    (∀ i n, i ≤ h.length → n ≤ i →
      ∃ st p, strRPosIEx v1 v2 i n = .ret (st, some p) ∧
        ((st = stTrue ∧ 0 ≤ p ∧ Rightmost SameLetter h x (i - n) i p.toNat) ∨
         (st = stFalse ∧ p = -1 ∧ Absent SameLetter h x (i - n) i))) := by
  have hr : ∀ a ∈ h, ∀ b ∈ x, (rel eqFold a b ↔ SameLetter a b) :=
    fun a ha b hb => rel_fold_iff (hg a ha b hb)
  constructor
  · intro i n hx0 hin hb
    obtain ⟨r1, rfl⟩ := h1.eq
    obtain ⟨r2, rfl⟩ := h2.eq
    obtain ⟨st, p, e, hc⟩ := lpos_ok eqFold (rest := r1) (rest' := r2) hx
      (fun c hc h0 => hx0 (h0 ▸ hc)) hin hb
    refine ⟨st, p, e, ?_⟩
    rcases hc with ⟨h1, h2, h3⟩ | ⟨h1, h2, h3⟩
    · exact Or.inl ⟨h1, h2, Leftmost.congr hr h3⟩
    · exact Or.inr ⟨h1, h2, Absent.congr hr h3⟩
  · intro i n hi hn
    obtain ⟨r1, rfl⟩ := h1.shows.eq
    obtain ⟨r2, rfl⟩ := h2.shows.eq
    obtain ⟨st, p, e, hc⟩ := rpos_ok eqFold (rest := r1) (rest' := r2) hx hi hn
    refine ⟨st, p, e, ?_⟩
    rcases hc with ⟨h1, h2, h3⟩ | ⟨h1, h2, h3⟩
    · exact Or.inl ⟨h1, h2, Rightmost.congr hr h3⟩
    · exact Or.inr ⟨h1, h2, Absent.congr hr h3⟩

/-- C23 is false for non-letters: searching "`" in "@" finds it, although "`" does not occur there up to
letter case. -/
theorem C23_negation : ∃ h x : List Byte, Absent SameLetter h x 0 h.length ∧
    strLPosI (litView h) (litView x) = .ret (stTrue, some 0) ∧
    strRPosI (litView h) (litView x) = .ret (stTrue, some 0) := by
  refine ⟨[64#8], [96#8], ?_, by decide +kernel, by decide +kernel⟩
  intro q _ hq ho
  have hq0 : q = 0 := by simp at hq; omega
  subst hq0
  exact absurd (ho.2 0 (by decide) (by decide)) (by decide)

example : strLPosI (litView (chars ['x', 'A', 'b', '1'])) (litView (chars ['a', 'B', '1'])) =
    .ret (stTrue, some 1) := by decide +kernel
example : ∀ a ∈ chars ['x', 'A', 'b', '1'], ∀ b ∈ chars ['a', 'B', '1'], a ^^^ 32#8 = b → IsLetter a := by
  decide +kernel

/-! ## C24: comparison and equality -/

/-- C24: comparing two terminated texts is defined, reports `TRUE` and 0 exactly for equal texts, and
`FALSE` with a non-zero result otherwise. -/
theorem C24_compare_equal {v1 v2 : View} {x y : List Byte} (h1 : ShowsTerminated v1 x)
    (h2 : ShowsTerminated v2 y) (hb : x.length + 1 < 18446744073709551616) :
    (x = y → strCompare v1 v2 = .ret (stTrue, 0)) ∧
    (x ≠ y → ∃ r, r ≠ 0 ∧ strCompare v1 v2 = .ret (stFalse, r)) := by
  obtain ⟨r1, rfl⟩ := h1.eq
  obtain ⟨r2, rfl⟩ := h2.eq
  unfold strCompare
  rcases Nat.lt_trichotomy x.length y.length with hl | hl | hl
  · refine ⟨fun h => absurd hl (by rw [h]; omega), fun _ => ⟨-1, by decide, compare_shorter _ hl⟩⟩
  · rcases compare_same eqExact (by simp [eqExact]) (rest := r1) (rest' := r2) hl hb with ⟨e, hall⟩ |
      ⟨k, hk, hk', hne, hbefore, e⟩
    · refine ⟨fun _ => e, fun hxy => absurd ?_ hxy⟩
      apply List.ext_getElem hl
      intro j hj hj'
      simpa [eqExact] using hall j hj hj'
    · refine ⟨fun hxy => ?_, fun _ => ⟨_, ?_, e⟩⟩
      · subst hxy; simp [eqExact] at hne
      · split <;> decide
  · refine ⟨fun h => absurd hl (by rw [h]; omega), fun _ => ⟨1, by decide, compare_longer _ hl⟩⟩

example : strCompare (litView (chars ['a', 'b'])) (litView (chars ['a', 'b'])) = .ret (stTrue, 0) :=
  (C24_compare_equal (litView_shows _) (litView_shows _) (by decide)).1 rfl
example : ∃ r, r ≠ 0 ∧ strCompare (litView (chars ['a', 'b'])) (litView (chars ['a', 'c'])) =
    .ret (stFalse, r) :=
  (C24_compare_equal (litView_shows _) (litView_shows _) (by decide)).2 (by decide)

/-! ## C25: comparison as an order -/

/-- C25: what holds of the order. A shorter text is smaller than a longer one. Among texts of the same
length the first differing characters decide, compared as signed characters after setting bit 5; when they
still differ then, exchanging the arguments flips the sign.
Missing for the full claim: first differing characters that differ in bit 5 only; and it is not the
lexicographic order, because of the length and of bit 5; see `C25_negation`. -/
theorem C25_compare_order_partial {v1 v2 : View} {x y : List Byte} (h1 : ShowsTerminated v1 x)
    (h2 : ShowsTerminated v2 y) (hb : x.length + 1 < 18446744073709551616) :
    (x.length < y.length → strCompare v1 v2 = .ret (stFalse, -1) ∧ strCompare v2 v1 = .ret (stFalse, 1)) ∧
    (∀ p a b u v, x = p ++ a :: u → y = p ++ b :: v → u.length = v.length →
      (a ||| 32#8).toInt < (b ||| 32#8).toInt →
      strCompare v1 v2 = .ret (stFalse, -1) ∧ strCompare v2 v1 = .ret (stFalse, 1)) := by
  obtain ⟨r1, rfl⟩ := h1.eq
  obtain ⟨r2, rfl⟩ := h2.eq
  unfold strCompare
  refine ⟨fun hl => ⟨compare_shorter _ hl, compare_longer _ hl⟩, ?_⟩
  intro p a b u v hx hy huv hlt
  have hne : a ≠ b := by intro h; rw [h] at hlt; omega
  have hl : x.length = y.length := by rw [hx, hy]; simp [huv]
  have hxy : x ≠ y := by
    intro h
    rw [hx, hy] at h
    have := List.append_cancel_left h
    injection this with h1 _
    exact hne h1
  have hrefl : ∀ c, eqExact c c = true := by simp [eqExact]
  constructor
  · rcases compare_same eqExact hrefl (rest := r1) (rest' := r2) hl hb with ⟨e, hall⟩ |
      ⟨k, hk, hk', hd, hbefore, e⟩
    · refine absurd (List.ext_getElem hl fun j hj hj' => ?_) hxy
      simpa [eqExact] using hall j hj hj'
    · obtain ⟨p', a', b', u', v', hx', hy', hne', ha', hb'⟩ := first_diff hl hd hbefore
      obtain ⟨e1, e2⟩ := split_unique (hx.symm.trans hx') (hy.symm.trans hy') hne hne'
      rw [← ha', ← hb', ← e1, ← e2, if_pos hlt] at e
      exact e
  · rcases compare_same eqExact hrefl (rest := r2) (rest' := r1) hl.symm (by omega) with ⟨e, hall⟩ |
      ⟨k, hk, hk', hd, hbefore, e⟩
    · refine absurd (List.ext_getElem hl fun j hj hj' => ?_) hxy
      have := hall j hj' hj
      simp [eqExact] at this
      exact this.symm
    · obtain ⟨p', a', b', u', v', hx', hy', hne', ha', hb'⟩ := first_diff hl.symm hd hbefore
      obtain ⟨e1, e2⟩ := split_unique (hy.symm.trans hx') (hx.symm.trans hy') hne.symm hne'
      rw [← ha', ← hb', ← e1, ← e2, if_neg (by omega)] at e
      exact e

/-- C25 is false: comparing "A" with "a" gives 1 in both directions, and "b" is reported as smaller than
"ab" although its first character is higher. -/
theorem C25_negation :
    strCompare (litView (chars ['A'])) (litView (chars ['a'])) = .ret (stFalse, 1) ∧
    strCompare (litView (chars ['a'])) (litView (chars ['A'])) = .ret (stFalse, 1) ∧
    strCompare (litView (chars ['b'])) (litView (chars ['a', 'b'])) = .ret (stFalse, -1) := by
  decide +kernel

example : strCompare (litView (chars ['a', 'b', 'c'])) (litView (chars ['a', 'c', 'a'])) =
    .ret (stFalse, -1) ∧ strCompare (litView (chars ['a', 'c', 'a'])) (litView (chars ['a', 'b', 'c'])) =
    .ret (stFalse, 1) :=
  (C25_compare_order_partial (litView_shows _) (litView_shows _) (by decide)).2 (chars ['a']) 98#8 99#8
    (chars ['c']) (chars ['a']) rfl rfl rfl (by decide)

/-! ## C26: case-insensitive comparison -/

/-- C26: when characters at the same position differ in bit 5 alone only if they are letters, the
case-insensitive comparison reports equality exactly when the lower-cased texts are equal.
Missing for the full claim: texts with such non-letters; see `C26_negation`. -/
theorem C26_compare_ignoring_case_partial {v1 v2 : View} {x y : List Byte} (h1 : ShowsTerminated v1 x)
    (h2 : ShowsTerminated v2 y) (hb : x.length + 1 < 18446744073709551616)
    (hg : ∀ j (hj : j < x.length) (hj' : j < y.length), x[j] ^^^ 32#8 = y[j] → IsLetter x[j]) :
    (x.map lowerChar = y.map lowerChar → strCompareI v1 v2 = .ret (stTrue, 0)) ∧
    (x.map lowerChar ≠ y.map lowerChar → ∃ r, r ≠ 0 ∧ strCompareI v1 v2 = .ret (stFalse, r)) := by
  obtain ⟨r1, rfl⟩ := h1.eq
  obtain ⟨r2, rfl⟩ := h2.eq
  have hlen : x.map lowerChar = y.map lowerChar → x.length = y.length := by
    intro h; simpa using congrArg List.length h
  unfold strCompareI
  rcases Nat.lt_trichotomy x.length y.length with hl | hl | hl
  · exact ⟨fun h => absurd (hlen h) (by omega), fun _ => ⟨-1, by decide, compare_shorter _ hl⟩⟩
  · rcases compare_same eqFold (by simp [eqFold]) (rest := r1) (rest' := r2) hl hb with ⟨e, hall⟩ |
      ⟨k, hk, hk', hne, hbefore, e⟩
    · refine ⟨fun _ => e, fun hxy => absurd ?_ hxy⟩
      apply List.ext_getElem (by simpa using hl)
      intro j hj hj'
      simp only [List.length_map] at hj hj'
      simp only [List.getElem_map]
      exact (rel_fold_iff (hg j hj hj')).1 (hall j hj hj')
    · refine ⟨fun hxy => ?_, fun _ => ⟨_, ?_, e⟩⟩
      · exfalso
        have hs : SameLetter x[k] y[k] := by
          have : (x.map lowerChar)[k]? = (y.map lowerChar)[k]? := by rw [hxy]
          simp only [List.getElem?_map, List.getElem?_eq_getElem hk, List.getElem?_eq_getElem hk',
            Option.map_some, Option.some.injEq] at this
          exact this
        have := (rel_fold_iff (hg k hk hk')).2 hs
        unfold rel at this
        rw [this] at hne
        exact absurd hne (by decide)
      · split <;> decide
  · exact ⟨fun h => absurd (hlen h) (by omega), fun _ => ⟨1, by decide, compare_longer _ hl⟩⟩

/-- C26 is false for non-letters: "@" and "`" are reported as equal. -/
theorem C26_negation : ([64#8] : List Byte).map lowerChar ≠ [96#8].map lowerChar ∧
    strCompareI (litView [64#8]) (litView [96#8]) = .ret (stTrue, 0) := by decide +kernel

example : strCompareI (litView (chars ['a', '1', 'B'])) (litView (chars ['A', '1', 'b'])) =
    .ret (stTrue, 0) := by decide +kernel
example : ∀ j (_ : j < (chars ['a', '1', 'B']).length) (_ : j < (chars ['A', '1', 'b']).length),
    (chars ['a', '1', 'B'])[j] ^^^ 32#8 = (chars ['A', '1', 'b'])[j] → IsLetter (chars ['a', '1', 'B'])[j] := by
  decide +kernel

/-! ## C27: case conversion -/

/-- C27: converting a range to lower case changes exactly the letters of the range, keeps length and
terminator, and converting again changes nothing. -/
theorem C27_lower_case {P : Params} {t : Str} (h : SReach P t) {i n : Nat}
    (hin : i + n ≤ (textOf t).length) (hd : Determinate (textOf t) i n) :
    ∃ t', strToLowerEx t i n = .ret (stSuccess, t') ∧ strGetSize t' = (textOf t).length ∧ Terminated t' ∧
      (∀ k, (textOf t')[k]? = if i ≤ k ∧ k < i + n then ((textOf t)[k]?).map (Option.map lowerChar)
        else (textOf t)[k]?) ∧
      ∃ t'', strToLowerEx t' i n = .ret (stSuccess, t'') ∧ textOf t'' = textOf t' := by
  obtain ⟨b, sl, R⟩ := h.rep
  have hf : lowerByte = lowerChar := funext lowerByte_eq
  have key := case_full R lowerChar lowerChar_idem (i := i) (n := n) (by rw [sabsOf_text]; exact hin)
    (by rw [sabsOf_text]; exact hd)
  rw [sabsOf_text] at key
  unfold strToLowerEx
  rw [hf]
  exact key

/-- C27 for upper case. -/
theorem C27_upper_case {P : Params} {t : Str} (h : SReach P t) {i n : Nat}
    (hin : i + n ≤ (textOf t).length) (hd : Determinate (textOf t) i n) :
    ∃ t', strToUpperEx t i n = .ret (stSuccess, t') ∧ strGetSize t' = (textOf t).length ∧ Terminated t' ∧
      (∀ k, (textOf t')[k]? = if i ≤ k ∧ k < i + n then ((textOf t)[k]?).map (Option.map upperChar)
        else (textOf t)[k]?) ∧
      ∃ t'', strToUpperEx t' i n = .ret (stSuccess, t'') ∧ textOf t'' = textOf t' := by
  obtain ⟨b, sl, R⟩ := h.rep
  have hf : upperByte = upperChar := funext upperByte_eq
  have key := case_full R upperChar upperChar_idem (i := i) (n := n) (by rw [sabsOf_text]; exact hin)
    (by rw [sabsOf_text]; exact hd)
  rw [sabsOf_text] at key
  unfold strToUpperEx
  rw [hf]
  exact key

/-- C27: a range of machine words that is not inside of the text changes nothing. -/
theorem C27_outside_unchanged {P : Params} {t : Str} (h : SReach P t) {i n : Nat}
    (hi : i < 18446744073709551616) (hn : n < 18446744073709551616)
    (hout : (textOf t).length < i + n) :
    (∃ st, strToLowerEx t i n = .ret (st, t)) ∧ ∃ st, strToUpperEx t i n = .ret (st, t) := by
  obtain ⟨b, sl, R⟩ := h.rep
  rw [← sabsOf_text] at hout
  exact ⟨case_outside R _ hi hn hout, case_outside R _ hi hn hout⟩

/-- C27 for the whole string: every letter of the text is converted, nothing else changes, and the string
keeps its length and its terminator. -/
theorem C27_whole {P : Params} {t : Str} (h : SReach P t)
    (hd : Determinate (textOf t) 0 (textOf t).length) :
    (∃ t', strToLower t = .ret (stSuccess, t') ∧ textOf t' = (textOf t).map (Option.map lowerChar) ∧
      strGetSize t' = (textOf t).length ∧ Terminated t') ∧
    ∃ t', strToUpper t = .ret (stSuccess, t') ∧ textOf t' = (textOf t).map (Option.map upperChar) ∧
      strGetSize t' = (textOf t).length ∧ Terminated t' := by
  have hn : sub64 t.s.v.size 1 = (textOf t).length := by
    obtain ⟨b, sl, R⟩ := h.rep
    exact (R.terminated.1).symm
  have hext : ∀ (f : Byte → Byte) (t' : Str), (∀ k, (textOf t')[k]? =
      if 0 ≤ k ∧ k < 0 + (textOf t).length then ((textOf t)[k]?).map (Option.map f) else (textOf t)[k]?) →
      textOf t' = (textOf t).map (Option.map f) := by
    intro f t' hk
    apply List.ext_getElem?
    intro k
    rw [hk k, List.getElem?_map]
    split
    · rfl
    · rw [List.getElem?_eq_none (by omega)]; rfl
  obtain ⟨a, a1, a2, a3, a4, _⟩ := C27_lower_case h (i := 0) (by omega) hd
  obtain ⟨b, b1, b2, b3, b4, _⟩ := C27_upper_case h (i := 0) (by omega) hd
  refine ⟨⟨a, ?_, hext _ _ a4, a2, a3⟩, b, ?_, hext _ _ b4, b2, b3⟩
  · unfold strToLower; rw [hn]; exact a1
  · unfold strToUpper; rw [hn]; exact b1

example : Determinate (textOf exStr) 0 (textOf exStr).length := by
  unfold Determinate; decide +kernel
example : (strToLower exStr).bind (fun r => .ret (textOf r.2)) =
    .ret ((chars ['a', 'b', '@', 'c']).map some) := by decide +kernel
example : 1 + 3 ≤ (textOf exStr).length ∧ Determinate (textOf exStr) 1 3 := by
  unfold Determinate; decide +kernel
example : (strToLowerEx exStr 1 3).bind (fun r => .ret (textOf r.2)) =
    .ret ((chars ['a', 'b', '@', 'c']).map some) := by decide +kernel
example : (strToUpperEx exStr 1 3).bind (fun r => .ret (textOf r.2)) =
    .ret ((chars ['a', 'B', '@', 'C']).map some) := by decide +kernel

/-! ## C28: views -/

/-- C28, what holds of `ZyanStringViewInsideViewEx`: a range inside of the text is accepted and the memory
of the new view starts with the requested characters.
Missing for the full claim: the size, which is one too small; see `C28_negation`. -/
theorem C28_view_of_range_partial {v : View} {x : List Byte} (h : Shows v x) {i n : Nat}
    (hin : i + n ≤ x.length) (hb : x.length < 18446744073709551616) :
    ∃ v', viewInsideViewEx v i n = (stSuccess, some v') ∧
      ((x.drop i).take n).map some <+: v'.mem := by
  obtain ⟨r, rfl⟩ := h.eq
  refine ⟨⟨(openView x r).mem.drop i, n⟩, ?_, ?_⟩
  · unfold viewInsideViewEx
    rw [add64_eq (by omega), if_neg (by simp only [openView]; omega)]
  · simp only [openView]
    rw [List.drop_append_of_le_length (by simp; omega)]
    refine List.IsPrefix.trans ?_ (List.prefix_append _ _)
    rw [List.map_take, List.map_drop]
    exact List.take_prefix _ _

/-- C28 is false for `ZyanStringViewInsideViewEx`, for every source and every range: the view reports a
size that is not the requested one. -/
theorem C28_negation {v v' : View} {x : List Byte} {st : Status} (h : Shows v x) {i n : Nat}
    (hin : i + n ≤ x.length) (hb : x.length < 18446744073709551616)
    (he : viewInsideViewEx v i n = (st, some v')) : viewGetSize v' ≠ n := by
  have hs : v'.size = n := by
    unfold viewInsideViewEx at he
    rw [add64_eq (by omega), h.1, if_neg (by omega)] at he
    simp only [Prod.mk.injEq, Option.some.injEq] at he
    rw [← he.2]
  unfold viewGetSize sub64
  rw [hs]
  omega

/-- C28: a range that is not inside of the text is refused. -/
theorem C28_range_refused {v : View} {x : List Byte} (h : Shows v x) {i n : Nat}
    (hout : x.length < i + n) (hw : i + n < 18446744073709551616) :
    viewInsideViewEx v i n = (stOutOfRange, none) := by
  unfold viewInsideViewEx
  rw [add64_eq hw, h.1, if_pos (by omega)]

/-- C28: a view of a whole view and of a C string have the right characters and the right size. -/
theorem C28_whole_views {x : List Byte} (hb : x.length + 1 < 18446744073709551616) :
    (∀ v, Shows v x → ∃ v', viewInsideView v = (stSuccess, v') ∧ Shows v' x ∧ viewGetSize v' = x.length) ∧
    (0#8 ∉ x → ∀ rest, ∃ v', viewInsideBuffer (x.map some ++ some 0#8 :: rest) = .ret (stSuccess, v') ∧
      ShowsTerminated v' x ∧ viewGetSize v' = x.length) ∧
    (x ≠ [] → ∀ rest, ∃ v', viewInsideBufferEx (x.map some ++ rest) x.length = (stSuccess, some v') ∧
      Shows v' x ∧ viewGetSize v' = x.length) := by
  have hsub : sub64 (x.length + 1) 1 = x.length := by
    rw [sub64_eq (by omega) (by omega)]; omega
  refine ⟨?_, ?_, ?_⟩
  · intro v h
    refine ⟨v, rfl, h, ?_⟩
    unfold viewGetSize
    rw [h.1, hsub]
  · intro h0 rest
    refine ⟨⟨x.map some ++ some 0#8 :: rest, x.length + 1⟩, ?_, ⟨rfl, rest, by simp⟩, ?_⟩
    · unfold viewInsideBuffer
      rw [cStrlen_ok (fun c hc he => h0 (he ▸ hc)), Out.ret_bind', add64_eq hb]
    · unfold viewGetSize
      exact hsub
  · intro hx rest
    refine ⟨⟨x.map some ++ rest, x.length + 1⟩, ?_, ⟨rfl, rest, rfl⟩, ?_⟩
    · unfold viewInsideBufferEx
      rw [if_neg (by simpa using hx), add64_eq hb]
    · unfold viewGetSize
      exact hsub

example : viewInsideViewEx (litView (chars ['a', 'b', 'c', 'd'])) 1 2 =
    (stSuccess, some ⟨(chars ['b', 'c', 'd']).map some ++ [some 0#8], 2⟩) := by decide +kernel
example : (viewInsideViewEx (litView (chars ['a', 'b', 'c', 'd'])) 1 2).2.map viewGetSize = some 1 := by
  decide +kernel
example : viewInsideBuffer ((chars ['h', 'i']).map some ++ [some 0#8, some 7#8]) =
    .ret (stSuccess, ⟨(chars ['h', 'i']).map some ++ [some 0#8, some 7#8], 3⟩) := by decide +kernel

/-! ## C29: duplication and concatenation -/

/-- C29: duplicating any view gives a terminated string in a new block with the view's characters and at
least the requested capacity. -/
theorem C29_duplicate {P : Params} {w : World Byte} {cap a : Nat} (hw : Fresh w) (hr : Reliable w)
    (hP : P.allocator = some a ∧ P.growth ≤ 255 ∧ P.thr ≤ 255 ∧ P.esz = 1 ∧ P.dtor = false)
    (hg : 1 ≤ P.growth) (hc : max 32 cap + 1 < 18446744073709551616) {v : View} {x : List Byte}
    (h : Shows v x) (hf : SFits (x.length + 1)) :
    ∃ t b, strDuplicateEx w v cap (some a) P.growth P.thr = .ret (stSuccess, some t, t.s.w) ∧
      textOf t = x.map some ∧ Terminated t ∧ t.s.v.cap = max 32 (max cap x.length) + 1 ∧
      t.s.v.data = some b ∧ b.id = w.nextBlk := by
  obtain ⟨r, rfl⟩ := h.eq
  have hl : (x.map (some : Byte → Cell Byte)).length = x.length := by simp
  obtain ⟨t, b, sl, e, R, hb⟩ := strDuplicateEx_ok (x := x.map some) (rest := r) hw hr hP hg hc
    (by rw [hl]; exact hf)
  rw [hl] at e
  refine ⟨t, b, e, R.textOf, R.terminated, ?_, R.rep.data, hb⟩
  rw [R.rep.cap, hl]

/-- C29: concatenating any two views gives a terminated string with the concatenated characters. -/
theorem C29_concat {P : Params} {w : World Byte} {cap a : Nat} (hw : Fresh w) (hr : Reliable w)
    (hP : P.allocator = some a ∧ P.growth ≤ 255 ∧ P.thr ≤ 255 ∧ P.esz = 1 ∧ P.dtor = false)
    (hg : 1 ≤ P.growth) (hc : max 32 cap + 1 < 18446744073709551616) {v1 v2 : View} {x y : List Byte}
    (h1 : Shows v1 x) (h2 : Shows v2 y) (hf : SFits (x.length + y.length + 1)) :
    ∃ t b, strConcatEx w v1 v2 cap (some a) P.growth P.thr = .ret (stSuccess, some t, t.s.w) ∧
      textOf t = (x ++ y).map some ∧ Terminated t ∧
      t.s.v.cap = max 32 (max cap (x.length + y.length)) + 1 ∧ t.s.v.data = some b ∧
      b.id = w.nextBlk := by
  obtain ⟨r, rfl⟩ := h1.eq
  obtain ⟨r', rfl⟩ := h2.eq
  have hl : (x.map (some : Byte → Cell Byte)).length = x.length := by simp
  have hl' : (y.map (some : Byte → Cell Byte)).length = y.length := by simp
  obtain ⟨t, b, sl, e, R, hb⟩ := strConcatEx_ok (x := x.map some) (y := y.map some) (rest := r)
    (rest' := r') hw hr hP hg hc (by rw [hl, hl']; exact hf)
  rw [hl, hl'] at e
  refine ⟨t, b, e, ?_, R.terminated, ?_, R.rep.data, hb⟩
  · rw [R.textOf, List.map_append]
  · rw [R.rep.cap, hl, hl']

/-- C29: duplicating into a caller buffer succeeds exactly when the text and its terminator fit; otherwise
it is refused before the buffer is touched (no string on the buffer comes into being). -/
theorem C29_duplicate_buffer {P : Params} {w : World Byte} {cap : Nat} {b : Block Byte} (hw : Fresh w)
    (hr : Reliable w)
    (hP : P.allocator = none ∧ P.growth = 1 ∧ P.thr = 0 ∧ P.esz = 1 ∧ P.dtor = false)
    (hb : cap ≤ b.cells.length) {v : View} {x : List Byte} (h : Shows v x) (hf : SFits (x.length + 1)) :
    (x.length + 1 ≤ cap → ∃ t b', strDuplicateBuffer w v (some b) cap = .ret (stSuccess, some t) ∧
      textOf t = x.map some ∧ Terminated t ∧ t.s.v.cap = cap ∧ t.s.v.data = some b' ∧ b'.id = b.id) ∧
    (cap < x.length + 1 → strDuplicateBuffer w v (some b) cap = .ret (stInsufficient, none)) := by
  obtain ⟨r, rfl⟩ := h.eq
  have hl : (x.map (some : Byte → Cell Byte)).length = x.length := by simp
  constructor
  · intro hc
    obtain ⟨t, b', sl, e, R, hb', _⟩ := strDuplicateBuffer_ok (x := x.map some) (rest := r) hw hr hP hb
      (by rw [hl]; exact hf) (by rw [hl]; exact hc)
    rw [hl] at e
    exact ⟨t, b', e, R.textOf, R.terminated, R.rep.cap, R.rep.data, hb'⟩
  · intro hc
    unfold strDuplicateBuffer
    rw [if_neg (by simp [openView]), if_pos (by simpa [openView] using hc)]

/-- C29: the same for concatenation into a caller buffer. -/
theorem C29_concat_buffer {P : Params} {w : World Byte} {cap : Nat} {b : Block Byte} (hw : Fresh w)
    (hr : Reliable w)
    (hP : P.allocator = none ∧ P.growth = 1 ∧ P.thr = 0 ∧ P.esz = 1 ∧ P.dtor = false)
    (hb : cap ≤ b.cells.length) {v1 v2 : View} {x y : List Byte} (h1 : Shows v1 x) (h2 : Shows v2 y)
    (hf : SFits (x.length + y.length + 1)) :
    (x.length + y.length + 1 ≤ cap →
      ∃ t b', strConcatBuffer w v1 v2 (some b) cap = .ret (stSuccess, some t) ∧
        textOf t = (x ++ y).map some ∧ Terminated t ∧ t.s.v.cap = cap ∧ t.s.v.data = some b' ∧
        b'.id = b.id) ∧
    (cap < x.length + y.length + 1 →
      strConcatBuffer w v1 v2 (some b) cap = .ret (stInsufficient, none)) := by
  obtain ⟨r, rfl⟩ := h1.eq
  obtain ⟨r', rfl⟩ := h2.eq
  have hl : (x.map (some : Byte → Cell Byte)).length = x.length := by simp
  have hl' : (y.map (some : Byte → Cell Byte)).length = y.length := by simp
  constructor
  · intro hc
    obtain ⟨t, b', sl, e, R, hb', _⟩ := strConcatBuffer_ok (x := x.map some) (y := y.map some)
      (rest := r) (rest' := r') hw hr hP hb (by rw [hl, hl']; exact hf) (by rw [hl, hl']; exact hc)
    rw [hl, hl'] at e
    refine ⟨t, b', e, ?_, R.terminated, R.rep.cap, R.rep.data, hb'⟩
    rw [R.textOf, List.map_append]
  · intro hc
    have hf' := hf
    unfold SFits at hf'
    have hsz : sub64 (add64 (openView x r).size (openView y r').size) 1 = x.length + y.length + 1 := by
      simp only [openView]
      rw [add64_eq (by omega), sub64_eq (by omega) (by omega)]; omega
    unfold strConcatBuffer
    rw [if_neg (by simp [openView]), hsz, if_pos hc]

example : ∃ t b, strConcatEx exSW (litView (chars ['a', 'b'])) (litView (chars ['c'])) 0 (some 0) 2 4 =
    .ret (stSuccess, some t, t.s.w) ∧ textOf t = (chars ['a', 'b'] ++ chars ['c']).map some ∧
    Terminated t ∧ t.s.v.cap = max 32 (max 0 ((chars ['a', 'b']).length + (chars ['c']).length)) + 1 ∧
    t.s.v.data = some b ∧ b.id = exSW.nextBlk :=
  C29_concat (P := exSP) ⟨rfl, rfl⟩ (fun _ => failed_success) ⟨rfl, by decide, by decide, rfl, rfl⟩
    (by decide) (by decide) (litView_shows _).shows (litView_shows _).shows (by show _ < _; decide)
example : strDuplicateBuffer exSW (litView (chars ['a', 'b'])) (some ⟨9, [none, none]⟩) 2 =
    .ret (stInsufficient, none) :=
  (C29_duplicate_buffer (P := exFSP) ⟨rfl, rfl⟩ (fun _ => failed_success) ⟨rfl, rfl, rfl, rfl, rfl⟩
    (by decide) (litView_shows _).shows (by show _ < _; decide)).2 (by decide)

/-! ## C30: truncation -/

/-- C30: truncating at a position inside of the text leaves exactly the characters in front of it,
terminated; a position behind the length is refused.
Missing for the full claim: the length itself; see `C30_negation`. -/
theorem C30_truncate_partial {P : Params} {t : Str} (h : SReach P t) (i : Nat) :
    (i < (textOf t).length → ∃ t', strTruncate t i = .ret (stSuccess, t') ∧
      textOf t' = (textOf t).take i ∧ Terminated t') ∧
    ((textOf t).length < i → ∃ t', strTruncate t i = .ret (stOutOfRange, t') ∧ textOf t' = textOf t) := by
  obtain ⟨b, sl, R⟩ := h.rep
  have key := truncate_abs R i
  rw [sabsOf_text] at key
  exact key

/-- C30 is false at the length itself: truncating "aB@c" at 4 is answered with `INVALID_ARGUMENT`. -/
theorem C30_negation : ∃ (P : Params) (t t' : Str), SReach P t ∧ (textOf t).length = 4 ∧
    strTruncate t 4 = .ret (stInvalidArgument, t') :=
  ⟨exSP, exStr, exStr, exStr_reach, by decide +kernel, by cbv⟩

example : ∃ t', strTruncate exStr 2 = .ret (stSuccess, t') ∧ textOf t' = (textOf exStr).take 2 ∧
    Terminated t' := (C30_truncate_partial exStr_reach 2).1 (by decide +kernel)

/-! ## C31: reads stay inside of the view -/

/-- C31, what holds: appending, inserting and searching from the right never read behind the characters of
the given views, and their results depend on those characters only (two views with the same
characters, terminated or not, give the same result); so does comparing different texts.
Missing for the full claim: the left searches and the comparison of equal texts; see `C31_negation`. -/
theorem C31_reads_inside_partial {P : Params} {t : Str} (h : SReach P t) {v v' : View} {x : List Byte}
    (hv : Shows v x) (hv' : Shows v' x) (hf : SFits ((textOf t).length + x.length + 1)) :
    (∃ st t1 t2, strAppend t v = .ret (st, t1) ∧ strAppend t v' = .ret (st, t2) ∧ sabsOf t1 = sabsOf t2) ∧
    (∀ j n, j + n < 18446744073709551616 → ∃ st t1 t2, strAppendEx t v j n = .ret (st, t1) ∧
      strAppendEx t v' j n = .ret (st, t2) ∧ sabsOf t1 = sabsOf t2) ∧
    (∀ i, ∃ st t1 t2, strInsert t i v = .ret (st, t1) ∧ strInsert t i v' = .ret (st, t2) ∧
      sabsOf t1 = sabsOf t2) ∧
    (∀ i j n, j + n < 18446744073709551616 → ∃ st t1 t2, strInsertEx t i v j n = .ret (st, t1) ∧
      strInsertEx t i v' j n = .ret (st, t2) ∧ sabsOf t1 = sabsOf t2) := by
  obtain ⟨b, sl, R⟩ := h.rep
  obtain ⟨r, rfl⟩ := hv.eq
  obtain ⟨r', rfl⟩ := hv'.eq
  have hl : (x.map (some : Byte → Cell Byte)).length = x.length := by simp
  have e : ∀ r, openView x r = ⟨x.map some ++ r, (x.map (some : Byte → Cell Byte)).length + 1⟩ := by
    intro r; rw [hl]; rfl
  have hf2 : SFits ((sabsOf t).text.length + (x.map (some : Byte → Cell Byte)).length + 1) := by
    rw [sabsOf_text, hl]; exact hf
  rw [e r, e r']
  refine ⟨?_, fun j n hw => ?_, fun i => ?_, fun i j n hw => ?_⟩
  · exact ⟨_, (append_res R _ r hf2).agree (append_res R _ r' hf2)⟩
  · exact ⟨_, (appendEx_any R _ r j n hf2 hw).agree (appendEx_any R _ r' j n hf2 hw)⟩
  · exact ⟨_, (insert_any R i _ r hf2).agree (insert_any R i _ r' hf2)⟩
  · exact ⟨_, (insertEx_any R i _ r j n hf2 hw).agree (insertEx_any R i _ r' j n hf2 hw)⟩

/-- C31: the right searches (exact and case-insensitive) and the comparison of different texts depend on
the characters of the views only. -/
theorem C31_search_inside_partial {v1 v1' v2 v2' : View} {h x : List Byte} (h1 : Shows v1 h)
    (h1' : Shows v1' h) (h2 : Shows v2 x) (h2' : Shows v2' x) :
    (∀ i n, strRPosEx v1 v2 i n = strRPosEx v1' v2' i n) ∧
    (∀ i n, strRPosIEx v1 v2 i n = strRPosIEx v1' v2' i n) ∧
    (h ≠ x → h.length + 1 < 18446744073709551616 → strCompare v1 v2 = strCompare v1' v2') :=
  ⟨fun i n => rpos_agree _ h1 h1' h2 h2' i n, fun i n => rpos_agree _ h1 h1' h2 h2' i n,
    fun hne hb => compare_agree h1 h1' h2 h2' hne hb⟩

/-- C31 is false for the left search and for comparing equal texts: the needle "ab" viewed inside of the
buffer "abX" is not found in "abc", and comparing "ab" with itself reads behind a two-byte buffer. -/
theorem C31_negation : ∃ v v' : View, Shows v (chars ['a', 'b']) ∧ Shows v' (chars ['a', 'b']) ∧
    strLPos (litView (chars ['a', 'b', 'c'])) v = .ret (stFalse, some (-1)) ∧
    strLPos (litView (chars ['a', 'b', 'c'])) (litView (chars ['a', 'b'])) = .ret (stTrue, some 0) ∧
    strCompare v' v' = .ub .oob :=
  ⟨⟨(chars ['a', 'b', 'X']).map some, 3⟩, ⟨(chars ['a', 'b']).map some, 3⟩, ⟨rfl, by decide⟩,
    ⟨rfl, by decide⟩, by decide +kernel, by decide +kernel, by decide +kernel⟩

example : ∃ st t1 t2, strAppend exStr ⟨[some 1#8, none], 2⟩ = .ret (st, t1) ∧
    strAppend exStr ⟨[some 1#8], 2⟩ = .ret (st, t2) ∧ sabsOf t1 = sabsOf t2 :=
  (C31_reads_inside_partial exStr_reach (x := [1#8]) ⟨rfl, by decide⟩ ⟨rfl, by decide⟩
    (by show _ < _; decide +kernel)).1
example : strRPosEx (litView (chars ['a', 'b', 'c'])) ⟨(chars ['a', 'b', 'X']).map some, 3⟩ 3 3 =
    .ret (stTrue, some 0) := by decide +kernel

/-! ## C76: a string appended to itself -/

/-- C76: appending a view object that shows a string to the string itself doubles the text when the storage can hold the
result and the result is not so small that memory is released.
Missing for the full claim: appends that reallocate; see `C76_negation`. The string itself, passed as the view, is the
subject of `C76_same_negation`. -/
theorem C76_append_self_partial {P : Params} {t : Str} (h : SReach P t) {b : Block Byte}
    (hb : t.s.v.data = some b) (hfit : (textOf t).length + (textOf t).length + 1 ≤ t.s.v.cap)
    (hkeep : P.thr = 0 ∨ t.s.v.cap ≤ ((textOf t).length + (textOf t).length + 1) * P.thr)
    (hsmall : SFits ((textOf t).length + (textOf t).length + 1)) :
    ∃ t', strAppendSrc t (.self b.id 0) t.s.v.size = .ret (stSuccess, t') ∧
      textOf t' = textOf t ++ textOf t ∧ Terminated t' := by
  obtain ⟨b', sl, R⟩ := h.rep
  have hbb : b' = b := by
    have := R.rep.data
    rw [hb] at this
    injection this with this
    exact this.symm
  subst hbb
  have key := appendSelf_ok R
  rw [sabsOf_text, sabsOf_bytes] at key
  obtain ⟨t', b2, sl2, e, R2⟩ := key hfit hkeep hsmall
  exact ⟨t', e, R2.textOf, R2.terminated⟩

/-- C76 is false when the append reallocates: the view still points to the old storage (use after free).
Witness: "aB@c" after `ZyanStringShrinkToFit`. -/
theorem C76_negation : ∃ (P : Params) (t : Str) (b : Block Byte), SReach P t ∧ t.s.v.data = some b ∧
    strAppendSrc t (.self b.id 0) t.s.v.size = .ub .uaf := by
  have h : strOp exStr .shrinkToFit = .ret (stSuccess, ⟨⟨{ exStr.s.v with
      cap := 5, data := some ⟨1, (chars ['a', 'B', '@', 'c']).map some ++ [some 0#8]⟩ },
      ⟨fun _ => stSuccess, 2, 2, [.alloc 0 0 1 33, .realloc 0 0 1 1 5]⟩⟩, false⟩) := by cbv
  exact ⟨exSP, _, _, SReach.step (op := .shrinkToFit) exStr_reach trivial h, rfl, by cbv⟩

example : ∃ t', strAppendSrc exStr (.self 0 0) exStr.s.v.size = .ret (stSuccess, t') ∧
    textOf t' = textOf exStr ++ textOf exStr ∧ Terminated t' :=
  C76_append_self_partial exStr_reach (b := ⟨0, _⟩) rfl (by decide +kernel) (by decide +kernel)
    (by show _ < _; decide +kernel)

/-! ## C77: reserving capacity -/

/-- C77: after reserving `n` bytes (with `n` above the present storage) a dynamic string keeps its text and
reports a capacity of `n - 1` characters.
Missing for the full claim: the last character; see `C77_negation`. -/
theorem C77_reserve_partial {P : Params} {t : Str} (h : SReach P t) (hdyn : P.allocator.isSome) {n : Nat}
    (hn : n < 18446744073709551616) :
    ∃ t', strReserve t n = .ret (stSuccess, t') ∧ textOf t' = textOf t ∧ Terminated t' ∧
      n ≤ t'.s.v.cap ∧ (t'.s.v.cap < 18446744073709551616 → n ≤ strGetCapacity t' + 1) := by
  obtain ⟨b, sl, R⟩ := h.rep
  have key := reserve_abs R hdyn hn
  rw [sabsOf_text] at key
  exact key

/-- C77 is false: after reserving 40 the string reports a capacity of 39. -/
theorem C77_negation : ∃ (P : Params) (t t' : Str), SReach P t ∧
    strReserve t 40 = .ret (stSuccess, t') ∧ strGetCapacity t' = 39 := by
  have h : ∃ t', strReserve exStr 40 = .ret (stSuccess, t') ∧ strGetCapacity t' = 39 :=
    ⟨⟨⟨{ exStr.s.v with cap := 40, data := some ⟨1, (chars ['a', 'B', '@', 'c']).map some ++ [some 0#8] ++
        List.replicate 35 none⟩ },
      ⟨fun _ => stSuccess, 2, 2, [.alloc 0 0 1 33, .realloc 0 0 1 1 40]⟩⟩, false⟩, by cbv, by decide +kernel⟩
  obtain ⟨t', h1, h2⟩ := h
  exact ⟨exSP, exStr, t', exStr_reach, h1, h2⟩

example : ∃ t', strReserve exStr 100 = .ret (stSuccess, t') ∧ textOf t' = textOf exStr ∧ Terminated t' ∧
    100 ≤ t'.s.v.cap ∧ (t'.s.v.cap < 18446744073709551616 → 100 ≤ strGetCapacity t' + 1) :=
  C77_reserve_partial exStr_reach rfl (by decide)

/-! ## C78: index checks over all machine words -/

/-- C78, what holds: for every 64-bit index, reading, writing and pointing to a character accept exactly the
positions of the text. (Truncation: `C30_truncate_partial`; right search: `C22_out_of_range`; case
conversion: `C27_outside_unchanged`.)
Missing for the full claim: ranges given by index and count that wrap around; see `C78_negation`. -/
theorem C78_index_checks_partial {P : Params} {t : Str} (h : SReach P t) {i : Nat}
    (hi : i < 18446744073709551616) :
    (i < (textOf t).length → strGetChar (strView t) (some t.s.v.esz) i = .ret (stSuccess, (textOf t)[i]?) ∧
      strGetCharMutable t i = (stSuccess, some i) ∧
      ∀ c, ∃ t', strSetChar t i c = .ret (stSuccess, t') ∧ textOf t' = (textOf t).set i (some c)) ∧
    ((textOf t).length ≤ i → strGetChar (strView t) (some t.s.v.esz) i = .ret (stOutOfRange, none) ∧
      strGetCharMutable t i = (stOutOfRange, none) ∧
      ∀ c, strSetChar t i c = .ret (stOutOfRange, t)) := by
  obtain ⟨b, sl, R⟩ := h.rep
  have key := index_abs R hi
  rw [sabsOf_text] at key
  exact key

/-- C78 is false for ranges: `index + count` wraps, so the left search accepts the range of two characters
at position 2^64-1 and reads in front of the text; a view "of" that range is created. -/
theorem C78_negation :
    strLPosEx (litView (chars ['a', 'b', 'c'])) (litView (chars ['a'])) 18446744073709551615 2 = .ub .oob ∧
    (viewInsideViewEx (litView (chars ['a', 'b', 'c'])) 18446744073709551615 2).1 = stSuccess := by
  decide +kernel

example : strGetChar (strView exStr) (some 1) 1 = .ret (stSuccess, (textOf exStr)[1]?) :=
  ((C78_index_checks_partial exStr_reach (by decide)).1 (by decide +kernel)).1
example : strSetChar exStr 18446744073709551615 7#8 = .ret (stOutOfRange, exStr) :=
  ((C78_index_checks_partial exStr_reach (by decide)).2 (by decide +kernel)).2.2 _

/-! ## C84: storage -/

/-- C84 for strings: over every history from creation to destruction, a dynamic string owns exactly one block,
obtained from its allocator, whose size is the capacity, and destruction returns exactly that block; for a
string on a caller buffer the allocator is never called, and destruction leaves string and buffer alone. -/
theorem C84_string_storage {P : Params} {t : Str} (h : SReach P t) (ops : List SOp)
    (hd : SAllInDomain P (sabsOf t) ops) :
    ∃ sts t' t'', runStr t ops = .ret (sts, t') ∧ strDestroy t' = .ret (stSuccess, t'') ∧
      (∀ al, P.allocator = some al → (∃ b, t'.s.v.data = some b ∧ b.cells.length = t'.s.v.cap ∧
        replay t'.s.w.trace = some (some ⟨al, b.id, 1, t'.s.v.cap⟩)) ∧ replay t''.s.w.trace = some none) ∧
      (P.allocator = none → t'' = t' ∧ t'.s.w.calls = 0 ∧ onlyDestroys t'.s.w.trace ∧
        destroyedOf t'.s.w.trace = []) := by
  obtain ⟨b, sl, R⟩ := h.rep
  obtain ⟨sts, t', a', b', sl', hrun, _, R'⟩ := runStr_ok ops R hd
  have hA := R'.rep.alloc
  unfold strDestroy
  cases hal : P.allocator with
  | none =>
    have hfix : t'.fixed = true := by rw [R'.fixed, hal]; rfl
    simp only [AllocOK, hal] at hA
    refine ⟨sts, t', t', hrun, by rw [if_pos hfix], by simp, fun _ => ⟨rfl, hA.1, hA.2, R'.rep.dead⟩⟩
  | some al =>
    have hfix : ¬ t'.fixed = true := by rw [R'.fixed, hal]; simp
    obtain ⟨s'', e, _, _, hrep, _⟩ := destroy_rep R'.rep
    simp only [AllocOK, hal] at hA
    refine ⟨sts, t', { t' with s := s'' }, hrun, ?_, ?_, by simp⟩
    · rw [if_neg hfix, e]; rfl
    · intro al' hal'
      obtain rfl : al = al' := by simpa using hal'
      refine ⟨⟨b', R'.rep.data, ?_, ?_⟩, hrep (by simp [hal])⟩
      · rw [R'.rep.dyn (by simp [hal]), R'.rep.cap]
      · rw [hA.1, R'.one, R'.rep.cap]

example : ∃ sts t' t'', runStr exStr exSOps = .ret (sts, t') ∧ strDestroy t' = .ret (stSuccess, t'') ∧
    replay t''.s.w.trace = some none :=
  let ⟨sts, t', t'', h1, h2, h3, _⟩ := C84_string_storage exStr_reach exSOps exSOps_inDomain
  ⟨sts, t', t'', h1, h2, (h3 0 rfl).2⟩
example : ∃ sts t' t'', runStr exFStr [] = .ret (sts, t') ∧ strDestroy t' = .ret (stSuccess, t'') ∧ t'' = t' :=
  let ⟨sts, t', t'', h1, h2, _, h3⟩ := C84_string_storage exFStr_reach [] (.nil _)
  ⟨sts, t', t'', h1, h2, (h3 rfl).1⟩

end Zy
