import Verif.Lemmas.StringData
import Verif.Props.String
import Verif.Props.Vector

/-!
# Property theorems: texts as C strings, variants with default parameters

`cStrlen` is the function `strlen` of the C library. `Shows v x` says that the view `v` has the characters `x`,
`ShowsTerminated v x` that they are followed by a NUL byte (`Verif.Spec.StringRun`).
-/

namespace Zy

open Spec

/-! ## C110 -/

/-- C110: the data of every string whose characters are all determinate is a C string with the characters up
to the first NUL byte, and a view of this C string has these characters. The C string has the size of the
string exactly if there is no NUL byte inside of the text. -/
theorem C110_string {P : Params} {t : Str} (h : SReach P t) {x : List Byte} (hx : textOf t = x.map some) :
    ∃ p, strGetData t = (stSuccess, p) ∧ cStrlen p = .ret (x.takeWhile (· ≠ 0#8)).length ∧
      (cStrlen p = .ret (strGetSize t) ↔ 0#8 ∉ x) ∧
      ∃ v, viewInsideBuffer p = .ret (stSuccess, v) ∧ Shows v (x.takeWhile (· ≠ 0#8)) ∧
        viewGetData v = (stSuccess, p) := by
  obtain ⟨b, sl, R⟩ := h.rep
  have ht : (sabsOf t).text = x.map some := R.textOf.symm.trans hx
  have hc : b.cells = x.map some ++ some 0#8 :: sl := by
    rw [R.rep.cells]; show ((sabsOf t).text ++ [some 0#8]) ++ sl = _; rw [ht]; simp
  have hs : cStrlen b.cells = .ret (x.takeWhile (· ≠ 0#8)).length := by rw [hc, cStrlen_first]
  have hg : strGetSize t = x.length := by rw [R.getSize, ht, List.length_map]
  have hle : (x.takeWhile (· ≠ 0#8)).length ≤ x.length := (List.takeWhile_prefix _).length_le
  have hsm := R.small
  rw [ht, List.length_map] at hsm
  refine ⟨b.cells, by simp [strGetData, R.rep.data], hs, ?_, ?_⟩
  · rw [hs, hg, Out.ret.injEq]; exact takeWhile_ne_iff x
  · refine ⟨⟨b.cells, (x.takeWhile (· ≠ 0#8)).length + 1⟩, ?_, ⟨rfl, ?_⟩, rfl⟩
    · unfold viewInsideBuffer
      rw [hs, Out.ret_bind', add64_eq (by omega)]
    · show _ <+: b.cells
      rw [hc]
      refine List.IsPrefix.trans ?_ (List.prefix_append _ _)
      exact (List.takeWhile_prefix _).map _

/-- C110 does not hold for strings with characters that were never written (after a resize): if there is no
NUL byte before the first of them, the C string is undefined. -/
theorem C110_string_indeterminate {P : Params} {t : Str} (h : SReach P t) {x : List Byte}
    {rest : List (Cell Byte)} (hx : textOf t = x.map some ++ none :: rest) (h0 : 0#8 ∉ x) :
    cStrlen (strGetData t).2 = .ub .indet := by
  obtain ⟨b, sl, R⟩ := h.rep
  have ht : (sabsOf t).text = x.map some ++ none :: rest := R.textOf.symm.trans hx
  have hc : b.cells = x.map some ++ none :: (rest ++ some 0#8 :: sl) := by
    rw [R.rep.cells]; show ((sabsOf t).text ++ [some 0#8]) ++ sl = _; rw [ht]; simp
  simp only [strGetData, R.rep.data, hc]
  exact cStrlen_indet x h0 _

/-- C110 for views: the data is a C string of the size of the view if the characters are followed by a NUL
byte and contain none. Missing: views of a part of a text, see `C110_view_negation`. -/
theorem C110_view_partial {v : View} {x : List Byte} (h : ShowsTerminated v x) (h0 : 0#8 ∉ x)
    (hb : x.length + 1 < 18446744073709551616) :
    cStrlen (viewGetData v).2 = .ret (viewGetSize v) := by
  obtain ⟨hs, r, hr⟩ := h
  have hv : v.mem = x.map some ++ some 0#8 :: r := by rw [← hr]; simp
  simp only [viewGetData, viewGetSize, hv, hs]
  rw [cStrlen_first, (takeWhile_ne_iff x).2 h0, sub64_eq (by omega) (by omega)]
  rfl

/-- C110 is false for every view whose text goes on behind the view: as a C string the data has the characters
that follow as well. If there is no NUL byte in the memory, it is undefined. -/
theorem C110_view_negation {v : View} {x y : List Byte} (h : Shows v x) (h0 : 0#8 ∉ x ++ y) (hy : y ≠ [])
    (hb : x.length + 1 < 18446744073709551616) :
    (∀ r, v.mem = (x ++ y).map some ++ some 0#8 :: r →
      cStrlen (viewGetData v).2 = .ret (x.length + y.length) ∧ x.length + y.length ≠ viewGetSize v) ∧
    (v.mem = (x ++ y).map some → cStrlen (viewGetData v).2 = .ub .oob) := by
  have hy' : y.length ≠ 0 := by simpa using hy
  refine ⟨fun r hr => ⟨?_, ?_⟩, fun hr => ?_⟩
  · simp only [viewGetData, hr]
    rw [cStrlen_first, (takeWhile_ne_iff _).2 h0, List.length_append]
  · unfold viewGetSize
    rw [h.1, sub64_eq (by omega) (by omega)]
    omega
  · simp only [viewGetData, hr]
    exact cStrlen_end _ h0

/-- C110: a view defined by a literal has the characters of the literal, including NUL bytes. -/
theorem C110_literal (x : List Byte) (hb : x.length + 1 < 18446744073709551616) :
    ShowsTerminated (literalView x) x ∧ viewGetSize (literalView x) = x.length := by
  refine ⟨⟨by simp [literalView], ⟨[], by simp [literalView]⟩⟩, ?_⟩
  unfold viewGetSize literalView
  simp only [List.length_append, List.length_map, List.length_singleton]
  rw [sub64_eq (by omega) (by omega)]
  rfl

example : cStrlen (strGetData exStr).2 = .ret 4 := by decide +kernel
example : cStrlen (viewGetData ⟨(chars ['a', 'b', 'c']).map some ++ [some 0#8], 2⟩).2 = .ret 3 ∧
    Shows ⟨(chars ['a', 'b', 'c']).map some ++ [some 0#8], 2⟩ (chars ['a']) := by
  refine ⟨by decide +kernel, rfl, ?_⟩
  exact ⟨(chars ['b', 'c']).map some ++ [some 0#8], rfl⟩
example : viewGetSize (literalView (chars ['a', '\x00', 'b'])) = 3 :=
  (C110_literal _ (by decide)).2
/-- A string of six characters, the last of which was never written. The fifth one has replaced the old
terminator. -/
example : (runStr exStr [.resize 6, .setChar 4 100#8]).bind (fun r => .ret (r.1, textOf r.2)) =
      .ret ([stSuccess, stSuccess], (chars ['a', 'B', '@', 'c', 'd']).map some ++ [none]) ∧
    (runStr exStr [.resize 6, .setChar 4 100#8]).bind (fun r => cStrlen (strGetData r.2).2) = .ub .indet := by
  decide +kernel

/-! ## C111 -/

/-- C111, strings: the variant without allocator parameters makes a terminated copy of the text of at least
the requested capacity in the default allocator, with growth factor 2 and shrink threshold 4. -/
theorem C111_string_duplicate {w : World Byte} {cap : Nat} (hw : Fresh w) (hr : Reliable w)
    (hc : max 32 cap + 1 < 18446744073709551616) {v : View} {x : List Byte} (h : Shows v x)
    (hf : SFits (x.length + 1)) :
    ∃ t, strDuplicate w v cap = .ret (stSuccess, some t, t.s.w) ∧ textOf t = x.map some ∧ Terminated t ∧
      t.s.v.cap = max 32 (max cap x.length) + 1 ∧ t.s.v.allocator = some 0 ∧ t.s.v.growth = 2 ∧
      t.s.v.shrink = 4 ∧ t.fixed = false := by
  obtain ⟨r, rfl⟩ := h.eq
  have hl : (x.map (some : Byte → Cell Byte)).length = x.length := by simp
  obtain ⟨t, b, sl, e, R, hb⟩ := strDuplicateEx_ok (P := ⟨some 0, 2, 4, 1, false⟩) (x := x.map some) (rest := r)
    (cap := cap) hw hr ⟨rfl, by decide, by decide, rfl, rfl⟩ (by decide) hc (by rw [hl]; exact hf)
  rw [hl] at e
  exact ⟨t, e, R.textOf, R.terminated, by rw [R.rep.cap, hl], R.rep.allocator, R.rep.growth, R.rep.shrink, R.fixed⟩

/-- C111, strings: the same for concatenation. -/
theorem C111_string_concat {w : World Byte} {cap : Nat} (hw : Fresh w) (hr : Reliable w)
    (hc : max 32 cap + 1 < 18446744073709551616) {v1 v2 : View} {x y : List Byte} (h1 : Shows v1 x)
    (h2 : Shows v2 y) (hf : SFits (x.length + y.length + 1)) :
    ∃ t, strConcat w v1 v2 cap = .ret (stSuccess, some t, t.s.w) ∧ textOf t = (x ++ y).map some ∧ Terminated t ∧
      t.s.v.cap = max 32 (max cap (x.length + y.length)) + 1 ∧ t.s.v.allocator = some 0 ∧ t.s.v.growth = 2 ∧
      t.s.v.shrink = 4 ∧ t.fixed = false := by
  obtain ⟨r, rfl⟩ := h1.eq
  obtain ⟨r', rfl⟩ := h2.eq
  have hl : (x.map (some : Byte → Cell Byte)).length = x.length := by simp
  have hl' : (y.map (some : Byte → Cell Byte)).length = y.length := by simp
  obtain ⟨t, b, sl, e, R, hb⟩ := strConcatEx_ok (P := ⟨some 0, 2, 4, 1, false⟩) (x := x.map some)
    (y := y.map some) (rest := r) (rest' := r') (cap := cap) hw hr ⟨rfl, by decide, by decide, rfl, rfl⟩ (by decide) hc
    (by rw [hl, hl']; exact hf)
  rw [hl, hl'] at e
  refine ⟨t, e, ?_, R.terminated, by rw [R.rep.cap, hl, hl'], R.rep.allocator, R.rep.growth, R.rep.shrink, R.fixed⟩
  rw [R.textOf, List.map_append]

/-- C111, vectors: the variant without allocator parameters makes a copy of the elements of at least the
requested capacity in the default allocator, with growth factor 2 and shrink threshold 4. -/
theorem C111_vector_duplicate {α : Type} {P : Params} {s : VS α} (h : Reach P s) {es : List (Cell α)}
    (he : contents s = .ret es) {w : World α} {cap : Nat} (hw : Fresh w) (hr : Reliable w)
    (hc : max 1 cap * P.esz < 18446744073709551616) :
    ∃ v w', vecDuplicate w s.v cap = .ret (stSuccess, some v, w') ∧ contents ⟨v, w'⟩ = .ret es ∧
      v.cap = max 1 (max cap es.length) ∧ v.allocator = some 0 ∧ v.growth = 2 ∧ v.shrink = 4 ∧
      v.esz = s.v.esz ∧ v.hasDtor = s.v.hasDtor := by
  obtain ⟨b0, sl0, R0⟩ := h.rep
  obtain ⟨v, w', b', e, h1, h2, _, _, h3⟩ := C13_duplicate (P := ⟨some 0, 2, 4, P.esz, P.dtor⟩) h he (cap := cap) hw hr
    ⟨rfl, by show 2 ≤ 255; decide, by show 4 ≤ 255; decide, rfl, rfl⟩ (by show 1 ≤ 2; decide) hc
  obtain ⟨b, sl, R⟩ := h3.rep
  exact ⟨v, w', e, h1, h2, R.allocator, R.growth, R.shrink, by rw [R0.esz]; exact R.esz,
    by rw [R0.dtor]; exact R.dtor⟩

example : ∃ t, strConcat exSW (litView (chars ['a', 'b'])) (litView (chars ['c'])) 0 =
    .ret (stSuccess, some t, t.s.w) ∧ textOf t = (chars ['a', 'b', 'c']).map some := by
  obtain ⟨t, h1, h2, _⟩ := C111_string_concat (w := exSW) (cap := 0) ⟨rfl, rfl⟩ (fun _ => failed_success) (by decide)
    (litView_shows (chars ['a', 'b'])).shows (litView_shows (chars ['c'])).shows (by show _ < _; decide)
  exact ⟨t, h1, h2⟩
example : contents exS = .ret [some 10, some 20, some 30] ∧ Fresh exW ∧ Reliable exW :=
  ⟨by decide, ⟨rfl, rfl⟩, fun _ => failed_success⟩

end Zy
