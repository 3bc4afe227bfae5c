import Verif.Lemmas.Numbers
import Verif.Props.Split
import Verif.Props.Format

/-!
# Property theorems: numbers written one behind the other can be read back (C196)
-/

namespace Zy

open Spec

/-- **C196**: the program that appends numbers with a separator between them succeeds and leaves exactly that text. (For
strings with an allocator, and sizes that fit.) -/
theorem C196_written {P : Params} {t : Str} (h : SReach P t) (hP : P.allocator.isSome) {pre y : List Byte}
    (ht : textOf t = pre.map some) {ns : List Nat} (hn : ∀ n ∈ ns, n < 18446744073709551616) {w : Nat} (hw : w ≤ 255)
    (hf : SFits (pre.length + ns.length * (300 + y.length) + 1)) :
    ∃ t', writeNumbers (litView y) w t ns = .ret (stSuccess, t') ∧
      textOf t' = (pre ++ joined y (ns.map fun n => padded w (numeral 10 false n))).map some ∧ Terminated t' := by
  obtain ⟨b, sl, R⟩ := h.rep
  have ha : sabsOf t = ⟨pre.map some, t.s.v.cap⟩ := by unfold sabsOf; rw [ht]
  rw [ha] at R
  obtain ⟨t', c', b', sl', e, R'⟩ := writeNumbers_ok hP hw ns R hn hf
  exact ⟨t', e, R'.textOf, R'.terminated⟩

/-- **C196**: numbers that were written to an empty string, with a character between them that is not a digit, are found
again by splitting the string at this character and reading the digits of the pieces. -/
theorem C196_read_back {P : Params} {t : Str} (h : SReach P t) (hP : P.allocator.isSome) (ht : textOf t = [])
    {c : Byte} (hc : Separates c) {ns : List Nat} (hne : ns ≠ []) (hn : ∀ n ∈ ns, n < 18446744073709551616) {w : Nat}
    (hw : w ≤ 255) (hf : SFits (ns.length * 301 + 1)) {fuel : Nat} (hfuel : ns.length * 256 < fuel) :
    ∃ t' text rs, writeNumbers (litView [c]) w t ns = .ret (stSuccess, t') ∧ textOf t' = text.map some ∧
      splitLoop (strView t') (litView [c]) fuel 0 = .ret (stSuccess, rs) ∧
      rs.map (fun r => readNumeral 10 (pieceAt text r)) = ns := by
  obtain ⟨b, sl, R⟩ := h.rep
  have ha : sabsOf t = ⟨([] : List Byte).map some, t.s.v.cap⟩ := by unfold sabsOf; rw [ht]; rfl
  rw [ha] at R
  obtain ⟨t', c', b', sl', e, R'⟩ := writeNumbers_ok hP (y := [c]) hw ns R hn (hf.mono (by simp))
  rw [List.nil_append] at R'
  have hlen : (joined [c] (ns.map (entry w))).length ≤ ns.length * 256 := by
    have := joined_length (y := [c]) (k := 255) (ns.map (entry w)) (by
      intro p hp
      obtain ⟨n, hm, rfl⟩ := List.mem_map.1 hp
      exact entry_length (hn n hm) hw)
    simpa using this
  have hsmall : (ns.length * 301 + 1) * 255 < 18446744073709551616 := hf
  obtain ⟨rs, e2, hrs⟩ := C166_join_split hc.1 (ps := ns.map (entry w)) (by simpa using hne)
    (by
      intro p hp
      obtain ⟨n, _, rfl⟩ := List.mem_map.1 hp
      exact entry_free hc w n)
    (v := strView t') (R'.view rfl) (by omega) (fuel := fuel) (by omega)
  refine ⟨t', _, rs, e, R'.textOf, e2, ?_⟩
  have : rs.map (fun r => readNumeral 10 (pieceAt (joined [c] (ns.map (entry w))) r)) =
      (rs.map (pieceAt (joined [c] (ns.map (entry w))))).map (readNumeral 10) := by simp
  rw [this, hrs, List.map_map]
  refine (List.map_congr_left fun n _ => ?_).trans (List.map_id ns)
  exact readNumeral_padded (by decide) (by decide) false w n

/-- **C196**: so different numbers never give the same text. -/
theorem C196_injective {c : Byte} (hc : Separates c) {ns ms : List Nat} (hn : ns ≠ []) (hm : ms ≠ []) {w u : Nat}
    (h : joined [c] (ns.map fun n => padded w (numeral 10 false n)) =
      joined [c] (ms.map fun n => padded u (numeral 10 false n))) : ns = ms := by
  have key : ∀ (ks : List Nat) (z : Nat), ks ≠ [] →
      Split [c] (joined [c] (ks.map fun n => padded z (numeral 10 false n))) (ks.map (entry z)) := by
    intro ks z hk
    refine split_single (by simpa using hk) ?_
    intro p hp
    obtain ⟨n, _, rfl⟩ := List.mem_map.1 hp
    exact entry_free hc z n
  have h1 := key ns w hn
  rw [h] at h1
  have h2 := congrArg (List.map (readNumeral 10)) (C166_unique h1 (key ms u hm))
  rw [List.map_map, List.map_map] at h2
  have id' : ∀ (ks : List Nat) (z : Nat), ks.map (readNumeral 10 ∘ entry z) = ks := by
    intro ks z
    refine (List.map_congr_left fun n _ => ?_).trans (List.map_id ks)
    exact readNumeral_padded (by decide) (by decide) false z n
  rwa [id', id'] at h2

/-- Without a separator this is false: 1, 23 and 12, 3. -/
example : joined [] ([1, 23].map fun n => padded 0 (numeral 10 false n)) =
    joined [] ([12, 3].map fun n => padded 0 (numeral 10 false n)) := by
  decide +kernel

theorem exNum_comma : Separates 44#8 := ⟨by decide, by decide⟩

/-- "7,0,1234" -/
example : ∃ t' text rs, writeNumbers (litView [44#8]) 0 exNoText [7, 0, 1234] = .ret (stSuccess, t') ∧
    textOf t' = text.map some ∧ splitLoop (strView t') (litView [44#8]) 1000 0 = .ret (stSuccess, rs) ∧
    rs.map (fun r => readNumeral 10 (pieceAt text r)) = [7, 0, 1234] :=
  C196_read_back exNoText_reach rfl rfl exNum_comma (by decide) (by decide) (by decide) (by show _ < _; decide) (by decide)

example : ∃ t', writeNumbers (litView [44#8]) 3 exNoText [7, 1234] = .ret (stSuccess, t') ∧
    textOf t' = (chars ['0', '0', '7', ',', '1', '2', '3', '4']).map some := by
  obtain ⟨t', h1, h2, _⟩ := C196_written exNoText_reach rfl (pre := []) (y := [44#8]) rfl (ns := [7, 1234]) (by decide)
    (w := 3) (by decide) (by show _ < _; decide)
  exact ⟨t', h1, by rw [h2]; decide +kernel⟩

end Zy
