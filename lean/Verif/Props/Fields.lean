import Verif.Lemmas.Fields
import Verif.Props.Numbers

/-!
# Property theorems: lines of fields in different formats (C198)
-/

namespace Zy

open Spec

/-- **C198**: a line of fields, each with its own format and width, is written exactly as it should look; a string in a
caller buffer must have room for it. -/
theorem C198_written {P : Params} {t : Str} (h : SReach P t) (hc : t.s.v.cap < 18446744073709551616) {y : List Byte}
    {fs : List Field} (hne : fs ≠ []) (hw : ∀ f ∈ fs, f.width ≤ 255)
    (hf : SFits ((textOf t).length + fs.length * (301 + y.length) + 1))
    (hroom : P.allocator = none → (textOf t).length + (joined y (fs.map fieldText)).length + 1 ≤ t.s.v.cap) :
    ∃ t', writeFields (litView y) t fs = .ret (stSuccess, t') ∧
      textOf t' = textOf t ++ (joined y (fs.map fieldText)).map some ∧ Terminated t' := by
  obtain ⟨b, sl, R⟩ := h.rep
  cases fs with
  | nil => exact absurd rfl hne
  | cons f fs =>
    have hres := writeFields_res (y := y) fs f R hw (by rw [sabsOf_text]; exact hf) (by rw [sabsOf_bytes]; exact hc)
    have key := (app_obs hres).1
    rw [sabsOf_text, sabsOf_bytes] at key
    exact key hroom

/-- **C198**: in a caller buffer that is too small, the program fails with "insufficient buffer", and the string has what
it had before and a beginning of the line. -/
theorem C198_full {P : Params} {t : Str} (h : SReach P t) (hc : t.s.v.cap < 18446744073709551616) {y : List Byte}
    {fs : List Field} (hne : fs ≠ []) (hw : ∀ f ∈ fs, f.width ≤ 255)
    (hf : SFits ((textOf t).length + fs.length * (301 + y.length) + 1)) (hP : P.allocator = none)
    (hfull : t.s.v.cap < (textOf t).length + (joined y (fs.map fieldText)).length + 1) :
    ∃ t' z, z <+: joined y (fs.map fieldText) ∧ writeFields (litView y) t fs = .ret (stInsufficient, t') ∧
      textOf t' = textOf t ++ z.map some ∧ Terminated t' ∧ t'.s.v.cap = t.s.v.cap := by
  obtain ⟨b, sl, R⟩ := h.rep
  cases fs with
  | nil => exact absurd rfl hne
  | cons f fs =>
    have hres := writeFields_res (y := y) fs f R hw (by rw [sabsOf_text]; exact hf) (by rw [sabsOf_bytes]; exact hc)
    have key := (app_obs hres).2
    rw [sabsOf_text, sabsOf_bytes] at key
    exact key hP hfull

/-- **C198**: a line written to an empty string, with a character between the fields that does not occur in numbers, is
read back by splitting it at this character and reading every piece in its format. -/
theorem C198_read_back {P : Params} {t : Str} (h : SReach P t) (hcap : t.s.v.cap < 18446744073709551616)
    (ht : textOf t = []) {c : Byte} (hc : SetsApart c) {fs : List Field} (hne : fs ≠ []) (hw : ∀ f ∈ fs, f.width ≤ 255)
    (hf : SFits (fs.length * 302 + 1))
    (hroom : P.allocator = none → (joined [c] (fs.map fieldText)).length + 1 ≤ t.s.v.cap)
    {fuel : Nat} (hfuel : fs.length * 257 < fuel) :
    ∃ t' text rs, writeFields (litView [c]) t fs = .ret (stSuccess, t') ∧ textOf t' = text.map some ∧
      splitLoop (strView t') (litView [c]) fuel 0 = .ret (stSuccess, rs) ∧ rs.length = fs.length ∧
      List.zipWith (fun r f => readField f.fmt (pieceAt text r)) rs fs = fs.map Field.value := by
  obtain ⟨b, sl, R⟩ := h.rep
  have ha : sabsOf t = ⟨([] : List Byte).map some, t.s.v.cap⟩ := by unfold sabsOf; rw [ht]; rfl
  rw [ha] at R
  have hres : AppRes P (writeFields (litView [c]) t fs) ⟨([] : List Byte).map some, t.s.v.cap⟩
      ((joined [c] (fs.map fieldText)).map some) := by
    cases fs with
    | nil => exact absurd rfl hne
    | cons f fs => exact writeFields_res fs f R hw (hf.mono (by simp)) hcap
  obtain ⟨t', c', b', sl', e, R'⟩ := hres.room (by intro hd; simpa using hroom hd)
  rw [List.map_nil, List.nil_append] at R'
  have hlen : (joined [c] (fs.map fieldText)).length ≤ fs.length * 257 := by
    have := joined_length (y := [c]) (k := 256) (fs.map fieldText) (by
      intro p hp
      obtain ⟨f, hm, rfl⟩ := List.mem_map.1 hp
      exact fieldText_length (hw f hm))
    simpa using this
  have hsmall : (fs.length * 302 + 1) * 255 < 18446744073709551616 := hf
  obtain ⟨rs, e2, hrs⟩ := C166_join_split hc.1 (ps := fs.map fieldText) (by simpa using hne)
    (by
      intro p hp
      obtain ⟨f, _, rfl⟩ := List.mem_map.1 hp
      exact fieldText_free hc f)
    (v := strView t') (R'.view rfl) (by omega) (fuel := fuel) (by omega)
  refine ⟨t', _, rs, e, R'.textOf, e2, by simpa using congrArg List.length hrs, ?_⟩
  have : List.zipWith (fun r f => readField f.fmt (pieceAt (joined [c] (fs.map fieldText)) r)) rs fs =
      List.zipWith (fun p f => readField f.fmt p) (rs.map (pieceAt (joined [c] (fs.map fieldText)))) fs := by
    rw [List.zipWith_map_left]
  rw [this, hrs]
  clear this hrs e2 e R' hres hroom hf hw hne hlen hsmall hfuel
  induction fs with
  | nil => rfl
  | cons f fs ih =>
    rw [List.map_cons, List.zipWith_cons_cons, List.map_cons, ih, readField_text]

/-- **C198**: so two lines with the same formats and the same text have the same numbers. -/
theorem C198_injective {c : Byte} (hc : SetsApart c) {fs gs : List Field} (hfmt : fs.map Field.fmt = gs.map Field.fmt)
    (h : joined [c] (fs.map fieldText) = joined [c] (gs.map fieldText)) : fs.map Field.value = gs.map Field.value := by
  have hlen : fs.length = gs.length := by simpa using congrArg List.length hfmt
  by_cases hn : fs = []
  · subst hn
    cases gs with
    | nil => rfl
    | cons g gs => cases hlen
  · have hm : gs ≠ [] := by
      intro h
      subst h
      exact hn (List.length_eq_zero_iff.1 hlen)
    have key : ∀ (ks : List Field), ks ≠ [] → Split [c] (joined [c] (ks.map fieldText)) (ks.map fieldText) := by
      intro ks hk
      refine split_single (by simpa using hk) ?_
      intro p hp
      obtain ⟨f, _, rfl⟩ := List.mem_map.1 hp
      exact fieldText_free hc f
    have h1 := key fs hn
    rw [h] at h1
    have h2 := C166_unique h1 (key gs hm)
    clear h h1 key hn hm hlen
    induction fs generalizing gs with
    | nil =>
      cases gs with
      | nil => rfl
      | cons g gs => cases hfmt
    | cons f fs ih =>
      cases gs with
      | nil => cases hfmt
      | cons g gs =>
        simp only [List.map_cons, List.cons.injEq] at hfmt h2 ⊢
        refine ⟨?_, ih hfmt.2 h2.2⟩
        rw [← readField_text f, ← readField_text g, hfmt.1, h2.1]

/-! ## Concrete examples meeting the hypotheses -/

theorem exFields_semicolon : SetsApart 59#8 := ⟨by decide, by decide, by decide, by decide⟩

/-- The fields of "-5;002A;+7;18446744073709551611". -/
def exFields : List Field :=
  [⟨.decS false, 0, -5#64⟩, ⟨.hexU true, 4, 42#64⟩, ⟨.hexS false true, 0, 7#64⟩, ⟨.decU, 0, -5#64⟩]

example : joined [59#8] (exFields.map fieldText) = chars ['-', '5', ';', '0', '0', '2', 'A', ';', '+', '7', ';', '1', '8',
    '4', '4', '6', '7', '4', '4', '0', '7', '3', '7', '0', '9', '5', '5', '1', '6', '1', '1'] ∧
    exFields.map Field.value = [-5, 42, 7, 18446744073709551611] := by decide +kernel

example : ∃ t' text rs, writeFields (litView [59#8]) exNoText exFields = .ret (stSuccess, t') ∧ textOf t' = text.map some ∧
    splitLoop (strView t') (litView [59#8]) 2000 0 = .ret (stSuccess, rs) ∧ rs.length = 4 ∧
    List.zipWith (fun r f => readField f.fmt (pieceAt text r)) rs exFields = [-5, 42, 7, 18446744073709551611] :=
  C198_read_back exNoText_reach (by decide) rfl exFields_semicolon (by decide) (by decide) (by show _ < _; decide) nofun
    (by decide)

/-- In a caller buffer without enough room. -/
example : ∃ t' z, z <+: joined [59#8] (exFields.map fieldText) ∧
    writeFields (litView [59#8]) exFStr exFields = .ret (stInsufficient, t') ∧ textOf t' = textOf exFStr ++ z.map some ∧
    Terminated t' ∧ t'.s.v.cap = exFStr.s.v.cap :=
  C198_full exFStr_reach (by decide) (by decide) (by decide) (by show _ < _; decide) rfl (by decide +kernel)

example : ∃ t', writeFields (litView [44#8, 32#8]) exStr exFields = .ret (stSuccess, t') ∧
    textOf t' = textOf exStr ++ (joined [44#8, 32#8] (exFields.map fieldText)).map some ∧ Terminated t' :=
  C198_written exStr_reach (by decide) (by decide) (by decide) (by show _ < _; decide) nofun

/-- The sign and the digits do not separate, the blank does. -/
example : ¬ SetsApart 45#8 ∧ ¬ SetsApart 65#8 ∧ SetsApart 32#8 := by
  refine ⟨fun h => h.2.2.1 rfl, fun h => (h.2.2.2 10 (by decide)).2 (by decide), ⟨by decide, by decide, by decide, by decide⟩⟩

end Zy
