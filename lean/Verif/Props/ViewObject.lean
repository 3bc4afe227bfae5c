import Verif.Model.ViewObject
import Verif.Props.String

/-!
# C119: reading the characters of a view

`Shows v x`: the view `v` has the characters `x`.
-/

namespace Zy

open Spec

/-- Offset computation and bounds of `ZyanStringGetChar`. -/
private theorem getChar_at {v : View} {x : List Byte} (hv : Shows v x) (hx : x.length < 18446744073709551615)
    {i : Nat} (hi : i < x.length) {esz : Cell Nat} {off : Nat} (ho : off < x.length)
    (he : charOffset esz i = some off) :
    strGetChar v esz i = .ret (stSuccess, some x[off]?) := by
  obtain ⟨hs, r, hr⟩ := hv
  unfold strGetChar
  rw [add64_eq (by omega), hs, if_neg (by omega), if_neg (by omega), he]
  dsimp only
  rw [← hr, List.getElem?_append_left (by simpa using ho), List.getElem?_map,
    List.getElem?_eq_getElem ho]
  rfl

private theorem getChar_out {v : View} {x : List Byte} (hv : Shows v x) (hx : x.length < 18446744073709551615)
    {i : Nat} (hi : x.length ≤ i) (hi2 : i < 18446744073709551616) (esz : Cell Nat) :
    strGetChar v esz i = .ret (stOutOfRange, none) := by
  obtain ⟨hs, _⟩ := hv
  unfold strGetChar
  by_cases hw : i + 1 < 18446744073709551616
  · rw [add64_eq hw, hs, if_pos (by omega)]
  · have : add64 i 1 = 0 := by unfold add64; omega
    rw [this, hs, if_neg (by omega), if_pos (by omega)]

private theorem viewCall_esz {o o' : ViewObj} {call : ViewCall} {st : Status}
    (h : viewCall o call = .ret (st, o')) : o'.esz = o.esz := by
  cases call with
  | insideView src => cases h; rfl
  | insideViewEx src i n => cases h; rfl
  | insideBuffer mem =>
    simp only [viewCall] at h
    cases hm : viewInsideBuffer mem with
    | ub w => rw [hm] at h; cases h
    | ret r => rw [hm] at h; cases h; rfl
  | insideBufferEx mem n => cases h; rfl

/-- C119: a view made by an initializer from a literal, or a string used as a view, gives the i-th character
for every index inside of the text, and refuses all others. -/
theorem C119_initialised (cs : List Byte) (hcs : cs.length < 2 ^ 64 - 1) {i : Nat} (hi : i < 2 ^ 64) :
    viewObjGetChar (viewObjLiteral cs) i =
      .ret (if i < cs.length then (stSuccess, some cs[i]?) else (stOutOfRange, none)) := by
  have hv : Shows (viewObjLiteral cs).view cs := ⟨rfl, List.prefix_append _ _⟩
  split
  · rename_i h
    exact getChar_at hv hcs h h
      (by simp only [viewObjLiteral, charOffset, mul64_eq (show i * 1 < 18446744073709551616 by omega), Nat.mul_one])
  · rename_i h
    exact getChar_out hv hcs (by omega) hi _

/-- C119, the part that holds for the functions that make views: if the object already had the element size
1 (it was initialised as above), then after a successful call it gives the i-th character for every index
inside of the text `x` that the new view shows, and refuses all others. Missing: objects that were not
initialised, or zeroed; see the next two theorems. -/
theorem C119_reused_partial {o o' : ViewObj} {call : ViewCall} {st : Status} (ho : o.esz = some 1)
    (h : viewCall o call = .ret (st, o')) {x : List Byte} (hv : Shows o'.view x)
    (hx : x.length < 2 ^ 64 - 1) {i : Nat} (hi : i < 2 ^ 64) :
    viewObjGetChar o' i =
      .ret (if i < x.length then (stSuccess, some x[i]?) else (stOutOfRange, none)) := by
  have he : o'.esz = some 1 := by rw [← ho]; exact viewCall_esz h
  unfold viewObjGetChar
  rw [he]
  split
  · rename_i h
    exact getChar_at hv hx h h
      (by simp only [charOffset, mul64_eq (show i * 1 < 18446744073709551616 by omega), Nat.mul_one])
  · rename_i h
    exact getChar_out hv hx (by omega) hi _

/-- C119, the part that holds for every object, whatever its element size is, even if that was never
written: the first character is read correctly and an index outside of the text is refused. Missing: the
other characters, see the next two theorems. -/
theorem C119_first_partial {o : ViewObj} {x : List Byte} (hv : Shows o.view x) (hx : x.length < 2 ^ 64 - 1) :
    (∀ c rest, x = c :: rest → viewObjGetChar o 0 = .ret (stSuccess, some (some c))) ∧
    ∀ i, x.length ≤ i → i < 2 ^ 64 → viewObjGetChar o i = .ret (stOutOfRange, none) := by
  refine ⟨fun c rest hc => ?_, fun i h1 h2 => getChar_out hv hx h1 h2 _⟩
  subst hc
  have he : charOffset o.esz 0 = some 0 := by
    unfold charOffset
    cases o.esz with
    | none => rfl
    | some e => simp [mul64]
  exact getChar_at hv hx (Nat.succ_pos _) (Nat.succ_pos _) he

/-- C119 for a string that is used as a view. -/
theorem C119_string {P : Params} {t : Str} (h : SReach P t) {i : Nat} (hi : i < 2 ^ 64) :
    viewObjGetChar (viewObjOfString t) i =
      .ret (if i < (textOf t).length then (stSuccess, (textOf t)[i]?) else (stOutOfRange, none)) := by
  have hh := C78_index_checks_partial h hi
  by_cases hl : i < (textOf t).length
  · rw [if_pos hl]; exact (hh.1 hl).1
  · rw [if_neg hl]; exact (hh.2 (by omega)).1

/-- C28: the calls that make no view say why and leave the object as it was: an explicit length of zero is an
invalid argument (so that the empty text in a buffer cannot be viewed), and a range must end before the end
of the source, computed with the machine word. -/
theorem C28_refusals {o o' : ViewObj} {call : ViewCall} {st : Status}
    (h : viewCall o call = .ret (st, o')) :
    (st = stSuccess ∧ o'.esz = o.esz) ∨
    (o' = o ∧ ((∃ mem, call = .insideBufferEx mem 0 ∧ st = stInvalidArgument) ∨
      ∃ src i n, call = .insideViewEx src i n ∧ src.size ≤ (i + n) % 2 ^ 64 ∧ st = stOutOfRange)) := by
  have hz := viewCall_esz h
  cases call with
  | insideView src => cases h; exact .inl ⟨rfl, rfl⟩
  | insideViewEx src i n =>
    simp only [viewCall, viewInsideViewEx] at h
    split at h
    · rename_i hc
      cases h
      exact .inr ⟨rfl, .inr ⟨src, i, n, rfl, hc, rfl⟩⟩
    · cases h; exact .inl ⟨rfl, rfl⟩
  | insideBuffer mem =>
    simp only [viewCall, viewInsideBuffer] at h
    cases hm : cStrlen mem with
    | ub w => rw [hm] at h; cases h
    | ret r => rw [hm] at h; cases h; exact .inl ⟨rfl, rfl⟩
  | insideBufferEx mem n =>
    simp only [viewCall, viewInsideBufferEx] at h
    split at h
    · rename_i hc
      cases h
      exact .inr ⟨rfl, .inl ⟨mem, by rw [hc], rfl⟩⟩
    · cases h; exact .inl ⟨rfl, rfl⟩

/-- C119 is false for objects without initializer: whatever function made the view, reading any character
but the first uses an indeterminate value. -/
theorem C119_local_negation {o' : ViewObj} {call : ViewCall} {st : Status}
    (h : viewCall viewObjLocal call = .ret (st, o')) {x : List Byte} (hv : Shows o'.view x)
    (hx : x.length < 2 ^ 64 - 1) {i : Nat} (h1 : 1 ≤ i) (hi : i < x.length) :
    viewObjGetChar o' i = .ub .indet := by
  have he : o'.esz = none := viewCall_esz h
  unfold viewObjGetChar strGetChar
  rw [he, add64_eq (by omega), hv.1, if_neg (by omega), if_neg (by omega)]
  simp only [charOffset]
  rw [if_neg (by omega)]

/-- C119 is false for zeroed objects, such as the values of parsed arguments: whatever function made the
view, every index inside of the text gives the first character. -/
theorem C119_zeroed_negation {o' : ViewObj} {call : ViewCall} {st : Status}
    (h : viewCall viewObjZero call = .ret (st, o')) {x : List Byte} (hv : Shows o'.view x)
    (hx : x.length < 2 ^ 64 - 1) {i : Nat} (hi : i < x.length) :
    viewObjGetChar o' i = .ret (stSuccess, some x.head?) := by
  have he : o'.esz = some 0 := viewCall_esz h
  unfold viewObjGetChar
  rw [he, getChar_at hv hx hi (off := 0) (by omega) (by simp [charOffset, mul64]), List.head?_eq_getElem?]

/-- The text "ab" in a fresh local variable and in zeroed memory. -/
example : (viewCall viewObjLocal (.insideBuffer ((chars ['a', 'b']).map some ++ [some 0#8]))).bind
    (fun r => viewObjGetChar r.2 1) = .ub .indet := by decide +kernel
example : (viewCall viewObjZero (.insideBuffer ((chars ['a', 'b']).map some ++ [some 0#8]))).bind
    (fun r => viewObjGetChar r.2 1) = .ret (stSuccess, some (some 97#8)) := by decide +kernel
example : (viewCall (viewObjLiteral []) (.insideBuffer ((chars ['a', 'b']).map some ++ [some 0#8]))).bind
    (fun r => viewObjGetChar r.2 1) = .ret (stSuccess, some (some 98#8)) := by decide +kernel

example : viewObjGetChar ⟨litView (chars ['a', 'b']), none⟩ 0 = .ret (stSuccess, some (some 97#8)) :=
  (C119_first_partial (o := ⟨litView (chars ['a', 'b']), none⟩) (x := chars ['a', 'b'])
    ⟨rfl, List.prefix_append _ _⟩ (by decide)).1 _ _ rfl
example : viewObjGetChar (viewObjOfString exStr) 1 = .ret (stSuccess, (textOf exStr)[1]?) := by
  rw [C119_string exStr_reach (by decide)]; cbv
example : viewCall viewObjLocal (.insideBufferEx [some 97#8] 0) = .ret (stInvalidArgument, viewObjLocal) := rfl

end Zy
