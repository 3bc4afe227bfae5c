import Verif.Model.Format
import Verif.Spec.String
import Verif.Spec.VectorRun

/-!
# How the string specification is applied to the model

API operations as calls of the modelled functions, histories of calls, and what a caller can observe of
a string.
-/

namespace Zy

open Spec

/-- The view of a C string with the characters `x`: characters, then the terminator. -/
def textView (x : List (Cell Byte)) : View := ⟨x ++ [some 0#8], x.length + 1⟩

/-- The view of a C string with the (determinate) characters `x`. -/
def litView (x : List Byte) : View := textView (x.map some)

/-- The view `v` has the characters `x`, whatever follows them in memory. -/
def Shows (v : View) (x : List Byte) : Prop := v.size = x.length + 1 ∧ x.map some <+: v.mem

/-- The view `v` has the characters `x` and they are followed in memory by a NUL byte, as is the case for
C strings and for strings of the library. -/
def ShowsTerminated (v : View) (x : List Byte) : Prop :=
  v.size = x.length + 1 ∧ (x.map some ++ [some 0#8]) <+: v.mem

/-- `x` are the characters of an optional view; there are none if there is no view. -/
def PrefixShows : Option View → List Byte → Prop
  | none, x => x = []
  | some v, x => Shows v x

/-- Reading of an API operation as a call of the modelled function. -/
def strOp (t : Str) : SOp → Out (Status × Str)
  | .append x => strAppend t (textView x)
  | .appendEx x j n => strAppendEx t (textView x) j n
  | .insert i x => strInsert t i (textView x)
  | .insertEx i x j n => strInsertEx t i (textView x) j n
  | .delete i n => strDelete t i n
  | .truncate i => strTruncate t i
  | .clear => strClear t
  | .setChar i c => strSetChar t i c
  | .lower i n => strToLowerEx t i n
  | .upper i n => strToUpperEx t i n
  | .resize n => strResize t n
  | .reserve c => strReserve t c
  | .shrinkToFit => strShrinkToFit t

/-- A history of API calls: the statuses returned and the final state. -/
def runStr (t : Str) : List SOp → Out (List Status × Str)
  | [] => .ret ([], t)
  | op :: ops =>
    (strOp t op).bind fun r => (runStr r.2 ops).bind fun q => .ret (r.1 :: q.1, q.2)

/-- The bytes of the string's storage. -/
def storage (t : Str) : List (Cell Byte) :=
  match t.s.v.data with
  | some b => b.cells
  | none => []

/-- The text of the string: as many characters as `ZyanStringGetSize` reports. -/
def textOf (t : Str) : List (Cell Byte) := (storage t).take (strGetSize t)

/-- The string's text is inside its storage and followed there by a NUL byte. -/
def Terminated (t : Str) : Prop :=
  (textOf t).length = strGetSize t ∧ (storage t)[strGetSize t]? = some (some 0#8)

/-- What is observable of a string: its text and the bytes of storage it claims. -/
def sabsOf (t : Str) : SState := ⟨textOf t, t.s.v.cap⟩

/-- Strings that a program can obtain: by initialising a dynamic string, a string on a caller buffer that
really has the claimed capacity, by duplicating or concatenating texts in either way, followed by any
number of API calls whose requests are in the domain of the specification and of number formatting calls,
with an allocator that does not fail. -/
inductive SReach : Params → Str → Prop where
  | init {P : Params} {w w' : World Byte} {cap a : Nat} {st : Status} {t : Str} (hw : Fresh w)
      (hr : Reliable w)
      (hP : P.allocator = some a ∧ P.growth ≤ 255 ∧ P.thr ≤ 255 ∧ P.esz = 1 ∧ P.dtor = false)
      (hc : max 32 cap + 1 < 18446744073709551616)
      (h : strInitEx w cap (some a) P.growth P.thr = .ret (st, some t, w')) : SReach P t
  | initBuffer {P : Params} {w : World Byte} {cap : Nat} {b : Block Byte} {st : Status} {t : Str}
      (hw : Fresh w) (hr : Reliable w)
      (hP : P.allocator = none ∧ P.growth = 1 ∧ P.thr = 0 ∧ P.esz = 1 ∧ P.dtor = false)
      (hb : cap ≤ b.cells.length)
      (h : strInitBuffer w (some b) cap = .ret (st, some t)) : SReach P t
  | dup {P : Params} {w w' : World Byte} {x : List (Cell Byte)} {cap a : Nat} {st : Status} {t : Str}
      (hw : Fresh w) (hr : Reliable w)
      (hP : P.allocator = some a ∧ P.growth ≤ 255 ∧ P.thr ≤ 255 ∧ P.esz = 1 ∧ P.dtor = false)
      (hc : max 32 cap + 1 < 18446744073709551616) (hx : SFits (x.length + 1))
      (h : strDuplicateEx w (textView x) cap (some a) P.growth P.thr = .ret (st, some t, w')) :
      SReach P t
  | dupBuffer {P : Params} {w : World Byte} {x : List (Cell Byte)} {cap : Nat} {b : Block Byte}
      {st : Status} {t : Str} (hw : Fresh w) (hr : Reliable w)
      (hP : P.allocator = none ∧ P.growth = 1 ∧ P.thr = 0 ∧ P.esz = 1 ∧ P.dtor = false)
      (hb : cap ≤ b.cells.length) (hx : SFits (x.length + 1))
      (h : strDuplicateBuffer w (textView x) (some b) cap = .ret (st, some t)) : SReach P t
  | concat {P : Params} {w w' : World Byte} {x y : List (Cell Byte)} {cap a : Nat} {st : Status}
      {t : Str} (hw : Fresh w) (hr : Reliable w)
      (hP : P.allocator = some a ∧ P.growth ≤ 255 ∧ P.thr ≤ 255 ∧ P.esz = 1 ∧ P.dtor = false)
      (hc : max 32 cap + 1 < 18446744073709551616) (hx : SFits (x.length + y.length + 1))
      (h : strConcatEx w (textView x) (textView y) cap (some a) P.growth P.thr =
        .ret (st, some t, w')) : SReach P t
  | concatBuffer {P : Params} {w : World Byte} {x y : List (Cell Byte)} {cap : Nat} {b : Block Byte}
      {st : Status} {t : Str} (hw : Fresh w) (hr : Reliable w)
      (hP : P.allocator = none ∧ P.growth = 1 ∧ P.thr = 0 ∧ P.esz = 1 ∧ P.dtor = false)
      (hb : cap ≤ b.cells.length) (hx : SFits (x.length + y.length + 1))
      (h : strConcatBuffer w (textView x) (textView y) (some b) cap = .ret (st, some t)) : SReach P t
  | step {P : Params} {t t' : Str} {st : Status} {op : SOp} (h : SReach P t)
      (hd : SInDomain (sabsOf t) op) (hs : strOp t op = .ret (st, t')) : SReach P t'
  | decU {P : Params} {t t' : Str} {st : Status} {value padding : Nat} (h : SReach P t)
      (hv : value < 18446744073709551616) (hp : padding ≤ 255) (hf : SFits ((textOf t).length + 300))
      (hs : strAppendDecU t value padding = .ret (st, t')) : SReach P t'
  | hexU {P : Params} {t t' : Str} {st : Status} {value padding : Nat} {upper : Bool} (h : SReach P t)
      (hv : value < 18446744073709551616) (hp : padding ≤ 255) (hf : SFits ((textOf t).length + 300))
      (hc : t.s.v.cap < 18446744073709551616)
      (hs : strAppendHexU t value padding upper = .ret (st, t')) : SReach P t'
  | decS {P : Params} {t t' : Str} {st : Status} {value : BitVec 64} {padding : Nat} {forceSign : Bool}
      {pre : Option View} {x : List Byte} (h : SReach P t) (hp : padding ≤ 255) (hx : PrefixShows pre x)
      (hf : SFits ((textOf t).length + x.length + 301)) (hc : t.s.v.cap < 18446744073709551616)
      (hs : strAppendDecS t value padding forceSign pre = .ret (st, t')) : SReach P t'
  | hexS {P : Params} {t t' : Str} {st : Status} {value : BitVec 64} {padding : Nat}
      {upper forceSign : Bool} {pre : Option View} {x : List Byte} (h : SReach P t) (hp : padding ≤ 255)
      (hx : PrefixShows pre x) (hf : SFits ((textOf t).length + x.length + 301))
      (hc : t.s.v.cap < 18446744073709551616)
      (hs : strAppendHexS t value padding upper forceSign pre = .ret (st, t')) : SReach P t'

end Zy
