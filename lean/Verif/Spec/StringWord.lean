import Verif.Model.FormatWord

/-!
# Requests to strings that fit into a `size_t` with `m` values

The domain of the string specification (`SFits`, `SInDomain`, `SAllInDomain` in `Spec/String.lean`, `SReach`
in `Spec/StringRun.lean`), with the number `m` of values of `size_t` as a parameter.
-/

namespace Zy

open Spec

/-- `n` bytes are few enough that the size computations of the library fit into `size_t`. -/
def SFitsW (m n : Nat) : Prop := n * 255 < m

/-- The requests for which the library keeps the promise of `Spec.sstep` on a target whose `size_t` has
`m` values. -/
def SInDomainW (m : Nat) (s : SState) : SOp → Prop
  | .append x => SFitsW m (s.text.length + x.length + 1)
  | .appendEx x j n => SFitsW m (s.text.length + x.length + 1) ∧ j + n < m
  | .insert _ x => SFitsW m (s.text.length + x.length + 1)
  | .insertEx _ x j n => SFitsW m (s.text.length + x.length + 1) ∧ j + n < m
  | .delete i n => i + n < m
  | .lower i n => i + n < m ∧ Determinate s.text i n
  | .upper i n => i + n < m ∧ Determinate s.text i n
  | .resize n => SFitsW m (n + 1)
  | .reserve c => c < m
  | .setChar i _ => i < m
  | _ => True

/-- Every operation of the history is in the domain, whatever the unspecified characters are. -/
inductive SAllInDomainW (m : Nat) (P : Params) : SState → List SOp → Prop where
  | nil (s : SState) : SAllInDomainW m P s []
  | cons {s : SState} {op : SOp} {ops : List SOp} (h : SInDomainW m s op)
      (t : ∀ junk, junk.length = sjunkLen s op → SAllInDomainW m P (sstep P junk s op).2 ops) :
      SAllInDomainW m P s (op :: ops)

/-- Strings that a program can obtain on a target whose `size_t` has `m` values (compare `SReach`). -/
inductive SReachW (m : Nat) : Params → Str → Prop where
  | init {P : Params} {w w' : World Byte} {cap a : Nat} {st : Status} {t : Str} (hw : Fresh w)
      (hr : Reliable w)
      (hP : P.allocator = some a ∧ P.growth ≤ 255 ∧ P.thr ≤ 255 ∧ P.esz = 1 ∧ P.dtor = false)
      (hc : max 32 cap + 1 < m) (hm : 255 < m)
      (h : strInitExW m w cap (some a) P.growth P.thr = .ret (st, some t, w')) : SReachW m P t
  | initBuffer {P : Params} {w : World Byte} {cap : Nat} {b : Block Byte} {st : Status} {t : Str}
      (hw : Fresh w) (hr : Reliable w)
      (hP : P.allocator = none ∧ P.growth = 1 ∧ P.thr = 0 ∧ P.esz = 1 ∧ P.dtor = false)
      (hb : cap ≤ b.cells.length) (hm : 255 < m)
      (h : strInitBufferW m w (some b) cap = .ret (st, some t)) : SReachW m P t
  | dup {P : Params} {w w' : World Byte} {x : List (Cell Byte)} {cap a : Nat} {st : Status} {t : Str}
      (hw : Fresh w) (hr : Reliable w)
      (hP : P.allocator = some a ∧ P.growth ≤ 255 ∧ P.thr ≤ 255 ∧ P.esz = 1 ∧ P.dtor = false)
      (hc : max 32 cap + 1 < m) (hx : SFitsW m (x.length + 1))
      (h : strDuplicateExW m w (textView x) cap (some a) P.growth P.thr = .ret (st, some t, w')) :
      SReachW m P t
  | dupBuffer {P : Params} {w : World Byte} {x : List (Cell Byte)} {cap : Nat} {b : Block Byte}
      {st : Status} {t : Str} (hw : Fresh w) (hr : Reliable w)
      (hP : P.allocator = none ∧ P.growth = 1 ∧ P.thr = 0 ∧ P.esz = 1 ∧ P.dtor = false)
      (hb : cap ≤ b.cells.length) (hx : SFitsW m (x.length + 1))
      (h : strDuplicateBufferW m w (textView x) (some b) cap = .ret (st, some t)) : SReachW m P t
  | concat {P : Params} {w w' : World Byte} {x y : List (Cell Byte)} {cap a : Nat} {st : Status}
      {t : Str} (hw : Fresh w) (hr : Reliable w)
      (hP : P.allocator = some a ∧ P.growth ≤ 255 ∧ P.thr ≤ 255 ∧ P.esz = 1 ∧ P.dtor = false)
      (hc : max 32 cap + 1 < m) (hx : SFitsW m (x.length + y.length + 1))
      (h : strConcatExW m w (textView x) (textView y) cap (some a) P.growth P.thr =
        .ret (st, some t, w')) : SReachW m P t
  | concatBuffer {P : Params} {w : World Byte} {x y : List (Cell Byte)} {cap : Nat} {b : Block Byte}
      {st : Status} {t : Str} (hw : Fresh w) (hr : Reliable w)
      (hP : P.allocator = none ∧ P.growth = 1 ∧ P.thr = 0 ∧ P.esz = 1 ∧ P.dtor = false)
      (hb : cap ≤ b.cells.length) (hx : SFitsW m (x.length + y.length + 1))
      (h : strConcatBufferW m w (textView x) (textView y) (some b) cap = .ret (st, some t)) : SReachW m P t
  | step {P : Params} {t t' : Str} {st : Status} {op : SOp} (h : SReachW m P t)
      (hd : SInDomainW m (sabsOf t) op) (hs : strOpW m t op = .ret (st, t')) : SReachW m P t'
  | decU {P : Params} {t t' : Str} {st : Status} {regs64 : Bool} {value padding : Nat} (h : SReachW m P t)
      (hv : value < 18446744073709551616) (hp : padding ≤ 255) (hf : SFitsW m ((textOf t).length + 300))
      (hs : strAppendDecUW m regs64 t value padding = .ret (st, t')) : SReachW m P t'
  | hexU {P : Params} {t t' : Str} {st : Status} {regs64 : Bool} {value padding : Nat} {upper : Bool}
      (h : SReachW m P t) (hv : value < 18446744073709551616) (hp : padding ≤ 255)
      (hf : SFitsW m ((textOf t).length + 300)) (hc : t.s.v.cap < m)
      (hs : strAppendHexUW m regs64 t value padding upper = .ret (st, t')) : SReachW m P t'
  | decS {P : Params} {t t' : Str} {st : Status} {regs64 : Bool} {value : BitVec 64} {padding : Nat}
      {forceSign : Bool} {pre : Option View} {x : List Byte} (h : SReachW m P t) (hp : padding ≤ 255)
      (hx : PrefixShows pre x) (hf : SFitsW m ((textOf t).length + x.length + 301)) (hc : t.s.v.cap < m)
      (hs : strAppendDecSW m regs64 t value padding forceSign pre = .ret (st, t')) : SReachW m P t'
  | hexS {P : Params} {t t' : Str} {st : Status} {regs64 : Bool} {value : BitVec 64} {padding : Nat}
      {upper forceSign : Bool} {pre : Option View} {x : List Byte} (h : SReachW m P t) (hp : padding ≤ 255)
      (hx : PrefixShows pre x) (hf : SFitsW m ((textOf t).length + x.length + 301)) (hc : t.s.v.cap < m)
      (hs : strAppendHexSW m regs64 t value padding upper forceSign pre = .ret (st, t')) : SReachW m P t'

end Zy
