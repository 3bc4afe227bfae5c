import Verif.Spec.StringRun

/-!
# Specification: replacing all occurrences of a text in a string

A program that searches with `ZyanStringLPosEx`, deletes what was found with `ZyanStringDelete`, inserts another
text with `ZyanStringInsert` and goes on behind it.
-/

namespace Zy

/-- The program: replace `x` by `y` in the string from position `i` on, in at most `fuel` rounds
(`ZyanStringLPosEx`: src/String.c lines 566-618, `ZyanStringDelete`: src/String.c lines 496-513,
`ZyanStringInsert`: src/String.c lines 392-415). `ZyanStringInsert` does not accept empty texts. -/
def replaceLoop (x y : View) : Nat → Str → Nat → Out (Status × Str)
  | 0, _, _ => .ub .diverge
  | fuel + 1, t, i =>
    (strLPosEx (strView t) x i (strGetSize t - i)).bind fun r =>
      if r.1 = stFalse then .ret (stSuccess, t)
      else if failed r.1 then .ret (r.1, t)
      else match r.2 with
        | none => .ub .indet
        | some p =>
          (strDelete t p.toNat (viewGetSize x)).bind fun d =>
            if failed d.1 then .ret d
            else if viewGetSize y = 0 then replaceLoop x y fuel d.2 p.toNat
            else
              (strInsert d.2 p.toNat y).bind fun e =>
                if failed e.1 then .ret e else replaceLoop x y fuel e.2 (p.toNat + viewGetSize y)

namespace Spec

/-- `r` is `h` with all occurrences of `x`, taken from the left and without overlaps, replaced by `y`. -/
inductive Replaced (x y : List Byte) : List Byte → List Byte → Prop where
  | done {h : List Byte} (hn : ∀ a b, h ≠ a ++ x ++ b) : Replaced x y h h
  | more {a b r : List Byte} (hl : ∀ a' b', a ++ x ++ b = a' ++ x ++ b' → a.length ≤ a'.length)
      (t : Replaced x y b r) : Replaced x y (a ++ x ++ b) (a ++ y ++ r)

end Spec

end Zy
