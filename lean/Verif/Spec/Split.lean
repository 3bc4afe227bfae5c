import Verif.Spec.Replace

/-!
# Specification: splitting a text at a separator and joining pieces

Two programs: one searches a separator with `ZyanStringLPosEx` again and again and notes where the pieces between the
separators are; the other appends pieces with `ZyanStringAppendEx` and a separator between them with
`ZyanStringAppend`.
-/

namespace Zy

/-- The program that splits: positions and lengths of the pieces of `v` from position `i` on, in at most `fuel` rounds
(`ZyanStringLPosEx`: src/String.c lines 566-618). -/
def splitLoop (v x : View) : Nat → Nat → Out (Status × List (Nat × Nat))
  | 0, _ => .ub .diverge
  | fuel + 1, i =>
    (strLPosEx v x i (viewGetSize v - i)).bind fun r =>
      if r.1 = stFalse then .ret (stSuccess, [(i, viewGetSize v - i)])
      else if failed r.1 then .ret (r.1, [])
      else match r.2 with
        | none => .ub .indet
        | some p =>
          (splitLoop v x fuel (p.toNat + viewGetSize x)).bind fun q => .ret (q.1, (i, p.toNat - i) :: q.2)

/-- The program that joins: append the pieces of `v` to the string with `y` between them (`ZyanStringAppendEx`:
src/String.c lines 469-490, `ZyanStringAppend`: src/String.c lines 453-467). -/
def joinLoop (v y : View) : Str → List (Nat × Nat) → Out (Status × Str)
  | t, [] => .ret (stSuccess, t)
  | t, [r] => strAppendEx t v r.1 r.2
  | t, r :: rest =>
    (strAppendEx t v r.1 r.2).bind fun a =>
      if failed a.1 then .ret a
      else (strAppend a.2 y).bind fun b => if failed b.1 then .ret b else joinLoop v y b.2 rest

namespace Spec

/-- `ps` are the pieces of a text between the occurrences of `x`, taken from the left and without overlaps. -/
inductive Split (x : List Byte) : List Byte → List (List Byte) → Prop where
  | last {h : List Byte} (hn : ∀ a b, h ≠ a ++ x ++ b) : Split x h [h]
  | more {a b : List Byte} {ps : List (List Byte)}
      (hl : ∀ a' b', a ++ x ++ b = a' ++ x ++ b' → a.length ≤ a'.length) (t : Split x b ps) :
      Split x (a ++ x ++ b) (a :: ps)

/-- Pieces with `y` between them. -/
def joined (y : List Byte) : List (List Byte) → List Byte
  | [] => []
  | [a] => a
  | a :: l => a ++ y ++ joined y l

/-- The piece at a position with a length. -/
def pieceAt (s : List Byte) (r : Nat × Nat) : List Byte := (s.drop r.1).take r.2

end Spec

end Zy
