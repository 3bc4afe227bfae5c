import Verif.Spec.VectorRun
import Verif.Spec.VectorSorted

/-!
# Specification: a sorted vector used as a dictionary

`dictRun` is the usual client program: it looks for the place of an entry with `ZyanVectorBinarySearch` and then sets,
inserts, deletes or reads at this place. `dictAnswers` is what a dictionary answers, which is given as a function from
keys to entries. Keys are themselves elements; entries whose comparison is zero have the same key.
-/

namespace Zy

variable {α : Type}

/-- Commands of a client of a dictionary. -/
inductive DictCmd (β : Type) where
  | store (x : β)
  | discard (k : β)
  | lookup (k : β)

namespace Spec

variable {β : Type}

/-- The entries after a command. -/
def dictAfter (cmp : β → β → Int) (m : β → Option β) : DictCmd β → β → Option β
  | .store x => fun k => if cmp x k = 0 then some x else m k
  | .discard k' => fun k => if cmp k' k = 0 then none else m k
  | .lookup _ => m

/-- The answers to the lookups of a program. -/
def dictAnswers (cmp : β → β → Int) (m : β → Option β) : List (DictCmd β) → List (Option β)
  | [] => []
  | .lookup k :: cs => m k :: dictAnswers cmp m cs
  | c :: cs => dictAnswers cmp (dictAfter cmp m c) cs

/-- The entry for a key in a list. -/
def entryIn (cmp : β → β → Int) (es : List β) (k : β) : Option β := es.find? fun x => cmp x k == 0

/-- Every element of the list is below all later ones. -/
def StrictlyAscending (cmp : β → β → Int) (l : List β) : Prop := l.Pairwise fun x y => cmp x y < 0

end Spec

/-- One command as calls of the library: the status, the vector, and the answer of a lookup. -/
def dictCmd (cmp : Cell α → Cell α → Int) (s : VS α) :
    DictCmd (Cell α) → Out (Status × VS α × List (Option (Cell α)))
  | .store x =>
    (vecBinarySearch s fun y => cmp y x).bind fun r =>
    match r.2.1 with
    | none => .ub .indet
    | some p =>
      (if r.1 = stTrue then vecSet s p (.ext [x]) else vecInsert s p (.ext [x])).bind fun q => .ret (q.1, q.2, [])
  | .discard k =>
    (vecBinarySearch s fun y => cmp y k).bind fun r =>
    match r.2.1 with
    | none => .ub .indet
    | some p =>
      if r.1 = stTrue then (vecDelete s p).bind fun q => .ret (q.1, q.2, []) else .ret (stSuccess, s, [])
  | .lookup k =>
    (vecBinarySearch s fun y => cmp y k).bind fun r =>
    match r.2.1 with
    | none => .ub .indet
    | some p =>
      if r.1 = stTrue then
        match vecGet s p with
        | none => .ub .null
        | some i => (vecDeref s i).bind fun x => .ret (stSuccess, s, [some x])
      else .ret (stSuccess, s, [none])

/-- A program: it stops at the first call that fails. The result are the answers of the lookups. -/
def dictRun (cmp : Cell α → Cell α → Int) (s : VS α) :
    List (DictCmd (Cell α)) → Out (Status × VS α × List (Option (Cell α)))
  | [] => .ret (stSuccess, s, [])
  | c :: cs =>
    (dictCmd cmp s c).bind fun r =>
    if failed r.1 then .ret r
    else (dictRun cmp r.2.1 cs).bind fun q => .ret (q.1, q.2.1, r.2.2 ++ q.2.2)

end Zy
