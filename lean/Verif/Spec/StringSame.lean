import Verif.Spec.String

/-!
# Specification: a text without storage

`textStep` says what an operation does to a sequence of characters that has no storage: the status and the characters
afterwards.
-/

namespace Zy.Spec

open Zy

/-- What an operation does to a text. As in `sstep`, insertions accept the position one behind the end as the end. -/
def textStep (t : List (Cell Byte)) : SOp → Status × List (Cell Byte)
  | .append x => (stSuccess, t ++ x)
  | .appendEx x j n => if j + n ≤ x.length then (stSuccess, t ++ (x.drop j).take n) else (stOutOfRange, t)
  | .insert i x =>
    if i = t.length + 1 then (stSuccess, t ++ x)
    else if i ≤ t.length then
      if x = [] then (stInvalidArgument, t) else (stSuccess, t.take i ++ x ++ t.drop i)
    else (stOutOfRange, t)
  | .insertEx i x j n =>
    if j + n ≤ x.length then
      if i = t.length + 1 then (stSuccess, t ++ (x.drop j).take n)
      else if i ≤ t.length then
        if n = 0 then (stInvalidArgument, t) else (stSuccess, t.take i ++ (x.drop j).take n ++ t.drop i)
      else (stOutOfRange, t)
    else (stOutOfRange, t)
  | .delete i n =>
    if i + n ≤ t.length then
      if n = 0 then (stInvalidArgument, t) else (stSuccess, t.take i ++ t.drop (i + n))
    else (stOutOfRange, t)
  | .truncate i =>
    if i < t.length then (stSuccess, t.take i)
    else if i = t.length then (stInvalidArgument, t) else (stOutOfRange, t)
  | .clear => (stSuccess, [])
  | .setChar i c => if i < t.length then (stSuccess, t.set i (some c)) else (stOutOfRange, t)
  | .lower i n => if i + n ≤ t.length then (stSuccess, mapRange lowerChar t i n) else (stOutOfRange, t)
  | .upper i n => if i + n ≤ t.length then (stSuccess, mapRange upperChar t i n) else (stOutOfRange, t)
  | .resize n => (stSuccess, t.take n)
  | .reserve _ => (stSuccess, t)
  | .shrinkToFit => (stSuccess, t)

/-- A history: the statuses and the characters at the end. -/
def textRun (t : List (Cell Byte)) : List SOp → List Status × List (Cell Byte)
  | [] => ([], t)
  | op :: ops =>
    let r := textStep t op
    let q := textRun r.2 ops
    (r.1 :: q.1, q.2)

/-- How many bytes an operation needs, with the terminator. -/
def textDemand (t : List (Cell Byte)) : SOp → Nat
  | .append x => t.length + x.length + 1
  | .appendEx _ _ n => t.length + n + 1
  | .insert _ x => t.length + x.length + 1
  | .insertEx _ _ _ n => t.length + n + 1
  | .reserve c => c
  | _ => 0

/-- Histories for a string with `room` bytes (`none`: with an allocator): the arguments are in the domain of the library
(`SInDomain`), resizing only makes the text shorter, and no operation needs more bytes than there are. -/
def TextOK (room : Option Nat) : List (Cell Byte) → List SOp → Prop
  | _, [] => True
  | t, op :: ops =>
    SInDomain ⟨t, 0⟩ op ∧ (∀ n, op = .resize n → n ≤ t.length) ∧ (∀ cap, room = some cap → textDemand t op ≤ cap) ∧
      TextOK room (textStep t op).2 ops

end Zy.Spec
