import Verif.Spec.ArgParseRun

/-!
# Specification: how arguments are written

The ways of writing arguments that tests/ArgParse.cpp uses, as rules: what a user types, and what is meant. There is no
parser here, and nothing is decided from left to right.
-/

namespace Zy.Spec

open Zy

/-- The definition number `j` has the name `n`, and is the first one with it; it is a flag or takes a value. -/
def Named (D : List ArgDef) (n : Tok) (flag : Bool) (j : Nat) : Prop :=
  ∃ d, D[j]? = some d ∧ d.name = n ∧ d.boolean = flag ∧ ∀ k, k < j → ∀ e, D[k]? = some e → e.name ≠ n

/-- Single characters that name the flags with the given numbers. -/
inductive FlagChars (D : List ArgDef) : List Byte → List Nat → Prop where
  | nil : FlagChars D [] []
  | cons {c : Byte} {j : Nat} {cs : List Byte} {js : List Nat} (h : Named D (dash ++ [c]) true j)
      (hs : FlagChars D cs js) : FlagChars D (c :: cs) (j :: js)

/-- `Written D ts is`: the tokens `ts` are a way to write the arguments `is`. -/
inductive Written (D : List ArgDef) : List Tok → List Item → Prop where
  | nil : Written D [] []
  /-- `woof.moo` -/
  | plain {t : Tok} {ts : List Tok} {is : List Item} (ht : t = dash ∨ ¬ dash <+: t) (h : Written D ts is) :
      Written D (t :: ts) (.plain t :: is)
  /-- `--help` -/
  | longFlag {t : Tok} {j : Nat} {ts : List Tok} {is : List Item} (hd : dashDash <+: t) (hn : t ≠ dashDash)
      (hj : Named D t true j) (h : Written D ts is) : Written D (t :: ts) (.opt j none :: is)
  /-- `--stuff 1337` -/
  | longValue {t v : Tok} {j : Nat} {ts : List Tok} {is : List Item} (hd : dashDash <+: t) (hn : t ≠ dashDash)
      (hj : Named D t false j) (h : Written D ts is) : Written D (t :: v :: ts) (.opt j (some v) :: is)
  /-- `-aio42`: flags, an option, its value -/
  | attached {cs v : List Byte} {js : List Nat} {c : Byte} {j : Nat} {ts : List Tok} {is : List Item}
      (hf : FlagChars D cs js) (hm : (cs ++ [c]).head? ≠ some 45#8) (hj : Named D (dash ++ [c]) false j) (hv : v ≠ [])
      (h : Written D ts is) :
      Written D ((dash ++ cs ++ [c] ++ v) :: ts) (js.map (fun k => .opt k none) ++ .opt j (some v) :: is)
  /-- `-an xxx`: flags, an option, and its value as the next token -/
  | next {cs : List Byte} {v : Tok} {js : List Nat} {c : Byte} {j : Nat} {ts : List Tok} {is : List Item}
      (hf : FlagChars D cs js) (hm : (cs ++ [c]).head? ≠ some 45#8) (hj : Named D (dash ++ [c]) false j)
      (h : Written D ts is) :
      Written D ((dash ++ cs ++ [c]) :: v :: ts) (js.map (fun k => .opt k none) ++ .opt j (some v) :: is)

end Zy.Spec
