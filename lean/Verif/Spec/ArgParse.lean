import Verif.Model.ArgTypes

/-!
# Specification of the argument parser: the command line grammar

Nothing in this file refers to the model of the code (only to the input data types). A command line is
a list of tokens; reading it produces a list of items.
-/

namespace Zy.Spec

open Zy

/-- A token of the command line: its characters. -/
abbrev Tok := List Byte

/-- The token `-`. -/
def dash : Tok := [45#8]

/-- The token `--`. -/
def dashDash : Tok := [45#8, 45#8]

/-- One parsed argument: the option with number `j`, with its value if it takes one, or an unnamed
argument. -/
inductive Item where
  | opt (j : Nat) (value : Option Tok)
  | plain (t : Tok)
deriving DecidableEq, Repr

/-- Why a command line cannot be read, with the offending token. -/
inductive ReadError where
  | unknown (t : Tok)
  | noValue (t : Tok)
deriving DecidableEq, Repr

/-- A legal option name: a dash and one more character, or two dashes and any text. -/
def legalName (n : Tok) : Prop := (n.length = 2 ∧ dash <+: n) ∨ dashDash <+: n

instance (n : Tok) : Decidable (legalName n) := by unfold legalName; infer_instance

/-- The first definition with the given name, and its number. -/
def lookup (D : List ArgDef) (n : Tok) : Option (ArgDef × Nat) := D.zipIdx.find? fun p => p.1.name == n

/-- How a cluster of single-character options ends: all of them are flags, the last one took the rest
of the token as its value, the last one (number `j`) needs the next token as its value, or a character
is not an option. -/
inductive ClusterEnd where
  | flags
  | attached
  | wants (j : Nat)
  | unknown
deriving DecidableEq, Repr

/-- Reading of a cluster (the token without its leading dash): every character is an option. Flags
are collected; the first option that takes a value takes the rest of the cluster, or the next token if
nothing is left. -/
def cluster (D : List ArgDef) : List Byte → List Item × ClusterEnd
  | [] => ([], .flags)
  | c :: cs =>
    match lookup D (dash ++ [c]) with
    | none => ([], .unknown)
    | some (d, j) =>
      if d.boolean then (.opt j none :: (cluster D cs).1, (cluster D cs).2)
      else if cs = [] then ([], .wants j)
      else ([.opt j (some cs)], .attached)

/-- What the reader expects: anything, the value of option `j` (whose token is kept for the error
message), or only unnamed arguments. -/
inductive Mode where
  | any
  | value (j : Nat) (t : Tok)
  | plainOnly
deriving DecidableEq, Repr

/-- Put items in front of a reading. -/
def prepend (is : List Item) (r : List Item × Option ReadError) : List Item × Option ReadError :=
  (is ++ r.1, r.2)

/-- The grammar. The result is the list of items up to the first error, and that error.

`quirk` selects between two readings of a cluster that consists of flags only: with `quirk = false`
(the documented grammar) it is just these flags; with `quirk = true` the token is also an unnamed
argument. -/
def reading (quirk : Bool) (D : List ArgDef) : Mode → List Tok → List Item × Option ReadError
  | .value _ t, [] => ([], some (.noValue t))
  | _, [] => ([], none)
  | .value j _, v :: ts => prepend [.opt j (some v)] (reading quirk D .any ts)
  | .plainOnly, t :: ts => prepend [.plain t] (reading quirk D .plainOnly ts)
  | .any, t :: ts =>
    if t = dashDash then reading quirk D .plainOnly ts
    else if dashDash <+: t then
      match lookup D t with
      | none => ([], some (.unknown t))
      | some (d, j) =>
        if d.boolean then prepend [.opt j none] (reading quirk D .any ts)
        else reading quirk D (.value j t) ts
    else if dash <+: t ∧ t ≠ dash then
      match cluster D t.tail with
      | (is, .flags) => prepend (is ++ if quirk then [.plain t] else []) (reading quirk D .any ts)
      | (is, .attached) => prepend is (reading quirk D .any ts)
      | (is, .wants j) => prepend is (reading quirk D (.value j t) ts)
      | (is, .unknown) => (is, some (.unknown t))
    else prepend [.plain t] (reading quirk D .any ts)

/-- The unnamed arguments among the items. -/
def plains (is : List Item) : List Tok := is.filterMap fun | .plain t => some t | .opt .. => none

/-- Whether option `j` occurs among the items. -/
def occurs (is : List Item) (j : Nat) : Bool := is.any fun | .opt k _ => k == j | .plain _ => false

/-- The first required option that is missing. -/
def firstMissing (D : List ArgDef) (is : List Item) : Option (ArgDef × Nat) :=
  D.zipIdx.find? fun p => p.1.required && !occurs is p.2

/-- The outcome of parsing: the items, or a status and the token the error is about. -/
inductive Verdict where
  | ok (is : List Item)
  | error (st : Status) (t : Option Tok)
deriving DecidableEq, Repr

/-- The outcome that the grammar and the declared limits assign to a configuration. The first token
of `argv` is the program name. -/
def verdict (quirk : Bool) (cfg : ArgConfig) : Verdict :=
  if cfg.maxUnnamed < cfg.minUnnamed ∨ ∃ d ∈ cfg.args, ¬ legalName d.name then
    .error stInvalidArgument none
  else
    match (plains (reading quirk cfg.args .any cfg.argv.tail).1)[cfg.maxUnnamed]?,
      (reading quirk cfg.args .any cfg.argv.tail).2 with
    | some t, _ => .error stTooManyArgs (some t)
    | none, some (.unknown t) => .error stArgNotUnderstood (some t)
    | none, some (.noValue t) => .error stArgMissesValue (some t)
    | none, none =>
      if (plains (reading quirk cfg.args .any cfg.argv.tail).1).length < cfg.minUnnamed then
        .error stTooFewArgs none
      else
        match firstMissing cfg.args (reading quirk cfg.args .any cfg.argv.tail).1 with
        | some p => .error stRequiredArgMissing (some p.1.name)
        | none => .ok (reading quirk cfg.args .any cfg.argv.tail).1

/-- A token that the documented grammar reads as a cluster of flags. -/
def FlagCluster (D : List ArgDef) (t : Tok) : Prop :=
  ∃ cs, t = dash ++ cs ∧ cs ≠ [] ∧ cs.head? ≠ some 45#8 ∧
    ∀ c ∈ cs, ∃ d j, lookup D (dash ++ [c]) = some (d, j) ∧ d.boolean = true

/-- What the reader expects after some tokens. -/
def modeAfter (D : List ArgDef) : Mode → List Tok → Mode
  | m, [] => m
  | .value _ _, _ :: ts => modeAfter D .any ts
  | .plainOnly, _ :: ts => modeAfter D .plainOnly ts
  | .any, t :: ts =>
    if t = dashDash then modeAfter D .plainOnly ts
    else if dashDash <+: t then
      match lookup D t with
      | some (d, j) => modeAfter D (if d.boolean then .any else .value j t) ts
      | none => modeAfter D .any ts
    else if dash <+: t ∧ t ≠ dash then
      match (cluster D t.tail).2 with
      | .wants j => modeAfter D (.value j t) ts
      | _ => modeAfter D .any ts
    else modeAfter D .any ts

/-- The item comes from the token `t`, where `next` are the tokens behind it: an option whose name is
the token, or whose character occurs in the token; a flag has no value, any other option has as its
value the next token or, for a character with something behind it, the rest of the token. Or the item
is the token itself. -/
inductive FromToken (D : List ArgDef) (t : Tok) (next : List Tok) : Item → Prop where
  | longFlag (d : ArgDef) (j : Nat) (hd : D[j]? = some d) (hn : d.name = t)
      (hb : d.boolean = true) : FromToken D t next (.opt j none)
  | longValue (d : ArgDef) (j : Nat) (v : Tok) (hd : D[j]? = some d) (hn : d.name = t)
      (hb : d.boolean = false) (hv : next.head? = some v) : FromToken D t next (.opt j (some v))
  | shortFlag (d : ArgDef) (j : Nat) (c : Byte) (pre post : List Byte) (hd : D[j]? = some d)
      (hn : d.name = dash ++ [c]) (ht : t = dash ++ pre ++ [c] ++ post) (hb : d.boolean = true) :
      FromToken D t next (.opt j none)
  | shortRest (d : ArgDef) (j : Nat) (c : Byte) (pre post : List Byte) (hd : D[j]? = some d)
      (hn : d.name = dash ++ [c]) (ht : t = dash ++ pre ++ [c] ++ post) (hb : d.boolean = false)
      (hp : post ≠ []) : FromToken D t next (.opt j (some post))
  | shortNext (d : ArgDef) (j : Nat) (c : Byte) (pre : List Byte) (v : Tok) (hd : D[j]? = some d)
      (hn : d.name = dash ++ [c]) (ht : t = dash ++ pre ++ [c]) (hb : d.boolean = false)
      (hv : next.head? = some v) : FromToken D t next (.opt j (some v))
  | itself : FromToken D t next (.plain t)

/-- An option as it is written on the command line: its name and, if it has one, its value as the
next token. -/
def render (D : List ArgDef) : Item → List Tok
  | .opt j none => [((D[j]?).map ArgDef.name).getD []]
  | .opt j (some v) => [((D[j]?).map ArgDef.name).getD [], v]
  | .plain t => [t]

/-- An option item that fits to its definition: it has a value exactly if the definition takes one, it
is the first definition of that name, and if it is a flag its name is longer than two characters. -/
def Renderable (D : List ArgDef) : Item → Prop
  | .opt j none => ∃ d, D[j]? = some d ∧ d.boolean = true ∧ dashDash <+: d.name ∧
      d.name ≠ dashDash ∧ lookup D d.name = some (d, j)
  | .opt j (some _) => ∃ d, D[j]? = some d ∧ d.boolean = false ∧ legalName d.name ∧
      d.name ≠ dashDash ∧ lookup D d.name = some (d, j)
  | .plain _ => False

end Zy.Spec
