import Verif.Model.ArgTypes
import Verif.Model.String

/-!
# Model of src/ArgParse.c

Simplifications, stated once for the whole file:

* A C string is its characters (`List Byte`); its memory is these characters followed by a NUL.
  Reading behind the NUL is undefined behaviour.
* A pointer to a definition is its index in the definition array. A pointer to a string (error token,
  value view) is the memory starting there.
* `cfg`, `parsed` and the array `argv` are not null. `ZYAN_ASSERT`s are not aborts.
* The element struct is one memory cell. `sizeof(ZyanArgParseArg)` is 80 (LP64 layout).
* The test `!def->name` inside the syntax loop (src/ArgParse.c lines 65-68) is dead code, because the loop
  condition already checked it; it is left out.
-/

namespace Zy

/-- The character `-`. -/
def chDash : Byte := 45#8

/-- The memory of a C string: its characters and the terminating NUL. -/
def strMem (t : List Byte) : List (Cell Byte) := t.map some ++ [some 0#8]

/-- `ZyanArgParseArg`: include/Zycore/ArgParse.h lines 104-122. `value = none` is the zeroed view. -/
structure AArg where
  defn : Option Nat
  hasValue : Bool
  value : Option View
deriving DecidableEq, Repr

/-- `ZYAN_MEMSET(parsed_arg, 0, sizeof(*parsed_arg))`: the zeroed struct. -/
def zeroArg : AArg := ⟨none, false, none⟩

/-- `sizeof(ZyanArgParseArg)`. -/
def argSize : Nat := 80

/-- What `*error_token` holds after the call: it was not written, or null, or a pointer to a string. -/
inductive ErrTok where
  | untouched
  | null
  | ptr (t : List Byte)
deriving DecidableEq, Repr

/-- Result of the parser: status, error token, the output vector (`none` if `ZyanVectorInitEx` did not
write it) and the environment. -/
structure ArgResult where
  status : Status
  tok : ErrTok
  vec : Option (Vec AArg)
  w : World AArg

/-- How a piece of the parser ends: it falls through to the code below (`fall`), jumps to the next
token (`cont`), jumps to `failure` with an error and an error token (`fail`), or returns from the
function at once through `ZYAN_CHECK` (`quit`). The number is the token index `i`. -/
inductive Ctl where
  | fall (s : VS AArg) (i : Nat)
  | cont (s : VS AArg) (i : Nat)
  | fail (err : Status) (tok : List Byte) (s : VS AArg)
  | quit (st : Status) (s : VS AArg)

/-! ## Library calls -/

/-- `ZYAN_STRCMP(a, b) == 0` as required by the C standard: reads both strings up to the first
difference or the NUL. -/
def cStrEq : List (Cell Byte) → List (Cell Byte) → Out Bool
  | [], _ => .ub .oob
  | _, [] => .ub .oob
  | none :: _, _ => .ub .indet
  | _, none :: _ => .ub .indet
  | some a :: as, some b :: bs =>
    if a ≠ b then .ret false else if a = 0#8 then .ret true else cStrEq as bs

/-- `ZYAN_MEMCMP(cur_arg, "--", 2) == 0`: src/ArgParse.c line 96. -/
def startsDashDash (mem : List (Cell Byte)) : Out Bool :=
  (rdChar mem 0).bind fun a => (rdChar mem 1).bind fun b => .ret (a == chDash && b == chDash)

/-! ## Definitions -/

/-- The syntax check of one definition: src/ArgParse.c lines 70-80 (`true` if it is accepted). -/
def defSyntaxOk (d : ArgDef) : Out Bool :=
  (cStrlen (strMem d.name)).bind fun n =>
  if n < 2 then .ret false
  else
    (rdChar (strMem d.name) 0).bind fun c0 =>
    if c0 ≠ chDash then .ret false
    else
      (rdChar (strMem d.name) 1).bind fun c1 =>
      .ret (!(c1 != chDash && n != 2))

/-- The loop over all definitions: src/ArgParse.c lines 61-81. -/
def defsSyntaxOk : List ArgDef → Out Bool
  | [] => .ret true
  | d :: ds => (defSyntaxOk d).bind fun ok => if ok then defsSyntaxOk ds else .ret false

/-- The search for a long option: src/ArgParse.c lines 112-119; `j` is the index of the first
definition of the list. -/
def findLong (cur : List (Cell Byte)) (j : Nat) : List ArgDef → Out (Option (Nat × ArgDef))
  | [] => .ret none
  | d :: ds =>
    (cStrEq (strMem d.name) cur).bind fun eq =>
    if eq then .ret (some (j, d)) else findLong cur (j + 1) ds

/-- The search for a single-dash option: src/ArgParse.c lines 162-171. -/
def findShort (c : Byte) (j : Nat) : List ArgDef → Out (Option (Nat × ArgDef))
  | [] => .ret none
  | d :: ds =>
    (cStrlen (strMem d.name)).bind fun n =>
    (if n = 2 then
      (rdChar (strMem d.name) 0).bind fun c0 =>
      if c0 = chDash then (rdChar (strMem d.name) 1).bind fun c1 => .ret (c1 == c) else .ret false
    else .ret false).bind fun hit =>
    if hit then .ret (some (j, d)) else findShort c (j + 1) ds

/-! ## The output vector -/

/-- `ZyanVectorEmplace(parsed, &parsed_arg, NULL)` followed by the `memset`: src/ArgParse.c lines 107-109,
157-159 and 220-222. The pointer `parsed_arg` denotes the slot that was the size before the call. -/
def newArg (s : VS AArg) : Out (Status × VS AArg) :=
  (vecEmplace s none).bind fun r =>
  if failed r.1 then .ret r
  else
    withData r.2.v.data fun b =>
    (writeRange b.cells s.v.size [some zeroArg]).bind fun cs =>
    .ret (stSuccess, { r.2 with v := { r.2.v with data := some { b with cells := cs } } })

/-- Assignment to fields of `*parsed_arg`, the last element of the vector: src/ArgParse.c lines 116, 138-139,
168, 187-188, 200-201 and 223-224. `f` changes the assigned fields and leaves the others alone. -/
def modArg (s : VS AArg) (f : AArg → AArg) : Out (VS AArg) :=
  withData s.v.data fun b =>
  match b.cells[sub64 s.v.size 1]? with
  | none => .ub .oob
  | some none => .ub .indet
  | some (some x) =>
    (writeRange b.cells (sub64 s.v.size 1) [some (f x)]).bind fun cs =>
    .ret { s with v := { s.v with data := some { b with cells := cs } } }

/-- `has_value = TRUE; ZYAN_CHECK(ZyanStringViewInsideBuffer(&parsed_arg->value, p))`: src/ArgParse.c
lines 138-139, 187-188, 200-201 and 223-224. -/
def putValue (s : VS AArg) (p : List (Cell Byte)) : Out (Status × VS AArg) :=
  (modArg s fun x => { x with hasValue := true }).bind fun s =>
  (viewInsideBuffer p).bind fun r =>
  if failed r.1 then .ret (r.1, s)
  else (modArg s fun x => { x with value := some r.2 }).bind fun s => .ret (stSuccess, s)

/-- `cfg->argv[i]`. -/
def argvAt (cfg : ArgConfig) (i : Nat) : Out (List Byte) :=
  match cfg.argv[i]? with
  | none => .ub .oob
  | some t => .ret t

/-! ## The parser -/

/-- Taking the next token as a value: src/ArgParse.c lines 130-140 and 190-202. -/
def takeNext (cfg : ArgConfig) (cur : List Byte) (s : VS AArg) (i : Nat) : Out Ctl :=
  if i = sub64 cfg.argc 1 then .ret (.fail stArgMissesValue cur s)
  else
    (argvAt cfg (i + 1)).bind fun v =>
    (putValue s (strMem v)).bind fun r =>
    if failed r.1 then .ret (.quit r.1 r.2) else .ret (.cont r.2 (i + 1))

/-- A regular double-dash argument: src/ArgParse.c lines 104-144. The test `!parsed_arg->def` of line 122
(and line 174 below) is written as a test of the search result: the field was zeroed before. -/
def longArg (cfg : ArgConfig) (cur : List Byte) (s : VS AArg) (i : Nat) : Out Ctl :=
  (newArg s).bind fun r =>
  if failed r.1 then .ret (.quit r.1 r.2)
  else
    (findLong (strMem cur) 0 cfg.args).bind fun f =>
    match f with
    | none => .ret (.fail stArgNotUnderstood cur r.2)
    | some (j, d) =>
      (modArg r.2 fun x => { x with defn := some j }).bind fun s =>
      if d.boolean then .ret (.cont s i) else takeNext cfg cur s i

/-- The loop over the characters of a single-dash token: src/ArgParse.c lines 154-207; `k` is
`read_ptr - cur_arg`. -/
def shortLoop (cfg : ArgConfig) (cur : List Byte) (i : Nat) : Nat → VS AArg → Nat → Out Ctl
  | 0, _, _ => .ub .diverge
  | fuel + 1, s, k =>
    (rdChar (strMem cur) k).bind fun c =>
    if c = 0#8 then .ret (.fall s i)
    else
      (newArg s).bind fun r =>
      if failed r.1 then .ret (.quit r.1 r.2)
      else
        (findShort c 0 cfg.args).bind fun f =>
        match f with
        | none => .ret (.fail stArgNotUnderstood cur r.2)
        | some (j, d) =>
          (modArg r.2 fun x => { x with defn := some j }).bind fun s =>
          if d.boolean then shortLoop cfg cur i fuel s (k + 1)
          else
            (rdChar (strMem cur) (k + 1)).bind fun n =>
            if n ≠ 0#8 then
              (putValue s ((strMem cur).drop (k + 1))).bind fun r =>
              if failed r.1 then .ret (.quit r.1 r.2) else .ret (.cont r.2 i)
            else takeNext cfg cur s i

/-- An unnamed argument: src/ArgParse.c lines 210-224. `num` is `num_unnamed_args` after the increment. -/
def unnamedArg (cfg : ArgConfig) (cur : List Byte) (s : VS AArg) (i num : Nat) : Out Ctl :=
  if num > cfg.maxUnnamed then .ret (.fail stTooManyArgs cur s)
  else
    (newArg s).bind fun r =>
    if failed r.1 then .ret (.quit r.1 r.2)
    else
      (putValue r.2 (strMem cur)).bind fun r =>
      if failed r.1 then .ret (.quit r.1 r.2) else .ret (.cont r.2 i)

/-- State of the main loop: vector, token index, `accept_dash_args`, `num_unnamed_args`. -/
structure PState where
  s : VS AArg
  i : Nat
  accept : Bool
  num : Nat

/-- Result of the main loop: all tokens processed, or one of the two ways to leave early. -/
inductive LoopRes where
  | done (p : PState)
  | fail (err : Status) (tok : List Byte) (s : VS AArg)
  | quit (st : Status) (s : VS AArg)

/-- The jump targets at the end of one token: src/ArgParse.c lines 144, 226 and 272. -/
def finishTok (num : Nat) (accept : Bool) (c : Ctl) : Out LoopRes :=
  match c with
  | .fall s i | .cont s i => .ret (.done ⟨s, i, accept, num⟩)
  | .fail e t s => .ret (.fail e t s)
  | .quit st s => .ret (.quit st s)

/-- One token: src/ArgParse.c lines 92-226. The resulting state has the index of the token that was
consumed last; the loop increments it. -/
def argToken (cfg : ArgConfig) (p : PState) : Out LoopRes :=
  (argvAt cfg p.i).bind fun cur =>
  (cStrlen (strMem cur)).bind fun len =>
  (if p.accept ∧ len ≥ 2 then startsDashDash (strMem cur) else .ret false).bind fun dd =>
  if dd then
    if len = 2 then .ret (.done { p with accept := false })
    else (longArg cfg cur p.s p.i).bind (finishTok p.num p.accept)
  else
    (if p.accept ∧ len > 1 then (rdChar (strMem cur) 0).bind fun c => .ret (c == chDash)
      else .ret false).bind fun sd =>
    (if sd then shortLoop cfg cur p.i len p.s 1 else .ret (.fall p.s p.i)).bind fun c =>
    match c with
    | .fall s i =>
      let num := add64 p.num 1
      (unnamedArg cfg cur s i num).bind (finishTok num p.accept)
    | c => finishTok p.num p.accept c

/-- The main loop: src/ArgParse.c lines 90-227. -/
def argLoop (cfg : ArgConfig) : Nat → PState → Out LoopRes
  | 0, p => if p.i < cfg.argc then .ub .diverge else .ret (.done p)
  | fuel + 1, p =>
    if p.i < cfg.argc then
      (argToken cfg p).bind fun r =>
      match r with
      | .done p => argLoop cfg fuel { p with i := p.i + 1 }
      | r => .ret r
    else .ret (.done p)

/-- The inner loop of the check for required arguments: src/ArgParse.c lines 245-258; `n` elements are
left, starting at index `i`. -/
def argFound (s : VS AArg) (j : Nat) (i : Nat) : Nat → Out (Status × Bool)
  | 0 => .ret (stSuccess, false)
  | n + 1 =>
    let r := vecGetPointer s i
    if failed r.1 then .ret (r.1, false)
    else match r.2 with
      | none => .ub .null
      | some q =>
        (vecDeref s q).bind fun x =>
        match x with
        | none => .ub .indet
        | some x => if x.defn = some j then .ret (stSuccess, true) else argFound s j (i + 1) n

/-- The check for required arguments: src/ArgParse.c lines 238-266; the index of the first definition of
the list is `j`. The result is the name of the missing definition. -/
def requiredLoop (s : VS AArg) (j : Nat) : List ArgDef → Out (Status × Option (List Byte))
  | [] => .ret (stSuccess, none)
  | d :: ds =>
    if !d.required then requiredLoop s (j + 1) ds
    else
      (argFound s j 0 (vecGetSize s)).bind fun r =>
      if failed r.1 then .ret (r.1, none)
      else if r.2 then requiredLoop s (j + 1) ds else .ret (stSuccess, some d.name)

/-- `ZYAN_ERR_TOK`: src/ArgParse.c line 47; `want` tells whether `error_token` is non-null. -/
def errTok (want : Bool) (t : ErrTok) : ErrTok := if want then t else .untouched

/-- The label `failure`: src/ArgParse.c lines 272-274. -/
def argFail (err : Status) (tok : ErrTok) (s : VS AArg) : Out ArgResult :=
  (vecDestroy s).bind fun r =>
  if failed r.1 then .ret ⟨r.1, tok, some r.2.v, r.2.w⟩ else .ret ⟨err, tok, some r.2.v, r.2.w⟩

/-- `ZyanArgParseEx`: src/ArgParse.c lines 44-277. -/
def argParseEx (w : World AArg) (cfg : ArgConfig) (want : Bool) (allocator : Option Nat) :
    Out ArgResult :=
  if cfg.minUnnamed > cfg.maxUnnamed then .ret ⟨stInvalidArgument, .untouched, none, w⟩
  else
    (defsSyntaxOk cfg.args).bind fun ok =>
    if !ok then .ret ⟨stInvalidArgument, .untouched, none, w⟩
    else
      let r := vecInitEx w argSize cfg.argc false allocator 2 4
      if failed r.1 then .ret ⟨r.1, .untouched, r.2.1, r.2.2⟩
      else match r.2.1 with
        | none => .ub .indet
        | some v =>
          (argLoop cfg cfg.argc ⟨⟨v, r.2.2⟩, 1, true, 0⟩).bind fun l =>
          match l with
          | .fail e t s => argFail e (errTok want (.ptr t)) s
          | .quit st s => .ret ⟨st, .untouched, some s.v, s.w⟩
          | .done p =>
            if p.num < cfg.minUnnamed then argFail stTooFewArgs .untouched p.s
            else
              (requiredLoop p.s 0 cfg.args).bind fun q =>
              if failed q.1 then .ret ⟨q.1, .untouched, some p.s.v, p.s.w⟩
              else match q.2 with
                | some name => argFail stRequiredArgMissing (errTok want (.ptr name)) p.s
                | none => .ret ⟨stSuccess, errTok want .null, some p.s.v, p.s.w⟩

/-- `ZyanArgParse`: src/ArgParse.c lines 36-40, with allocator number 0 as the default allocator. -/
def argParse (w : World AArg) (cfg : ArgConfig) (want : Bool) : Out ArgResult :=
  argParseEx w cfg want (some 0)

end Zy
