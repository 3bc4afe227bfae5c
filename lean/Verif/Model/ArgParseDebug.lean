import Verif.Model.ArgParse
import Verif.Model.VectorDebug

/-!
# Model of src/ArgParse.c in a build with assertions

The parts of `ZyanArgParseEx` that reach a `ZYAN_ASSERT` in src/Vector.c. A failed assertion is the outcome
`.ub .assertion`.

Simplifications: as in `Model/ArgParse.lean` and `Model/VectorDebug.lean`; the object pointers of
src/ArgParse.c lines 49 and 50 are not null.
-/

namespace Zy

/-- `ZyanVectorEmplace(parsed, &parsed_arg, NULL)` followed by the `memset`: src/ArgParse.c lines 107-109,
157-159 and 220-222. -/
def newArgD (s : VS AArg) : Out (Status × VS AArg) :=
  (vecEmplaceExD s s.v.size none).bind fun r =>
  if failed r.1 then .ret r
  else
    withData r.2.v.data fun b =>
    (writeRange b.cells s.v.size [some zeroArg]).bind fun cs =>
    .ret (stSuccess, { r.2 with v := { r.2.v with data := some { b with cells := cs } } })

/-- A regular double-dash argument: src/ArgParse.c lines 104-144. -/
def longArgD (cfg : ArgConfig) (cur : List Byte) (s : VS AArg) (i : Nat) : Out Ctl :=
  (newArgD s).bind fun r =>
  if failed r.1 then .ret (.quit r.1 r.2)
  else
    (findLong (strMem cur) 0 cfg.args).bind fun f =>
    match f with
    | none => .ret (.fail stArgNotUnderstood cur r.2)
    | some (j, d) =>
      (modArg r.2 fun x => { x with defn := some j }).bind fun s =>
      if d.boolean then .ret (.cont s i) else takeNext cfg cur s i

/-- The loop over the characters of a single-dash token: src/ArgParse.c lines 154-207. -/
def shortLoopD (cfg : ArgConfig) (cur : List Byte) (i : Nat) : Nat → VS AArg → Nat → Out Ctl
  | 0, _, _ => .ub .diverge
  | fuel + 1, s, k =>
    (rdChar (strMem cur) k).bind fun c =>
    if c = 0#8 then .ret (.fall s i)
    else
      (newArgD s).bind fun r =>
      if failed r.1 then .ret (.quit r.1 r.2)
      else
        (findShort c 0 cfg.args).bind fun f =>
        match f with
        | none => .ret (.fail stArgNotUnderstood cur r.2)
        | some (j, d) =>
          (modArg r.2 fun x => { x with defn := some j }).bind fun s =>
          if d.boolean then shortLoopD cfg cur i fuel s (k + 1)
          else
            (rdChar (strMem cur) (k + 1)).bind fun n =>
            if n ≠ 0#8 then
              (putValue s ((strMem cur).drop (k + 1))).bind fun r =>
              if failed r.1 then .ret (.quit r.1 r.2) else .ret (.cont r.2 i)
            else takeNext cfg cur s i

/-- An unnamed argument: src/ArgParse.c lines 210-224. -/
def unnamedArgD (cfg : ArgConfig) (cur : List Byte) (s : VS AArg) (i num : Nat) : Out Ctl :=
  if num > cfg.maxUnnamed then .ret (.fail stTooManyArgs cur s)
  else
    (newArgD s).bind fun r =>
    if failed r.1 then .ret (.quit r.1 r.2)
    else
      (putValue r.2 (strMem cur)).bind fun r =>
      if failed r.1 then .ret (.quit r.1 r.2) else .ret (.cont r.2 i)

/-- One token: src/ArgParse.c lines 92-226. -/
def argTokenD (cfg : ArgConfig) (p : PState) : Out LoopRes :=
  (argvAt cfg p.i).bind fun cur =>
  (cStrlen (strMem cur)).bind fun len =>
  (if p.accept ∧ len ≥ 2 then startsDashDash (strMem cur) else .ret false).bind fun dd =>
  if dd then
    if len = 2 then .ret (.done { p with accept := false })
    else (longArgD cfg cur p.s p.i).bind (finishTok p.num p.accept)
  else
    (if p.accept ∧ len > 1 then (rdChar (strMem cur) 0).bind fun c => .ret (c == chDash)
      else .ret false).bind fun sd =>
    (if sd then shortLoopD cfg cur p.i len p.s 1 else .ret (.fall p.s p.i)).bind fun c =>
    match c with
    | .fall s i =>
      let num := add64 p.num 1
      (unnamedArgD cfg cur s i num).bind (finishTok num p.accept)
    | c => finishTok p.num p.accept c

/-- The main loop: src/ArgParse.c lines 90-227. -/
def argLoopD (cfg : ArgConfig) : Nat → PState → Out LoopRes
  | 0, p => if p.i < cfg.argc then .ub .diverge else .ret (.done p)
  | fuel + 1, p =>
    if p.i < cfg.argc then
      (argTokenD cfg p).bind fun r =>
      match r with
      | .done p => argLoopD cfg fuel { p with i := p.i + 1 }
      | r => .ret r
    else .ret (.done p)

/-- The inner loop of the check for required arguments: src/ArgParse.c lines 245-258. -/
def argFoundD (s : VS AArg) (j : Nat) (i : Nat) : Nat → Out (Status × Bool)
  | 0 => .ret (stSuccess, false)
  | n + 1 =>
    (vecGetPointerD s i).bind fun r =>
    if failed r.1 then .ret (r.1, false)
    else match r.2 with
      | none => .ub .null
      | some q =>
        (vecDeref s q).bind fun x =>
        match x with
        | none => .ub .indet
        | some x => if x.defn = some j then .ret (stSuccess, true) else argFoundD s j (i + 1) n

/-- The check for required arguments: src/ArgParse.c lines 238-266. -/
def requiredLoopD (s : VS AArg) (j : Nat) : List ArgDef → Out (Status × Option (List Byte))
  | [] => .ret (stSuccess, none)
  | d :: ds =>
    if !d.required then requiredLoopD s (j + 1) ds
    else
      (argFoundD s j 0 (vecGetSize s)).bind fun r =>
      if failed r.1 then .ret (r.1, none)
      else if r.2 then requiredLoopD s (j + 1) ds else .ret (stSuccess, some d.name)

/-- The label `failure`: src/ArgParse.c lines 272-274. -/
def argFailD (err : Status) (tok : ErrTok) (s : VS AArg) : Out ArgResult :=
  (vecDestroyD s).bind fun r =>
  if failed r.1 then .ret ⟨r.1, tok, some r.2.v, r.2.w⟩ else .ret ⟨err, tok, some r.2.v, r.2.w⟩

/-- `ZyanArgParseEx`: src/ArgParse.c lines 44-277. -/
def argParseExD (w : World AArg) (cfg : ArgConfig) (want : Bool) (allocator : Option Nat) :
    Out ArgResult :=
  if cfg.minUnnamed > cfg.maxUnnamed then .ret ⟨stInvalidArgument, .untouched, none, w⟩
  else
    (defsSyntaxOk cfg.args).bind fun ok =>
    if !ok then .ret ⟨stInvalidArgument, .untouched, none, w⟩
    else
      let r := vecInitEx w argSize cfg.argc false allocator 2 4
      if failed r.1 then .ret ⟨r.1, .untouched, r.2.1, r.2.2⟩
      else match r.2.1 with
        | none => .ub .indet
        | some v =>
          (argLoopD cfg cfg.argc ⟨⟨v, r.2.2⟩, 1, true, 0⟩).bind fun l =>
          match l with
          | .fail e t s => argFailD e (errTok want (.ptr t)) s
          | .quit st s => .ret ⟨st, .untouched, some s.v, s.w⟩
          | .done p =>
            if p.num < cfg.minUnnamed then argFailD stTooFewArgs .untouched p.s
            else
              (requiredLoopD p.s 0 cfg.args).bind fun q =>
              if failed q.1 then .ret ⟨q.1, .untouched, some p.s.v, p.s.w⟩
              else match q.2 with
                | some name => argFailD stRequiredArgMissing (errTok want (.ptr name)) p.s
                | none => .ret ⟨stSuccess, errTok want .null, some p.s.v, p.s.w⟩

end Zy
