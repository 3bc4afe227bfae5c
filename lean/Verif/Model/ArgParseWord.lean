import Verif.Model.ArgParse
import Verif.Model.VectorWord

/-!
# Model of src/ArgParse.c on targets with another width of `size_t`

The functions of `Verif.Model.ArgParse` that compute with sizes, with `m` for the number of values of a
`size_t` (`2^16`, `2^32` or `2^64`) and `sz` for `sizeof(ZyanArgParseArg)`, which depends on the target as
well: the struct has a pointer, a `ZyanBool` and a string view. The loops over characters and definitions
use pointers; they are those of `Verif.Model.ArgParse`, with the simplifications stated there. The token
index `i` is below `argc`, which is a `size_t` itself, so that its increments do not wrap.
-/

namespace Zy

/-- `ZyanVectorEmplace` and the `memset`: src/ArgParse.c lines 107-109, 157-159 and 220-222; the vector
functions are src/Vector.c lines 484-529. -/
def newArgW (m : Nat) (s : VS AArg) : Out (Status × VS AArg) :=
  (vecEmplaceExW m s s.v.size none).bind fun r =>
  if failed r.1 then .ret r
  else
    withData r.2.v.data fun b =>
    (writeRange b.cells s.v.size [some zeroArg]).bind fun cs =>
    .ret (stSuccess, { r.2 with v := { r.2.v with data := some { b with cells := cs } } })

/-- Assignment to fields of the last element: src/ArgParse.c lines 116, 138-139, 168, 187-188, 200-201 and
223-224. -/
def modArgW (m : Nat) (s : VS AArg) (f : AArg → AArg) : Out (VS AArg) :=
  withData s.v.data fun b =>
  match b.cells[subW m s.v.size 1]? with
  | none => .ub .oob
  | some none => .ub .indet
  | some (some x) =>
    (writeRange b.cells (subW m s.v.size 1) [some (f x)]).bind fun cs =>
    .ret { s with v := { s.v with data := some { b with cells := cs } } }

/-- `ZyanStringViewInsideBuffer`: src/String.c lines 281-292. -/
def viewInsideBufferW (m : Nat) (mem : List (Cell Byte)) : Out (Status × View) :=
  (cStrlen mem).bind fun n => .ret (stSuccess, ⟨mem, addW m n 1⟩)

/-- The assignment of a value: src/ArgParse.c lines 138-139, 187-188, 200-201 and 223-224. -/
def putValueW (m : Nat) (s : VS AArg) (p : List (Cell Byte)) : Out (Status × VS AArg) :=
  (modArgW m s fun x => { x with hasValue := true }).bind fun s =>
  (viewInsideBufferW m p).bind fun r =>
  if failed r.1 then .ret (r.1, s)
  else (modArgW m s fun x => { x with value := some r.2 }).bind fun s => .ret (stSuccess, s)

/-- Taking the next token as a value: src/ArgParse.c lines 130-140 and 190-202. -/
def takeNextW (m : Nat) (cfg : ArgConfig) (cur : List Byte) (s : VS AArg) (i : Nat) : Out Ctl :=
  if i = subW m cfg.argc 1 then .ret (.fail stArgMissesValue cur s)
  else
    (argvAt cfg (i + 1)).bind fun v =>
    (putValueW m s (strMem v)).bind fun r =>
    if failed r.1 then .ret (.quit r.1 r.2) else .ret (.cont r.2 (i + 1))

/-- A regular double-dash argument: src/ArgParse.c lines 104-144. -/
def longArgW (m : Nat) (cfg : ArgConfig) (cur : List Byte) (s : VS AArg) (i : Nat) : Out Ctl :=
  (newArgW m s).bind fun r =>
  if failed r.1 then .ret (.quit r.1 r.2)
  else
    (findLong (strMem cur) 0 cfg.args).bind fun f =>
    match f with
    | none => .ret (.fail stArgNotUnderstood cur r.2)
    | some (j, d) =>
      (modArgW m r.2 fun x => { x with defn := some j }).bind fun s =>
      if d.boolean then .ret (.cont s i) else takeNextW m cfg cur s i

/-- The loop over the characters of a single-dash token: src/ArgParse.c lines 154-207. -/
def shortLoopW (m : Nat) (cfg : ArgConfig) (cur : List Byte) (i : Nat) :
    Nat → VS AArg → Nat → Out Ctl
  | 0, _, _ => .ub .diverge
  | fuel + 1, s, k =>
    (rdChar (strMem cur) k).bind fun c =>
    if c = 0#8 then .ret (.fall s i)
    else
      (newArgW m s).bind fun r =>
      if failed r.1 then .ret (.quit r.1 r.2)
      else
        (findShort c 0 cfg.args).bind fun f =>
        match f with
        | none => .ret (.fail stArgNotUnderstood cur r.2)
        | some (j, d) =>
          (modArgW m r.2 fun x => { x with defn := some j }).bind fun s =>
          if d.boolean then shortLoopW m cfg cur i fuel s (k + 1)
          else
            (rdChar (strMem cur) (k + 1)).bind fun n =>
            if n ≠ 0#8 then
              (putValueW m s ((strMem cur).drop (k + 1))).bind fun r =>
              if failed r.1 then .ret (.quit r.1 r.2) else .ret (.cont r.2 i)
            else takeNextW m cfg cur s i

/-- An unnamed argument: src/ArgParse.c lines 210-224. -/
def unnamedArgW (m : Nat) (cfg : ArgConfig) (cur : List Byte) (s : VS AArg) (i num : Nat) : Out Ctl :=
  if num > cfg.maxUnnamed then .ret (.fail stTooManyArgs cur s)
  else
    (newArgW m s).bind fun r =>
    if failed r.1 then .ret (.quit r.1 r.2)
    else
      (putValueW m r.2 (strMem cur)).bind fun r =>
      if failed r.1 then .ret (.quit r.1 r.2) else .ret (.cont r.2 i)

/-- One token: src/ArgParse.c lines 92-226. -/
def argTokenW (m : Nat) (cfg : ArgConfig) (p : PState) : Out LoopRes :=
  (argvAt cfg p.i).bind fun cur =>
  (cStrlen (strMem cur)).bind fun len =>
  (if p.accept ∧ len ≥ 2 then startsDashDash (strMem cur) else .ret false).bind fun dd =>
  if dd then
    if len = 2 then .ret (.done { p with accept := false })
    else (longArgW m cfg cur p.s p.i).bind (finishTok p.num p.accept)
  else
    (if p.accept ∧ len > 1 then (rdChar (strMem cur) 0).bind fun c => .ret (c == chDash)
      else .ret false).bind fun sd =>
    (if sd then shortLoopW m cfg cur p.i len p.s 1 else .ret (.fall p.s p.i)).bind fun c =>
    match c with
    | .fall s i =>
      let num := addW m p.num 1
      (unnamedArgW m cfg cur s i num).bind (finishTok num p.accept)
    | c => finishTok p.num p.accept c

/-- The main loop: src/ArgParse.c lines 90-227. -/
def argLoopW (m : Nat) (cfg : ArgConfig) : Nat → PState → Out LoopRes
  | 0, p => if p.i < cfg.argc then .ub .diverge else .ret (.done p)
  | fuel + 1, p =>
    if p.i < cfg.argc then
      (argTokenW m cfg p).bind fun r =>
      match r with
      | .done p => argLoopW m cfg fuel { p with i := p.i + 1 }
      | r => .ret r
    else .ret (.done p)

/-- `ZyanArgParseEx`: src/ArgParse.c lines 44-277. -/
def argParseExW (m sz : Nat) (w : World AArg) (cfg : ArgConfig) (want : Bool) (allocator : Option Nat) :
    Out ArgResult :=
  if cfg.minUnnamed > cfg.maxUnnamed then .ret ⟨stInvalidArgument, .untouched, none, w⟩
  else
    (defsSyntaxOk cfg.args).bind fun ok =>
    if !ok then .ret ⟨stInvalidArgument, .untouched, none, w⟩
    else
      let r := vecInitExW m w sz cfg.argc false allocator 2 4
      if failed r.1 then .ret ⟨r.1, .untouched, r.2.1, r.2.2⟩
      else match r.2.1 with
        | none => .ub .indet
        | some v =>
          (argLoopW m cfg cfg.argc ⟨⟨v, r.2.2⟩, 1, true, 0⟩).bind fun l =>
          match l with
          | .fail e t s => argFail e (errTok want (.ptr t)) s
          | .quit st s => .ret ⟨st, .untouched, some s.v, s.w⟩
          | .done p =>
            if p.num < cfg.minUnnamed then argFail stTooFewArgs .untouched p.s
            else
              (requiredLoop p.s 0 cfg.args).bind fun q =>
              if failed q.1 then .ret ⟨q.1, .untouched, some p.s.v, p.s.w⟩
              else match q.2 with
                | some name => argFail stRequiredArgMissing (errTok want (.ptr name)) p.s
                | none => .ret ⟨stSuccess, errTok want .null, some p.s.v, p.s.w⟩

end Zy
