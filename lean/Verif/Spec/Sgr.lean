import Verif.Model.Sgr

/-!
# A terminal

What a terminal does with the bytes it receives, reduced to colours: ECMA-48 control sequences `ESC [ ... m`
("select graphic rendition") with the colour numbers of the common terminals. Everything else that is not part
of a control sequence appears on the screen in the colours selected at that time.
-/

namespace Zy.Term

/-- The eight colours. -/
inductive Colour where
  | black | red | green | yellow | blue | magenta | cyan | white
deriving DecidableEq, Repr

/-- A colour in normal or bright intensity, or the default colour of the terminal. -/
inductive Paint where
  | default
  | colour (bright : Bool) (c : Colour)
deriving DecidableEq, Repr

/-- The colours in which characters appear. -/
structure Attr where
  fg : Paint
  bg : Paint
deriving DecidableEq, Repr

/-- The colours of a terminal that was reset. -/
def Attr.plain : Attr := ⟨.default, .default⟩

/-- What the terminal waits for. -/
inductive Mode where
  /-- ordinary characters -/
  | ground
  /-- the character behind ESC -/
  | escape
  /-- the rest of a control sequence; the numbers so far, the last one first -/
  | control (numbers : List Nat)
deriving DecidableEq, Repr

/-- A terminal: mode, selected colours, and the characters that appeared with their colours. -/
structure Terminal where
  mode : Mode
  attr : Attr
  screen : List (BitVec 8 × Attr)

/-- The colour with a number from 0 to 7. -/
def colourOf : Nat → Option Colour
  | 0 => some .black
  | 1 => some .red
  | 2 => some .green
  | 3 => some .yellow
  | 4 => some .blue
  | 5 => some .magenta
  | 6 => some .cyan
  | 7 => some .white
  | _ => none

/-- The effect of one number of a control sequence that ends with `m`. -/
def select (a : Attr) (n : Nat) : Attr :=
  if n = 0 then .plain
  else if n = 39 then { a with fg := .default }
  else if n = 49 then { a with bg := .default }
  else if n / 10 = 3 then match colourOf (n % 10) with
    | some c => { a with fg := .colour false c }
    | none => a
  else if n / 10 = 4 then match colourOf (n % 10) with
    | some c => { a with bg := .colour false c }
    | none => a
  else if n / 10 = 9 then match colourOf (n % 10) with
    | some c => { a with fg := .colour true c }
    | none => a
  else if n / 10 = 10 then match colourOf (n % 10) with
    | some c => { a with bg := .colour true c }
    | none => a
  else a

/-- A terminal receives one byte. -/
def Terminal.receive (t : Terminal) (b : BitVec 8) : Terminal :=
  match t.mode with
  | .ground => if b.toNat = 27 then { t with mode := .escape } else { t with screen := t.screen ++ [(b, t.attr)] }
  | .escape => if b.toNat = 91 then { t with mode := .control [0] } else { t with mode := .ground }
  | .control ns =>
    if 48 ≤ b.toNat ∧ b.toNat ≤ 57 then
      { t with mode := .control (match ns with
        | [] => [b.toNat - 48]
        | n :: rest => (10 * n + (b.toNat - 48)) :: rest) }
    else if b.toNat = 59 then { t with mode := .control (0 :: ns) }
    else if b.toNat = 109 then { t with mode := .ground, attr := ns.reverse.foldl select t.attr }
    else if 64 ≤ b.toNat ∧ b.toNat ≤ 126 then { t with mode := .ground }
    else t

/-- A terminal receives bytes. -/
def Terminal.show (t : Terminal) (bs : List (BitVec 8)) : Terminal := bs.foldl Terminal.receive t

/-- What a program wants to do with the colours. -/
inductive Wish where
  | reset
  | fg (p : Paint)
  | bg (p : Paint)
deriving DecidableEq, Repr

/-- The effect on the colours. -/
def Wish.on : Wish → Attr → Attr
  | .reset, _ => .plain
  | .fg p, a => { a with fg := p }
  | .bg p, a => { a with bg := p }

/-- The macro whose name says it. -/
def Wish.macro : Wish → List (BitVec 8)
  | .reset => sgrReset
  | .fg .default => sgrFgDefault
  | .fg (.colour false .black) => sgrFgBlack
  | .fg (.colour false .red) => sgrFgRed
  | .fg (.colour false .green) => sgrFgGreen
  | .fg (.colour false .yellow) => sgrFgYellow
  | .fg (.colour false .blue) => sgrFgBlue
  | .fg (.colour false .magenta) => sgrFgMagenta
  | .fg (.colour false .cyan) => sgrFgCyan
  | .fg (.colour false .white) => sgrFgWhite
  | .fg (.colour true .black) => sgrFgBrightBlack
  | .fg (.colour true .red) => sgrFgBrightRed
  | .fg (.colour true .green) => sgrFgBrightGreen
  | .fg (.colour true .yellow) => sgrFgBrightYellow
  | .fg (.colour true .blue) => sgrFgBrightBlue
  | .fg (.colour true .magenta) => sgrFgBrightMagenta
  | .fg (.colour true .cyan) => sgrFgBrightCyan
  | .fg (.colour true .white) => sgrFgBrightWhite
  | .bg .default => sgrBgDefault
  | .bg (.colour false .black) => sgrBgBlack
  | .bg (.colour false .red) => sgrBgRed
  | .bg (.colour false .green) => sgrBgGreen
  | .bg (.colour false .yellow) => sgrBgYellow
  | .bg (.colour false .blue) => sgrBgBlue
  | .bg (.colour false .magenta) => sgrBgMagenta
  | .bg (.colour false .cyan) => sgrBgCyan
  | .bg (.colour false .white) => sgrBgWhite
  | .bg (.colour true .black) => sgrBgBrightBlack
  | .bg (.colour true .red) => sgrBgBrightRed
  | .bg (.colour true .green) => sgrBgBrightGreen
  | .bg (.colour true .yellow) => sgrBgBrightYellow
  | .bg (.colour true .blue) => sgrBgBrightBlue
  | .bg (.colour true .magenta) => sgrBgBrightMagenta
  | .bg (.colour true .cyan) => sgrBgBrightCyan
  | .bg (.colour true .white) => sgrBgBrightWhite

/-- A piece of output: a change of the colours, or text. -/
inductive Piece where
  | wish (w : Wish)
  | text (x : List (BitVec 8))

/-- The bytes that are written for a piece. -/
def Piece.bytes : Piece → List (BitVec 8)
  | .wish w => w.macro
  | .text x => x

/-- The text contains no ESC. -/
def Piece.Clean : Piece → Prop
  | .wish _ => True
  | .text x => ∀ b ∈ x, b.toNat ≠ 27

/-- The colours after some pieces. -/
def coloursAfter (a : Attr) : List Piece → Attr
  | [] => a
  | .wish w :: ps => coloursAfter (w.on a) ps
  | .text _ :: ps => coloursAfter a ps

/-- The characters of some pieces in their colours. -/
def painted (a : Attr) : List Piece → List (BitVec 8 × Attr)
  | [] => []
  | .wish w :: ps => painted (w.on a) ps
  | .text x :: ps => x.map (fun b => (b, a)) ++ painted a ps

end Zy.Term
