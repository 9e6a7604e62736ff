import Verif.Decimal
import Verif.Tea.InlineProps
/-
A realistic terminal for the inline renderer (specification side) and the bytes of the
renderer's output tokens (model side, inline.go:17-37).

The terminal is a character machine: W columns, H rows, scrollback, a cursor with the DEC
"pending wrap" state (after the last column is written the cursor stays on it and the next
printable character goes to the next row), characters of any width (wide characters occupy
several cells, zero-width ones join the cell before), a pen changed by SGR (CSI ... m) and
OSC sequences, erasing with the current pen, and an escape parser that sees the very same
characters, so that an unfinished escape sequence swallows what follows.

What the pen is and how SGR/OSC change it is left open (`Dev`).  Not modelled: tabs and
other control characters, CSI sequences other than m, A, K, J, the alternate screen, reflow
when the window is resized, grapheme clusters wider or narrower than the sum of their
characters.
-/
set_option linter.unusedVariables false
namespace Phoenix.Inline

/-- inline.go:17-37: the bytes of the output tokens (`cursorUp`, `eraseLineRight`,
`eraseScreenBelow`, `carriageReturn`, the literal "\r\n" of 117 and 128). -/
def Out.bytes : Out → Str
  | .text c => [c]
  | .cr => ['\r']
  | .crlf => ['\r', '\n']
  | .up n => if n = 0 then [] else ESC :: '[' :: (Dec.nat n).map Char.ofNat ++ ['A']
  | .el => [ESC, '[', 'K']
  | .ed => [ESC, '[', 'J']

/-- inline.go:86, 140: the buffer written by one Render call. -/
def bytes (os : List Out) : Str := os.flatMap Out.bytes

/-! ### The terminal -/

/-- Environment: the terminal (ECMA-48, xterm), receiver of what inline.go:77-151 writes. -/
structure Cell (Pen : Type) where
  /-- the character and the zero-width characters joined to it; empty when erased -/
  ch : Str
  pen : Pen
  /-- right part of a wide character -/
  cont : Bool

/-- Environment: the terminal (ECMA-48, xterm), receiver of what inline.go:77-151 writes. -/
def Cell.blank {Pen : Type} (p : Pen) : Cell Pen := ⟨[], p, false⟩

/-- A terminal type: its size, the width it gives to each character, the default pen, and
what SGR parameters and OSC strings do to the pen.
Environment: the terminal (ECMA-48, xterm), receiver of what inline.go:77-151 writes. -/
structure Dev (Pen : Type) where
  W : Nat
  H : Nat
  tw : Char → Nat
  p0 : Pen
  sgr : Pen → Str → Pen
  osc : Pen → Str → Pen

/-- Escape parser. Environment: the terminal (ECMA-48, xterm), receiver of what inline.go:77-151 writes. -/
inductive Ps where
  | normal | esc | csi (acc : Str) | osc (acc : Str) | oscEsc (acc : Str)
deriving DecidableEq

/-- Screen with scrollback: `rows` is the tape of all rows ever on the screen, of which
`top .. top+H-1` are visible. -/
structure TT (Pen : Type) where
  rows : Nat → Nat → Cell Pen
  row : Nat
  col : Nat
  top : Nat
  pend : Bool
  pen : Pen
  ps : Ps

variable {Pen : Type}

/-- C0/C1 control characters. -/
def isCtl (c : Char) : Bool := c.toNat < 0x20 || (0x7F ≤ c.toNat && c.toNat < 0xA0)

/-- Write a character `n` ≥ 1 columns wide at column `col`.  A wide character that loses
one of its halves is blanked. -/
def place (cells : Nat → Cell Pen) (col n : Nat) (c : Char) (p : Pen) : Nat → Cell Pen := fun j =>
  if j = col then ⟨[c], p, false⟩
  else if col < j ∧ j < col + n then ⟨[], p, true⟩
  else if j = col + n ∧ (cells j).cont = true then Cell.blank (cells j).pen
  else if j + 1 = col ∧ (cells col).cont = true then Cell.blank (cells j).pen
  else cells j

/-- Join a zero-width character to the character that ends just before column `col`.
Environment: the terminal (ECMA-48, xterm), receiver of what inline.go:77-151 writes. -/
def attach (cells : Nat → Cell Pen) (col : Nat) (c : Char) : Nat → Cell Pen :=
  let at_ := if (cells (col - 1)).cont = true ∧ 2 ≤ col then col - 2 else col - 1
  fun j => if j = at_ then { cells j with ch := (cells j).ch ++ [c] } else cells j

/-- Erase from column `col` to the right with pen `p`; a wide character cut in half is
blanked. Environment: the terminal (ECMA-48, xterm), receiver of what inline.go:77-151 writes. -/
def eraseFrom (cells : Nat → Cell Pen) (col : Nat) (p : Pen) : Nat → Cell Pen := fun j =>
  if col ≤ j then Cell.blank p
  else if j + 1 = col ∧ (cells col).cont = true then Cell.blank p
  else cells j

/-- Environment: the terminal (ECMA-48, xterm), receiver of what inline.go:77-151 writes. -/
def setRow (rows : Nat → Nat → Cell Pen) (r : Nat) (cells : Nat → Cell Pen) : Nat → Nat → Cell Pen :=
  fun i => if i = r then cells else rows i

/-- Line feed: at the bottom of the screen everything scrolls up by one row.
Environment: the terminal (ECMA-48, xterm), receiver of what inline.go:77-151 writes. -/
def TT.lf (d : Dev Pen) (t : TT Pen) : TT Pen :=
  if t.row + 1 < t.top + d.H then { t with row := t.row + 1 }
  else { t with row := t.row + 1, top := t.top + 1,
                rows := setRow t.rows (t.row + 1) (fun _ => Cell.blank t.pen) }

/-- A printable character of width `n` ≥ 1, without wrapping. -/
def TT.putAt (d : Dev Pen) (t : TT Pen) (n : Nat) (c : Char) : TT Pen :=
  let cells := place (t.rows t.row) t.col n c t.pen
  if t.col + n < d.W then { t with rows := setRow t.rows t.row cells, col := t.col + n, pend := false }
  else { t with rows := setRow t.rows t.row cells, col := d.W - 1, pend := true }

/-- A printable character. Environment: the terminal (ECMA-48, xterm), receiver of what inline.go:77-151 writes. -/
def TT.put (d : Dev Pen) (t : TT Pen) (c : Char) : TT Pen :=
  if d.tw c = 0 then
    if t.col = 0 ∧ t.pend = false then t
    else
      let cells := attach (t.rows t.row) (if t.pend = true then t.col + 1 else t.col) c
      { t with rows := setRow t.rows t.row cells }
  else if t.pend = true ∨ d.W < t.col + d.tw c then
    ({ t with col := 0, pend := false }.lf d).putAt d (d.tw c) c
  else t.putAt d (d.tw c) c

/-- A numeric CSI parameter. Environment: the terminal (ECMA-48, xterm), receiver of what inline.go:77-151 writes. -/
def param (dflt : Nat) (acc : Str) : Nat := ((Dec.parseNat (acc.map Char.toNat)).getD dflt)

/-- A complete CSI sequence. Environment: the terminal (ECMA-48, xterm), receiver of what inline.go:77-151 writes. -/
def TT.csi (d : Dev Pen) (t : TT Pen) (acc : Str) (c : Char) : TT Pen :=
  if c = 'm' then { t with pen := d.sgr t.pen acc }
  else if c = 'A' then
    { t with row := max t.top (t.row - max 1 (param 1 acc)), pend := false }
  else if c = 'K' then
    if param 0 acc = 0 then { t with rows := setRow t.rows t.row (eraseFrom (t.rows t.row) t.col t.pen) }
    else t
  else if c = 'J' then
    if param 0 acc = 0 then
      { t with rows := fun i => if i = t.row then eraseFrom (t.rows t.row) t.col t.pen
                                else if t.row < i then fun _ => Cell.blank t.pen else t.rows i }
    else t
  else t

/-- One character received. Environment: the terminal (ECMA-48, xterm), receiver of what inline.go:77-151 writes. -/
def TT.step (d : Dev Pen) (t : TT Pen) (c : Char) : TT Pen :=
  match t.ps with
  | .normal =>
    if c = ESC then { t with ps := .esc }
    else if c = '\r' then { t with col := 0, pend := false }
    else if c = '\n' then t.lf d
    else if isCtl c then t
    else t.put d c
  | .esc =>
    if c = '[' then { t with ps := .csi [] }
    else if c = ']' then { t with ps := .osc [] }
    else { t with ps := .normal }
  | .csi acc =>
    if isFinal c then { t.csi d acc c with ps := .normal }
    else { t with ps := .csi (acc ++ [c]) }
  | .osc acc =>
    if c = BEL then { t with pen := d.osc t.pen acc, ps := .normal }
    else if c = ESC then { t with ps := .oscEsc acc }
    else { t with ps := .osc (acc ++ [c]) }
  | .oscEsc acc =>
    if c = '\\' then { t with pen := d.osc t.pen acc, ps := .normal }
    else if c = '[' then { t with ps := .csi [] }
    else if c = ']' then { t with ps := .osc [] }
    else { t with ps := .normal }

/-- Environment: the terminal (ECMA-48, xterm), receiver of what inline.go:77-151 writes. -/
def TT.feed (d : Dev Pen) (t : TT Pen) (s : Str) : TT Pen := s.foldl (TT.step d) t

/-- A terminal whose cursor stands at the start of an empty row, with nothing below it;
whatever is above stays unspecified.
Environment: the terminal (ECMA-48, xterm), receiver of what inline.go:77-151 writes. -/
structure Ready (d : Dev Pen) (t : TT Pen) : Prop where
  col : t.col = 0
  pend : t.pend = false
  pen : t.pen = d.p0
  ps : t.ps = .normal
  top : t.top ≤ t.row
  bottom : t.row < t.top + d.H
  blank : ∀ i, t.row ≤ i → ∀ j, t.rows i j = Cell.blank d.p0

/-! ### What a line looks like

A line written on its own on an empty row without right margin. -/

/-- Specification: how a single line looks on a terminal, for the frames of inline.go:77-151. -/
structure Ln (Pen : Type) where
  cells : Nat → Cell Pen
  col : Nat
  pen : Pen
  ps : Ps

/-- Specification: how a single line looks on a terminal, for the frames of inline.go:77-151. -/
def Ln.start (d : Dev Pen) : Ln Pen := ⟨fun _ => Cell.blank d.p0, 0, d.p0, .normal⟩

/-- One character of a line; `none` for anything that is not text, SGR or OSC (control
characters, cursor movements, a zero-width character with nothing before it).
Specification: how a single line looks on a terminal, for the frames of inline.go:77-151. -/
def Ln.step (d : Dev Pen) (l : Ln Pen) (c : Char) : Option (Ln Pen) :=
  match l.ps with
  | .normal =>
    if c = ESC then some { l with ps := .esc }
    else if isCtl c then none
    else if d.tw c = 0 then
      if l.col = 0 then none else some { l with cells := attach l.cells l.col c }
    else some { l with cells := place l.cells l.col (d.tw c) c l.pen, col := l.col + d.tw c }
  | .esc =>
    if c = '[' then some { l with ps := .csi [] }
    else if c = ']' then some { l with ps := .osc [] }
    else none
  | .csi acc =>
    if isFinal c then
      if c = 'm' then some { l with pen := d.sgr l.pen acc, ps := .normal } else none
    else some { l with ps := .csi (acc ++ [c]) }
  | .osc acc =>
    if c = BEL then some { l with pen := d.osc l.pen acc, ps := .normal }
    else if c = ESC then some { l with ps := .oscEsc acc }
    else some { l with ps := .osc (acc ++ [c]) }
  | .oscEsc acc =>
    if c = '\\' then some { l with pen := d.osc l.pen acc, ps := .normal } else none

/-- Specification: how a single line looks on a terminal, for the frames of inline.go:77-151. -/
def Ln.run (d : Dev Pen) (l : Ln Pen) : Str → Option (Ln Pen)
  | [] => some l
  | c :: cs => (l.step d c).bind fun l' => l'.run d cs

/-- The line `s` is `k` columns wide, looks like `cells`, and leaves the pen as it found
it. Specification: how a single line looks on a terminal, for the frames of inline.go:77-151. -/
def Paint (d : Dev Pen) (s : Str) (cells : Nat → Cell Pen) (k : Nat) : Prop :=
  (Ln.start d).run d s = some ⟨cells, k, d.p0, .normal⟩

/-! ### Renderer and terminal together -/

/-- inline.go:77-176: the calls of `Op`, the output going to the terminal. -/
def tstep (rw : Char → Nat) (d : Dev Pen) (s : R × TT Pen) : Op → R × TT Pen
  | .render v => ((s.1.render rw v).1, s.2.feed d (bytes (s.1.render rw v).2))
  | .renderFail v => ((s.1.renderFail rw v 0).1, s.2.feed d (bytes (s.1.renderFail rw v 0).2))
  | .repaint => (s.1.repaint, s.2)
  | .resize w h => (s.1.resize w h, s.2)

/-- a history of calls; not in the code itself: tea/internal/infrastructure/renderer/inline.go:77-176. -/
def trun (rw : Char → Nat) (d : Dev Pen) (s : R × TT Pen) (ops : List Op) : R × TT Pen :=
  ops.foldl (tstep rw d) s

end Phoenix.Inline
