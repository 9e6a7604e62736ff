import Verif.Render.Spec
import Verif.Decimal
/-
Specification side: a terminal that reads bytes.  A UTF-8 decoder and ECMA-48 control-sequence parser in front
of the screen of Spec.lean.  Nothing here uses the renderer's functions or its encoder.
-/
set_option linter.unusedVariables false
namespace Phoenix.Render

/-- Where the byte parser is. -/
inductive PState where
  | ground
  | esc                        -- after ESC
  | csi (params : List Nat)    -- after ESC [, with the parameter bytes so far
  | utf (need acc : Nat)       -- inside a multi-byte character
deriving DecidableEq, Repr

/-- What the parser hands to the screen. -/
inductive Event where
  | print (c : Char)
  | ctl (b : Nat)                          -- a control character
  | esc (b : Nat)                          -- ESC followed by one character
  | csi (params : List Nat) (final : Nat)  -- a control sequence
deriving DecidableEq, Repr

/-- A decoded character: C0, DEL and C1 are controls, everything else prints. -/
def decoded (n : Nat) : Event :=
  if n < 32 ∨ (127 ≤ n ∧ n < 160) then .ctl n else .print (Char.ofNat n)

/-- One byte (ECMA-48 sequences, UTF-8 text; ESC aborts whatever is in progress). -/
def vtStep (p : PState) (b : Nat) : PState × List Event :=
  if b = 27 then (.esc, []) else
  match p with
  | .ground =>
    if b < 128 then (.ground, [decoded b])
    else if b < 192 then (.ground, [])
    else if b < 224 then (.utf 1 (b - 192), [])
    else if b < 240 then (.utf 2 (b - 224), [])
    else (.utf 3 (b - 240), [])
  | .esc => if b = 91 then (.csi [], []) else (.ground, [.esc b])
  | .csi ps =>
    if 64 ≤ b ∧ b ≤ 126 then (.ground, [.csi ps b])
    else if 32 ≤ b ∧ b < 64 then (.csi (ps ++ [b]), [])
    else (.ground, [])
  | .utf need acc =>
    if 128 ≤ b ∧ b < 192 then
      if need ≤ 1 then (.ground, [decoded (acc * 64 + (b - 128))])
      else (.utf (need - 1) (acc * 64 + (b - 128)), [])
    else (.ground, [])

/-- Parameters of a control sequence: numbers separated by semicolons; a missing one is 0. -/
def csiNums (params : List Nat) : List Nat := (Dec.split 59 params).map fun p => (Dec.parseNat p).getD 0

/-- Select Graphic Rendition (ECMA-48 8.3.117 and the 24-bit colour extension). -/
def sgrNums (s : Style) : List Nat → Style
  | [] => s
  | 38 :: 2 :: r :: g :: b :: rest => sgrNums { s with fg := some ⟨r.toUInt8, g.toUInt8, b.toUInt8⟩ } rest
  | 48 :: 2 :: r :: g :: b :: rest => sgrNums { s with bg := some ⟨r.toUInt8, g.toUInt8, b.toUInt8⟩ } rest
  | n :: rest =>
    sgrNums (
      if n = 0 then {} else if n = 1 then { s with bold := true } else if n = 2 then { s with dim := true }
      else if n = 3 then { s with italic := true } else if n = 4 then { s with underline := true }
      else if n = 5 then { s with blink := true } else if n = 7 then { s with reverse := true }
      else if n = 8 then { s with hidden := true } else if n = 9 then { s with strike := true }
      else if n = 39 then { s with fg := none } else if n = 49 then { s with bg := none } else s) rest

/-- Effect of an event on the screen. -/
def Term.event (wd : Char → Nat) (t : Term) : Event → Term
  | .print c => t.print c (wd c)
  | .ctl b =>
    if b = 10 ∨ b = 11 ∨ b = 12 then
      if t.cy + 1 < t.H then { t with cy := t.cy + 1 }
      else { t with scr := fun x y => if y + 1 < t.H then t.scr x (y + 1) else t.blank }
    else if b = 13 then { t with cx := 0 }
    else if b = 8 then { t with cx := t.cx - 1 }
    else t
  | .esc b => if b = 99 then { Term.init t.W t.H with visible := true } else t
  | .csi params f =>
    if f = 72 then    -- CUP: row ; column, counted from 1, limited to the screen
      let row := (csiNums params).getD 0 0
      let col := (csiNums params).getD 1 0
      { t with cy := min (row - 1) (t.H - 1), cx := min (col - 1) (t.W - 1) }
    else if f = 74 ∧ params = [50] then { t with scr := fun _ _ => t.blank }   -- ED 2
    else if f = 75 ∧ params = [50] then                                        -- EL 2
      { t with scr := fun x y => if y = t.cy then t.blank else t.scr x y }
    else if f = 109 then { t with sgr := sgrNums t.sgr (csiNums params) }      -- SGR
    else if f = 108 ∧ params = [63, 50, 53] then { t with visible := false }   -- DECTCEM
    else if f = 104 ∧ params = [63, 50, 53] then { t with visible := true }
    else t

/-- A terminal reading bytes. -/
structure VT where
  p : PState
  t : Term

/-- One byte. -/
def VT.byte (wd : Char → Nat) (v : VT) (b : Nat) : VT :=
  { p := (vtStep v.p b).1, t := (vtStep v.p b).2.foldl (Term.event wd) v.t }

/-- A byte stream. -/
def VT.feed (wd : Char → Nat) (v : VT) (bs : List Nat) : VT := bs.foldl (VT.byte wd) v

/-- A cleared byte terminal. -/
def VT.init (W H : Nat) : VT := ⟨.ground, Term.init W H⟩

/-- A character that prints: not a C0 control, DEL or C1 control. -/
def Prints (c : Char) : Prop := 32 ≤ c.toNat ∧ ¬ (127 ≤ c.toNat ∧ c.toNat < 160)

end Phoenix.Render
