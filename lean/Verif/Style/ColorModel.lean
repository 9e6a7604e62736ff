import Verif.Decimal
/-
Model of colours in the `style` package of /repo: parsing and printing hex colours, the 256 and
16 colour palettes, the conversions from 24-bit colours and the escape sequences.

A `uint8` is a natural number; the functions only build numbers below 256 from numbers below 256
(proved where it matters), so the wrap-around of uint8 never happens.  Strings are lists of bytes.
-/
namespace Phoenix.Style
open Phoenix

/-- style/internal/domain/value/color.go:12-20 Color / RGB. -/
structure Color where
  r : Nat
  g : Nat
  b : Nat
  deriving DecidableEq, Repr

/-- The channels of a colour are `uint8`. -/
def Color.Ok (c : Color) : Prop := c.r < 256 ∧ c.g < 256 ∧ c.b < 256

/-- One hexadecimal digit as accepted by strconv.ParseUint(_, 16, 8) (Go standard library):
0-9, a-f, A-F. -/
def hexVal (x : Nat) : Option Nat :=
  if 48 ≤ x ∧ x ≤ 57 then some (x - 48)
  else if 97 ≤ x ∧ x ≤ 102 then some (x - 87)
  else if 65 ≤ x ∧ x ≤ 70 then some (x - 55)
  else none

/-- strconv.ParseUint of two bytes in base 16 (color.go:40, 44, 48). -/
def parsePair (x y : Nat) : Option Nat :=
  (hexVal x).bind fun a => (hexVal y).map fun b => 16 * a + b

/-- color.go:39-53: six digits. -/
def hex6 (a b c d e f : Nat) : Option Color :=
  (parsePair a b).bind fun r => (parsePair c d).bind fun g => (parsePair e f).map fun b => ⟨r, g, b⟩

/-- color.go:27 strings.TrimPrefix(hex, "#"). -/
def trimHash (s : List Nat) : List Nat := if s.head? = some 35 then s.tail else s

/-- color.go:25-54 Hex; `none` = error. -/
def hexBody : List Nat → Option Color
  | [a, b, c] => hex6 a a b b c c
  | [a, b, c, d, e, f] => hex6 a b c d e f
  | _ => none

/-- color.go:25-54 Hex. -/
def parseHex (s : List Nat) : Option Color := hexBody (trimHash s)

/-- One upper-case hexadecimal digit of `%02X`. -/
def hexDigit (n : Nat) : Nat := if n < 10 then 48 + n else 55 + n

/-- color.go:96-98 Color.Hex. -/
def Color.hex (c : Color) : List Nat :=
  [35, hexDigit (c.r / 16), hexDigit (c.r % 16), hexDigit (c.g / 16), hexDigit (c.g % 16),
    hexDigit (c.b / 16), hexDigit (c.b % 16)]

/-- color.go:114 intensityMap. -/
def levels : List Nat := [0, 95, 135, 175, 215, 255]

/-- color.go:120-137 and color_adapter.go:175-192 (the same table). -/
def palette16 : List Color :=
  [⟨0, 0, 0⟩, ⟨128, 0, 0⟩, ⟨0, 128, 0⟩, ⟨128, 128, 0⟩, ⟨0, 0, 128⟩, ⟨128, 0, 128⟩, ⟨0, 128, 128⟩,
   ⟨192, 192, 192⟩, ⟨128, 128, 128⟩, ⟨255, 0, 0⟩, ⟨0, 255, 0⟩, ⟨255, 255, 0⟩, ⟨0, 0, 255⟩,
   ⟨255, 0, 255⟩, ⟨0, 255, 255⟩, ⟨255, 255, 255⟩]

/-- color.go:59-88 FromANSI256 (style.Color256 / style.Color16). -/
def from256 (code : Nat) : Color :=
  if code < 16 then (palette16[code]?).getD ⟨0, 0, 0⟩
  else if code ≤ 231 then
    let i := code - 16
    ⟨levels.getD (i / 36 % 6) 0, levels.getD (i / 6 % 6) 0, levels.getD (i % 6) 0⟩
  else
    let gray := 8 + (code - 232) * 10
    ⟨gray, gray, gray⟩

/-- color_adapter.go:221-234 abs / absDiff. -/
def absDiff (a b : Nat) : Nat := if a > b then a - b else b - a

/-- color_adapter.go:119-126 isGrayish. -/
def isGrayish (r g b : Nat) : Bool :=
  let avg := (r + g + b) / 3
  absDiff r avg ≤ 10 && absDiff g avg ≤ 10 && absDiff b avg ≤ 10

/-- The loop `for i, x := range list { d := dist(x); if d < best { best = d; idx = i } }` of
color_adapter.go:137-144 and 198-205. -/
def closest {α : Type} (dist : α → Nat) : List α → Nat → Nat → Nat → Nat
  | [], _, idx, _ => idx
  | x :: t, i, idx, best =>
    if dist x < best then closest dist t (i + 1) i (dist x) else closest dist t (i + 1) idx best

/-- color_adapter.go:132-147 rgbToCubeIndex. -/
def cubeIndex (v : Nat) : Nat := closest (absDiff v) levels 0 0 255

/-- color_adapter.go:88-116 rgbToANSI256. -/
def to256 (c : Color) : Nat :=
  if isGrayish c.r c.g c.b then
    let gray := (c.r + c.g + c.b) / 3
    if gray < 8 then 16
    else if gray > 238 then 231
    else (gray - 8) / 10 + 232
  else 16 + 36 * cubeIndex c.r + 6 * cubeIndex c.g + cubeIndex c.b

/-- color_adapter.go:213-218 colorDistance, squared.  Simplification: the code compares the
float64 square roots; for integers up to 3·255² the rounded square root is strictly increasing,
so the comparisons are those of the squares.  `math.MaxFloat64` is a number above all of them. -/
def dist2 (c d : Color) : Nat :=
  absDiff c.r d.r * absDiff c.r d.r + absDiff c.g d.g * absDiff c.g d.g + absDiff c.b d.b * absDiff c.b d.b

/-- color_adapter.go:173-208 rgbToANSI16. -/
def to16 (c : Color) : Nat := closest (dist2 c) palette16 0 0 1000000

/-- terminal_capability.go:5-23. -/
inductive Capability | noColor | ansi16 | ansi256 | trueColor
  deriving DecidableEq, Repr

/-- ESC [ style/internal/infrastructure/ansi/code_generator.go:20-128. -/
def csi : List Nat := [27, 91]

/-- fmt.Sprintf("\x1b[<kind>;2;%d;%d;%dm"): color_adapter.go:64-72, code_generator.go:20-28. -/
def sgrRGB (kind : Nat) (c : Color) : List Nat :=
  csi ++ (Dec.nat kind ++ [59] ++ Dec.nat 2 ++ [59] ++ Dec.nat c.r ++ [59] ++ Dec.nat c.g ++ [59] ++ Dec.nat c.b) ++ [109]

/-- fmt.Sprintf("\x1b[<kind>;5;%dm"): color_adapter.go:76-84, code_generator.go:32-40. -/
def sgr256 (kind : Nat) (code : Nat) : List Nat :=
  csi ++ (Dec.nat kind ++ [59] ++ Dec.nat 5 ++ [59] ++ Dec.nat code) ++ [109]

/-- fmt.Sprintf("\x1b[%dm"): one parameter. -/
def sgr1 (n : Nat) : List Nat := csi ++ Dec.nat n ++ [109]

/-- color_adapter.go:151-159 and 161-169, code_generator.go:44-62: `base` is 30 or 40. -/
def sgr16 (base code : Nat) : List Nat :=
  if code ≥ 8 then sgr1 (base + 60 + (code - 8)) else sgr1 (base + code)

/-- color_adapter.go:31-44 ToANSIForeground. -/
def fgSeq (c : Color) : Capability → List Nat
  | .noColor => []
  | .ansi16 => sgr16 30 (to16 c)
  | .ansi256 => sgr256 38 (to256 c)
  | .trueColor => sgrRGB 38 c

/-- color_adapter.go:47-60 ToANSIBackground. -/
def bgSeq (c : Color) : Capability → List Nat
  | .noColor => []
  | .ansi16 => sgr16 40 (to16 c)
  | .ansi256 => sgr256 48 (to256 c)
  | .trueColor => sgrRGB 48 c

/-- style/internal/application/command/border_renderer.go:259-283 rgbTo256 (used for borders
only). -/
def borderTo256 (c : Color) : Nat :=
  if c.r = c.g ∧ c.g = c.b then
    if c.r < 8 then 16
    else if c.r > 247 then 231
    else 232 + (c.r - 8) / 10
  else 16 + 36 * (c.r * 6 / 256) + 6 * (c.g * 6 / 256) + c.b * 6 / 256

/-- border_renderer.go:287-317 rgbTo16 (the bit-or of distinct bits is their sum). -/
def borderTo16 (c : Color) : Nat :=
  (if c.r > 128 then 1 else 0) + (if c.g > 128 then 2 else 0) + (if c.b > 128 then 4 else 0) +
    (if (c.r + c.g + c.b) / 3 > 128 then 8 else 0)

/-- border_renderer.go:226-255 colorToANSI (always called with isForeground = true). -/
def borderSeq (c : Color) : Capability → List Nat
  | .noColor => []
  | .ansi16 => sgr16 30 (borderTo16 c)
  | .ansi256 => sgr256 38 (borderTo256 c)
  | .trueColor => sgrRGB 38 c

end Phoenix.Style
