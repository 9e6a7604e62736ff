/-
Model of package core: capability detection, value objects, terminal value, display width with
configuration. External code is a parameter: `lower` (unicode.ToLower per rune), `strW`, `rw`, `rwWide`
(uniwidth). Go `int` is `Int` (no overflow).
-/
set_option linter.unusedVariables false
namespace Phoenix.Core

/-- core/internal/domain/value/capabilities.go:4-21 `ColorDepth` constants. -/
def depthNone : Int := 0
/-- core/internal/domain/value/capabilities.go:12 -/
def depth8 : Int := 8
/-- core/internal/domain/value/capabilities.go:16 -/
def depth256 : Int := 256
/-- core/internal/domain/value/capabilities.go:20 -/
def depthTrue : Int := 16777216

/-- core/internal/domain/value/capabilities.go:48-54 `Capabilities` (private fields). -/
structure Caps where
  ansi : Bool
  depth : Int
  mouse : Bool
  alt : Bool
  cursor : Bool
deriving DecidableEq, Repr

/-- core/internal/domain/value/capabilities.go:57-80 `NewCapabilities` (exported unchanged by
core/core.go:329-333). -/
def newCaps (ansi : Bool) (colors : Int) (mouse alt cursor : Bool) : Caps :=
  { ansi := ansi
    depth := if colors = depthNone ∨ colors = depth8 ∨ colors = depth256 ∨ colors = depthTrue then colors
             else depthNone
    mouse := if !ansi then false else mouse
    alt := if !ansi then false else alt
    cursor := if !ansi then false else cursor }

/-- core/internal/domain/value/capabilities.go:93-95 -/
def Caps.supportsColor (c : Caps) : Bool := decide (c.depth > depthNone)
/-- core/internal/domain/value/capabilities.go:98-100 -/
def Caps.supportsTrueColor (c : Caps) : Bool := decide (c.depth = depthTrue)
/-- core/internal/domain/value/capabilities.go:103-105 -/
def Caps.supports256 (c : Caps) : Bool := decide (c.depth ≥ depth256)
/-- core/internal/domain/value/capabilities.go:123-125 -/
def Caps.isDumb (c : Caps) : Bool := !c.ansi && decide (c.depth = depthNone)
/-- core/internal/domain/value/capabilities.go:128-137 -/
def Caps.equal (c : Caps) : Option Caps → Bool
  | none => false
  | some o => decide (c.ansi = o.ansi) && decide (c.depth = o.depth) && decide (c.mouse = o.mouse) &&
      decide (c.alt = o.alt) && decide (c.cursor = o.cursor)

/-- `strings.HasPrefix` on runes. Go library; core/internal/infrastructure/platform. -/
def hasPrefix : List Char → List Char → Bool
  | _, [] => true
  | [], _ :: _ => false
  | a :: as, p :: ps => decide (a = p) && hasPrefix as ps

/-- `strings.Contains` on runes (equal to the byte version on valid UTF-8). -/
def contains : List Char → List Char → Bool
  | [], p => hasPrefix [] p
  | a :: as, p => hasPrefix (a :: as) p || contains as p

/-- core/internal/domain/service/environment.go: the environment a detector sees; an unset variable
reads as the empty string (`Get`). core/internal/infrastructure/platform/environment.go:19-37. -/
structure Env where
  get : String → String
  platform : String

/-- core/internal/domain/service/capabilities_detector.go:53-81 `detectColorDepth`. -/
def detectDepth (lower : Char → Char) (e : Env) : Int :=
  let ct := (e.get "COLORTERM").toList.map lower
  if ct = "truecolor".toList ∨ ct = "24bit".toList then depthTrue
  else if e.get "TERM_PROGRAM" = "iTerm.app" ∨ e.get "TERM_PROGRAM" = "vscode" ∨
      e.get "TERM_PROGRAM" = "Hyper" ∨ e.get "TERM_PROGRAM" = "WarpTerminal" then depthTrue
  else if e.get "TERM_PROGRAM" = "Apple_Terminal" then depth256
  else if contains (e.get "TERM").toList "256color".toList then depth256
  else if contains (e.get "TERM").toList "color".toList then depth8
  else if e.get "TERM" = "dumb" ∨ e.get "TERM" = "" then depthNone
  else depth8

/-- core/internal/domain/service/capabilities_detector.go:83-91 `detectUnix`. -/
def detectUnix (lower : Char → Char) (e : Env) : Caps :=
  if e.get "TERM" = "dumb" ∨ e.get "TERM" = "" then newCaps false depthNone false false false
  else newCaps true (detectDepth lower e) true true true

/-- core/internal/domain/service/capabilities_detector.go:93-102 `detectMacOS`. -/
def detectMac (lower : Char → Char) (e : Env) : Caps :=
  newCaps true
    (if e.get "TERM_PROGRAM" = "Apple_Terminal" ∧ detectDepth lower e = depthTrue then depth256
     else detectDepth lower e) true true true

/-- core/internal/domain/service/capabilities_detector.go:104-117 `detectWindows`. -/
def detectWindows (e : Env) : Caps :=
  if e.get "WT_SESSION" ≠ "" then newCaps true depthTrue true true true
  else if e.get "TERM_PROGRAM" = "vscode" then newCaps true depthTrue true true true
  else newCaps true depth8 false true true

/-- core/internal/domain/service/capabilities_detector.go:119-132 `parseForceColor`. -/
def parseForce (fc : String) : Caps :=
  if fc = "0" then newCaps false depthNone false false false
  else if fc = "1" then newCaps true depth8 true true true
  else if fc = "2" then newCaps true depth256 true true true
  else newCaps true depthTrue true true true

/-- core/internal/domain/service/capabilities_detector.go:31-51 `Detect`. -/
def detect (lower : Char → Char) (e : Env) : Caps :=
  if e.get "NO_COLOR" ≠ "" then newCaps false depthNone false false false
  else if e.get "FORCE_COLOR" ≠ "" then parseForce (e.get "FORCE_COLOR")
  else if e.platform = "windows" then detectWindows e
  else if e.platform = "darwin" then detectMac lower e
  else detectUnix lower e

/-- Operating system families the library is built for.
core/internal/infrastructure/platform/environment.go:34-37 (runtime.GOOS). -/
inductive GoOS | linux | darwin | windows
deriving DecidableEq, Repr

/-- core/internal/infrastructure/platform/platform_unix.go:1-5, platform_windows.go:1-5: the platform string
is chosen by a build tag; macOS falls under "unix". -/
def platformString : GoOS → String
  | .windows => "windows"
  | _ => "unix"

/-- core/core.go:122-128 `AutoDetect` (its capabilities). -/
def autoDetect (lower : Char → Char) (os : GoOS) (get : String → String) : Caps :=
  detect lower { get := get, platform := platformString os }

/-- core/internal/domain/value/position.go:10-13 -/
structure Pos where
  row : Int
  col : Int
deriving DecidableEq, Repr

/-- core/internal/domain/value/position.go:17-25 `NewPosition`. -/
def newPos (row col : Int) : Pos := ⟨if row < 0 then 0 else row, if col < 0 then 0 else col⟩

/-- core/core.go:219-223 `Position.Add`: the receiver (a struct with exported fields) is normalised first. -/
def Pos.add (p : Pos) (dr dc : Int) : Pos :=
  let d := newPos p.row p.col
  newPos (d.row + dr) (d.col + dc)

/-- core/internal/domain/value/size.go:9-12 -/
structure Size where
  width : Int
  height : Int
deriving DecidableEq, Repr

/-- core/internal/domain/value/size.go:16-24 `NewSize`. -/
def newSize (w h : Int) : Size := ⟨if w < 1 then 1 else w, if h < 1 then 1 else h⟩
/-- core/internal/domain/value/size.go:27-29 -/
def Size.area (s : Size) : Int := s.width * s.height
/-- core/internal/domain/value/size.go:32-35 -/
def Size.contains (s : Size) (p : Pos) : Bool :=
  decide (p.row ≥ 0) && decide (p.row < s.height) && decide (p.col ≥ 0) && decide (p.col < s.width)

/-- core/internal/domain/value/cell.go:22-25,39-47 `NewCell`. -/
structure Cell where
  content : List Char
  width : Int
deriving DecidableEq, Repr
/-- core/internal/domain/value/cell.go:39-47 `NewCell`. -/
def newCell (s : List Char) (w : Int) : Cell := ⟨s, if w < 0 then 0 else w⟩
/-- core/internal/domain/value/cell.go:60-62 `IsEmpty`. -/
def Cell.isEmpty (c : Cell) : Bool := decide (c.content = []) || decide (c.content = [' ']) || decide (c.width = 0)
/-- core/core.go:270-281 `NewCellAuto`; `strW` is uniwidth.StringWidth. -/
def newCellAuto (strW : List Char → Int) (s : List Char) : Cell := newCell s (if s = [] then 0 else strW s)

/-- core/internal/domain/model/rawmode.go:27-30 -/
structure RawMode (σ : Type) where
  enabled : Bool
  original : σ

/-- core/internal/domain/model/rawmode.go:36-45 `NewRawMode`: nil state is an error. -/
def newRawMode {σ : Type} : Option σ → Option (RawMode σ)
  | none => none
  | some s => some ⟨false, s⟩
/-- core/internal/domain/model/rawmode.go:60-64 -/
def RawMode.enable {σ : Type} (r : RawMode σ) : RawMode σ := { r with enabled := true }
/-- core/internal/domain/model/rawmode.go:68-72 -/
def RawMode.disable {σ : Type} (r : RawMode σ) : RawMode σ := { r with enabled := false }

/-- core/internal/domain/model/terminal.go:20-24 -/
structure Terminal (σ : Type) where
  caps : Caps
  raw : Option (RawMode σ)
  size : Size

/-- core/internal/domain/model/terminal.go:28-39 `NewTerminal`. -/
def newTerminal {σ : Type} (caps : Option Caps) : Terminal σ :=
  ⟨caps.getD (newCaps false depthNone false false false), none, newSize 80 24⟩

/-- core/internal/domain/model/terminal.go:52-54 -/
def Terminal.isRaw {σ : Type} (t : Terminal σ) : Bool :=
  match t.raw with
  | none => false
  | some r => r.enabled

/-- Calls of the immutable terminal API that return a new terminal. core/internal/domain/model/terminal.go:63-83. -/
inductive TOp (σ : Type) where
  | withSize (w h : Int)
  | withRawMode (r : Option (RawMode σ))

/-- core/core.go:158-162 `WithSize` (clamps), 174-180 `WithRawMode` (nil is ignored). -/
def Terminal.step {σ : Type} (t : Terminal σ) : TOp σ → Terminal σ
  | .withSize w h => { t with size := newSize w h }
  | .withRawMode none => t
  | .withRawMode (some r) => { t with raw := some r }

/-- core/internal/domain/value/unicode_config.go:10-71: the only observable is `IsEastAsianWide`. -/
structure UConfig where
  wide : Bool

/-- core/internal/domain/service/unicode_service.go:41-46 `StringWidth`. -/
def stringWidth (strW : List Char → Int) (s : List Char) : Int := if s = [] then 0 else strW s

/-- core/internal/domain/service/unicode_service.go:211-220: the loop adding the ambiguous-width
difference of each rune. -/
def addWide (rw rwWide : Char → Int) : Int → List Char → Int
  | w, [] => w
  | w, r :: rs => addWide rw rwWide (if rwWide r > rw r then w + (rwWide r - rw r) else w) rs

/-- core/internal/domain/service/unicode_service.go:200-223 `StringWidthWithConfig` (237-260
`ClusterWidthWithConfig` has the same body). -/
def stringWidthCfg (strW : List Char → Int) (rw rwWide : Char → Int) (s : List Char) (c : UConfig) : Int :=
  if s = [] then 0
  else if c.wide then addWide rw rwWide (strW s) s else strW s

end Phoenix.Core
