import Verif.Decimal
/-
Model of the `mouse` package of /repo: report parsers, event processor, click detector, drag
tracker, hover tracker, menu positioner, scroll calculator and terminal mode switching.

Byte strings are lists of naturals (0..255 each).  Go `int` is modelled by `Int` (no 64-bit
overflow).  Timestamps are integers (nanoseconds); `time.Now()` is a parameter.
-/
namespace Phoenix.Mouse
open Phoenix

/-- mouse/internal/domain/value/button.go:6-21. -/
inductive Button | none | left | middle | right | wheelUp | wheelDown
  deriving DecidableEq, Repr

/-- button.go:44-46 IsWheel. -/
def Button.isWheel : Button → Bool
  | .wheelUp | .wheelDown => true
  | _ => false

/-- mouse/internal/domain/value/event_type.go:4-29. -/
inductive EventType
  | press | release | click | doubleClick | tripleClick | drag | motion | scroll
  | hoverEnter | hoverLeave | hoverMove
  deriving DecidableEq, Repr

/-- mouse/internal/domain/value/modifiers.go:4-45: three independent bits, modelled as booleans
(NewModifiers / HasShift / HasCtrl / HasAlt; the constants are 2, 4 and 8). -/
structure Mods where
  shift : Bool
  ctrl : Bool
  alt : Bool
  deriving DecidableEq, Repr

/-- mouse/internal/domain/value/position.go:7-15. -/
structure Pos where
  x : Int
  y : Int
  deriving DecidableEq, Repr

/-- position.go:38-48 DistanceTo (Manhattan distance). -/
def Pos.distanceTo (p o : Pos) : Int :=
  let dx := p.x - o.x
  let dy := p.y - o.y
  let dx := if dx < 0 then -dx else dx
  let dy := if dy < 0 then -dy else dy
  dx + dy

/-- mouse/internal/domain/model/mouse_event.go:12-51. -/
structure Event where
  type : EventType
  button : Button
  pos : Pos
  mods : Mods
  time : Int
  deriving DecidableEq, Repr

/-! ### Parsers -/

/-- Bit `k` of a Go int in two's complement (`code & (1<<k) != 0`). -/
def bit (code : Int) (k : Nat) : Bool := decide ((code.fdiv ((2 : Int) ^ k)) % 2 = 1)

/-- `code & 0x63`: bits 0, 1, 5 and 6. -/
def base (code : Int) : Nat :=
  (bit code 0).toNat + 2 * (bit code 1).toNat + 32 * (bit code 5).toNat + 64 * (bit code 6).toNat

/-- The switch of decodeButton: sgr_parser.go:88-103 (same in x10_parser.go:62-77 and
urxvt_parser.go:79-94). -/
def buttonOfBase (b : Nat) : Button :=
  if b = 0 then .left
  else if b = 1 then .middle
  else if b = 2 then .right
  else if b = 64 then .wheelUp
  else if b = 65 then .wheelDown
  else .none

/-- decodeButton: sgr_parser.go:76-106, x10_parser.go:51-80, urxvt_parser.go:68-97 (three
identical copies). -/
def decodeButton (code : Int) : Button × Mods :=
  (buttonOfBase (base code), ⟨bit code 2, bit code 4, bit code 3⟩)

/-- The switch of encodeButton: sgr_parser.go:137-150. -/
def buttonBase : Button → Nat
  | .left => 0
  | .middle => 1
  | .right => 2
  | .wheelUp => 64
  | .wheelDown => 65
  | .none => 32

/-- encodeButton: sgr_parser.go:133-164, x10_parser.go:96-127, urxvt_parser.go:112-143. -/
def encodeButton (b : Button) (m : Mods) : Nat :=
  let code := buttonBase b
  let code := if m.shift then code ||| 4 else code
  let code := if m.alt then code ||| 8 else code
  if m.ctrl then code ||| 16 else code

/-- strings.TrimPrefix / TrimSuffix for one byte. Go library; sgr_parser.go:29. -/
def trimPrefix (c : Nat) (l : List Nat) : List Nat := if l.head? = some c then l.tail else l
/-- Go library; sgr_parser.go:27-73. -/
def trimSuffix (c : Nat) (l : List Nat) : List Nat := if l.getLast? = some c then l.dropLast else l

/-- Three `;`-separated integers: sgr_parser.go:32-55, urxvt_parser.go:26-49 (x-- and y--
included). -/
def threeInts (l : List Nat) : Option (Int × Pos) :=
  let parts := Dec.split 59 l
  if parts.length = 3 then
    (Dec.atoi (parts.getD 0 [])).bind fun c =>
      (Dec.atoi (parts.getD 1 [])).bind fun x =>
        (Dec.atoi (parts.getD 2 [])).map fun y => (c, ⟨x - 1, y - 1⟩)
  else none

/-- The event type of a parsed report: sgr_parser.go:62-69; x10_parser.go:39-44 and
urxvt_parser.go:56-61 pass `true`. -/
def reportType (b : Button) (isPress : Bool) : EventType :=
  if b.isWheel then .scroll else if isPress then .press else .release

/-- Build the event: sgr_parser.go:58-72. -/
def mkReport (now : Int) (isPress : Bool) (code : Int) (p : Pos) : Event :=
  let bm := decodeButton code
  ⟨reportType bm.1 isPress, bm.1, p, bm.2, now⟩

/-- SGRParser.Parse: sgr_parser.go:27-73; `none` = error. -/
def sgrParse (now : Int) (l : List Nat) (isPress : Bool) : Option Event :=
  (threeInts (trimPrefix 60 l)).map fun r => mkReport now isPress r.1 r.2

/-- URxvtParser.Parse: urxvt_parser.go:24-65. -/
def urxvtParse (now : Int) (l : List Nat) : Option Event :=
  (threeInts l).map fun r => mkReport now true r.1 r.2

/-- X10Parser.Parse: x10_parser.go:23-48. -/
def x10Parse (now : Int) (l : List Nat) : Option Event :=
  if l.length = 3 then
    some (mkReport now true ((l.getD 0 0 : Int) - 32)
      ⟨(l.getD 1 0 : Int) - 32 - 1, (l.getD 2 0 : Int) - 32 - 1⟩)
  else none

/-- mouse_handler.go:84-93 parseSGR. -/
def parseSGR (now : Int) (l : List Nat) : Option Event :=
  let isPress := decide (l.getLast? = some 77)
  sgrParse now (trimSuffix 109 (trimSuffix 77 l)) isPress

/-- mouse_handler.go:96-105 parseX10. -/
def parseX10 (now : Int) (l : List Nat) : Option Event :=
  let l := trimPrefix 77 l
  if l.length ≠ 3 then none else x10Parse now l

/-- mouse_handler.go:108-113 parseURxvt. -/
def parseURxvt (now : Int) (l : List Nat) : Option Event := urxvtParse now (trimSuffix 77 l)

/-- mouse_handler.go:63-81 parseRawEvent. -/
def parseRaw (now : Int) (s : List Nat) : Option Event :=
  let s := trimPrefix 91 (trimPrefix 27 s)
  if s.head? = some 60 then parseSGR now s
  else if s.head? = some 77 then parseX10 now s
  else if s.contains 59 && decide (s.getLast? = some 77) then parseURxvt now s
  else none

/-- SGRParser.FormatSequence: sgr_parser.go:115-130. -/
def sgrFormat (e : Event) (isPress : Bool) : List Nat :=
  [27, 91, 60] ++ Dec.nat (encodeButton e.button e.mods) ++ [59] ++ Dec.int (e.pos.x + 1) ++ [59] ++
    Dec.int (e.pos.y + 1) ++ [if isPress then 77 else 109]

/-- URxvtParser.FormatSequence: urxvt_parser.go:100-109. -/
def urxvtFormat (e : Event) : List Nat :=
  [27, 91] ++ Dec.nat (encodeButton e.button e.mods) ++ [59] ++ Dec.int (e.pos.x + 1) ++ [59] ++
    Dec.int (e.pos.y + 1) ++ [77]

/-- Go conversion `byte(n)`. x10_parser.go:88-92. -/
def toByte (n : Int) : Nat := (n % 256).toNat

/-- X10Parser.FormatSequence: x10_parser.go:83-93. -/
def x10Format (e : Event) : List Nat :=
  [27, 91, 77, toByte (encodeButton e.button e.mods + 32), toByte (e.pos.x + 1 + 32),
    toByte (e.pos.y + 1 + 32)]

/-! ### Click detector -/

/-- mouse/internal/domain/service/click_detector.go:13-18. -/
structure Detector where
  last : Option Event
  count : Int
  timeout : Int
  tolerance : Int
  deriving DecidableEq, Repr

/-- click_detector.go:23-34 NewClickDetector (500 ms = 500000000 ns). -/
def Detector.new (timeout tolerance : Int) : Detector :=
  { last := none, count := 0,
    timeout := if timeout ≤ 0 then 500000000 else timeout,
    tolerance := if tolerance < 0 then 1 else tolerance }

/-- click_detector.go:46-50: the condition for continuing a multi-click. -/
def Detector.continues (d : Detector) (l e : Event) : Bool :=
  decide (e.time - l.time ≤ d.timeout) && decide (e.pos.distanceTo l.pos ≤ d.tolerance) &&
    decide (e.button = l.button)

/-- click_detector.go:45-60: the incremented or restarted counter. -/
def Detector.nextCount (d : Detector) (e : Event) : Int :=
  d.last.elim 1 fun l => if d.continues l e then d.count + 1 else 1

/-- click_detector.go:63-75: type and stored counter. -/
def clickKind (n : Int) : EventType × Int :=
  if n = 1 then (.click, 1)
  else if n = 2 then (.doubleClick, 2)
  else if n = 3 then (.tripleClick, 3)
  else (.click, 1)

/-- click_detector.go:38-84 DetectClick. -/
def Detector.detect (d : Detector) (e : Event) : Option Event × Detector :=
  if e.type ≠ .release then (none, d)
  else
    let k := clickKind (d.nextCount e)
    let c := { e with type := k.1 }
    (some c, { d with last := some c, count := k.2 })

/-- click_detector.go:87-90 Reset. -/
def Detector.reset (d : Detector) : Detector := { d with last := none, count := 0 }

/-! ### Drag tracker -/

/-- mouse/internal/domain/model/drag_state.go:11-18. -/
structure Drag where
  active : Bool
  start : Pos
  current : Pos
  button : Button
  mods : Mods
  threshold : Int
  deriving DecidableEq, Repr

/-- drag_state.go:21-29 NewDragState. -/
def Drag.new (threshold : Int) : Drag :=
  ⟨false, ⟨0, 0⟩, ⟨0, 0⟩, .none, ⟨false, false, false⟩, if threshold ≤ 0 then 2 else threshold⟩

/-- drag_state.go:32-38 Start. -/
def Drag.begin (d : Drag) (e : Event) : Drag :=
  { d with active := true, start := e.pos, current := e.pos, button := e.button, mods := e.mods }

/-- drag_state.go:41-45 Update. -/
def Drag.update (d : Drag) (p : Pos) : Drag := if d.active then { d with current := p } else d

/-- drag_state.go:58-64 IsDrag. -/
def Drag.isDrag (d : Drag) : Bool :=
  d.active && decide (d.start.distanceTo d.current ≥ d.threshold)

/-- drag_tracker.go:22-30 ProcessPress. -/
def Drag.press (d : Drag) (e : Event) : Drag := if e.type = .press then d.begin e else d

/-- drag_tracker.go:34-54 ProcessMotion. -/
def Drag.motion (d : Drag) (e : Event) : Option Event × Drag :=
  if !d.active then (none, d)
  else
    let d := d.update e.pos
    if d.isDrag then (some ⟨.drag, d.button, e.pos, d.mods, e.time⟩, d) else (none, d)

/-- drag_tracker.go:58-69 ProcessRelease (the returned positions are ignored by the caller). -/
def Drag.release (d : Drag) : Bool × Drag :=
  if !d.active then (false, d) else (d.isDrag, { d with active := false })

/-- drag_state.go:95-101 Reset. -/
def Drag.reset (d : Drag) : Drag :=
  { d with active := false, start := ⟨0, 0⟩, current := ⟨0, 0⟩, button := .none,
           mods := ⟨false, false, false⟩ }

/-! ### Event processor -/

/-- mouse/internal/application/event_processor.go:19-25 (click detector and drag tracker; the
hover tracker, which shares no state with them, is modelled separately below). -/
structure Processor where
  clicks : Detector
  drag : Drag
  deriving DecidableEq, Repr

/-- event_processor.go:39-52 NewEventProcessorWithConfig. -/
def Processor.withConfig (clickTimeout clickTolerance dragThreshold : Int) : Processor :=
  ⟨.new clickTimeout clickTolerance, .new dragThreshold⟩

/-- event_processor.go:28-36 NewEventProcessor. -/
def Processor.new : Processor := .withConfig 500000000 1 2

/-- event_processor.go:65-76: the release case. -/
def Processor.release (p : Processor) (e : Event) : List Event × Processor :=
  let r := p.drag.release
  if !r.1 then
    let c := p.clicks.detect e
    (c.1.toList ++ [e], ⟨c.2, r.2⟩)
  else ([e], ⟨p.clicks, r.2⟩)

/-- event_processor.go:78-85: the motion case. -/
def Processor.motion (p : Processor) (e : Event) : List Event × Processor :=
  let r := p.drag.motion e
  (r.1.elim [e] (fun d => [d]), ⟨p.clicks, r.2⟩)

/-- event_processor.go:56-97 ProcessEvent. -/
def Processor.process (p : Processor) (e : Event) : List Event × Processor :=
  if e.type = .press then ([e], ⟨p.clicks, p.drag.press e⟩)
  else if e.type = .release then p.release e
  else if e.type = .motion then p.motion e
  else ([e], p)

/-- event_processor.go:100-104 Reset (without the hover tracker). -/
def Processor.reset (p : Processor) : Processor := ⟨p.clicks.reset, p.drag.reset⟩

/-- event_processor.go:122-124 IsDragging. -/
def Processor.isDragging (p : Processor) : Bool := p.drag.isDrag

/-- mouse_handler.go:50-60 ParseSequence (`none` = error, nothing changes). -/
def parseSequence (now : Int) (p : Processor) (s : List Nat) : Option (List Event) × Processor :=
  (parseRaw now s).elim (none, p) fun e => (some (p.process e).1, (p.process e).2)

/-! ### Scroll calculator -/

/-- scroll_calculator.go:15-22 NewScrollCalculator. -/
def linesPerScroll (n : Int) : Int := if n ≤ 0 then 3 else n

/-- scroll_calculator.go:26-39 CalculateDelta. -/
def scrollDelta (lines : Int) (e : Event) : Int :=
  if e.type ≠ .scroll then 0
  else if e.button = .wheelUp then -lines
  else if e.button = .wheelDown then lines
  else 0

/-! ### Hover tracker -/

/-- mouse/internal/domain/value/bounding_box.go:5-10. -/
structure Box where
  x : Int
  y : Int
  w : Int
  h : Int
  deriving DecidableEq, Repr

/-- bounding_box.go:13-27 NewBoundingBox. -/
def Box.new (x y w h : Int) : Box := ⟨x, y, if w < 0 then 0 else w, if h < 0 then 0 else h⟩

/-- bounding_box.go:50-55 Contains. -/
def Box.contains (b : Box) (p : Pos) : Bool :=
  decide (p.x ≥ b.x) && decide (p.x < b.x + b.w) && decide (p.y ≥ b.y) && decide (p.y < b.y + b.h)

/-- bounding_box.go:58-63 Overlaps. -/
def Box.overlaps (b o : Box) : Bool :=
  decide (b.x < o.x + o.w) && decide (b.x + b.w > o.x) && decide (b.y < o.y + o.h) &&
    decide (b.y + b.h > o.y)

/-- hover_tracker.go:22-25 ComponentArea; an ID is a string. -/
structure Area where
  id : String
  box : Box
  deriving DecidableEq, Repr

/-- mouse/internal/domain/model/hover_state.go:11-16 (without lastUpdate). -/
structure Hover where
  id : String
  pos : Pos
  active : Bool
  deriving DecidableEq, Repr

/-- hover_state.go:19-26 NewHoverState and 82-87 Reset. -/
def Hover.new : Hover := ⟨"", ⟨0, 0⟩, false⟩

/-- hover_state.go:49-51 IsHovering. -/
def Hover.isHovering (h : Hover) : Bool := h.active && h.id != ""

/-- hover_state.go:54-59 Enter. -/
def Hover.enter (_h : Hover) (id : String) (p : Pos) : Hover := ⟨id, p, true⟩

/-- hover_state.go:62-68 Move. -/
def Hover.move (h : Hover) (p : Pos) : Hover := if !h.active then h else { h with pos := p }

/-- hover_state.go:71-79 Leave. -/
def Hover.leave (h : Hover) (p : Pos) : Hover := if !h.active then h else ⟨"", p, false⟩

/-- hover_tracker.go:34-40: the loop over the areas. -/
def hoveredId (p : Pos) : List Area → String
  | [] => ""
  | a :: t => if a.box.contains p then a.id else hoveredId p t

/-- hover_tracker.go:32-74 Update. -/
def Hover.step (h : Hover) (p : Pos) (areas : List Area) : EventType × Hover :=
  let id := hoveredId p areas
  if id = "" then
    if h.isHovering then (.hoverLeave, h.leave p) else (.motion, h)
  else if !h.isHovering then (.hoverEnter, h.enter id p)
  else if id ≠ h.id then (.hoverEnter, h.enter id p)
  else (.hoverMove, h.move p)

/-! ### Menu positioner -/

/-- menu_positioner.go:42-92 CalculatePosition. -/
def menuPosition (c : Pos) (mw mh sw sh : Int) : Pos :=
  let mw := if mw < 0 then 0 else mw
  let mh := if mh < 0 then 0 else mh
  let sw := if sw < 0 then 0 else sw
  let sh := if sh < 0 then 0 else sh
  if mw > sw ∨ mh > sh then ⟨0, 0⟩
  else
    let x := if c.x + mw > sw then (if sw - mw < 0 then 0 else sw - mw) else c.x
    let y := if c.y + mh > sh then (if sh - mh < 0 then 0 else sh - mh) else c.y
    ⟨x, y⟩

/-! ### Terminal mouse modes -/

/-- mouse_ansi.go:39-46: `ESC [ ? mode h|l` (itoa, mouse_ansi.go:71-86, agrees with decimal
printing for the mode numbers, all positive). -/
def modeSeq (mode : Nat) (on : Bool) : List Nat :=
  [27, 91, 63] ++ Dec.nat mode ++ [if on then 104 else 108]

/-- mouse_ansi.go:61-63 EnableMouseAll. -/
def enableAllSeq : List Nat := modeSeq 1006 true ++ modeSeq 1002 true

/-- mouse_ansi.go:66-68 DisableMouseAll. -/
def disableAllSeq : List Nat := modeSeq 1006 false ++ modeSeq 1002 false

/-- terminal_mode.go:13-16, with the bytes written so far to stdout. -/
structure TermMode where
  enabled : Bool
  mode : Nat
  out : List Nat
  deriving DecidableEq, Repr

/-- terminal_mode.go:19-24 NewTerminalMode. -/
def TermMode.new : TermMode := ⟨false, 1006, []⟩

/-- os.Stdout.WriteString: `none` = every byte is written, `some k` = an error after the first
`k` bytes. Environment; terminal_mode.go:27-121. -/
def TermMode.write (t : TermMode) (r : Option Nat) (s : List Nat) : Bool × TermMode :=
  match r with
  | none => (true, { t with out := t.out ++ s })
  | some k => (false, { t with out := t.out ++ s.take k })

/-- terminal_mode.go:55-76 Disable; `r1`, `r2` are the results of the two writes, the returned
boolean is "no error". -/
def TermMode.disable (t : TermMode) (r1 r2 : Option Nat) : Bool × TermMode :=
  if !t.enabled then (true, t)
  else
    let a := t.write r1 (modeSeq t.mode false)
    if !a.1 then (false, a.2)
    else if t.mode = 1006 then
      let b := a.2.write r2 (modeSeq 1002 false)
      if !b.1 then (false, b.2) else (true, { b.2 with enabled := false })
    else (true, { a.2 with enabled := false })

/-- terminal_mode.go:27-52 Enable. -/
def TermMode.enable (t : TermMode) (m : Nat) (r1 r2 r3 r4 : Option Nat) : Bool × TermMode :=
  let d := if t.enabled then t.disable r1 r2 else (true, t)
  if !d.1 then (false, d.2)
  else
    let a := d.2.write r3 (modeSeq m true)
    if !a.1 then (false, a.2)
    else if m = 1006 then
      let b := a.2.write r4 (modeSeq 1002 true)
      if !b.1 then (false, b.2) else (true, { b.2 with enabled := true, mode := m })
    else (true, { a.2 with enabled := true, mode := m })

/-- terminal_mode.go:89-105 EnableAll (what Mouse.Enable, mouse.go:271-273, calls). -/
def TermMode.enableAll (t : TermMode) (r1 r2 r3 : Option Nat) : Bool × TermMode :=
  let d := if t.enabled then t.disable r1 r2 else (true, t)
  if !d.1 then (false, d.2)
  else
    let a := d.2.write r3 enableAllSeq
    if !a.1 then (false, a.2) else (true, { a.2 with enabled := true, mode := 1006 })

/-- terminal_mode.go:108-121 DisableAll (what Mouse.Disable, mouse.go:277-279, calls). -/
def TermMode.disableAll (t : TermMode) (r : Option Nat) : Bool × TermMode :=
  if !t.enabled then (true, t)
  else
    let a := t.write r disableAllSeq
    if !a.1 then (false, a.2) else (true, { a.2 with enabled := false })

end Phoenix.Mouse
