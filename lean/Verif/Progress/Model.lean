/-
  Model of components/progress: the progress bar and the spinner.

  Simplifications (apply to the whole file):
  * Go `int` is `Int` (no 64-bit wrap-around: `Increment(delta)` with a delta
    near MaxInt is outside the model);
  * strings are lists of characters, so `strings.Repeat(string(r), n)` is
    `List.replicate n r`; `len` is never taken of a rendered string here;
  * the theme field is stored but never read by the code and is left out.
-/
namespace Phoenix.Progress

/-- components/progress/internal/domain/value/percentage.go:41-49 `clamp`. -/
def clamp (value minVal maxVal : Int) : Int :=
  if value < minVal then minVal
  else if value > maxVal then maxVal
  else value

/-- components/progress/internal/domain/value/percentage.go:12-16 `NewPercentage`
    (the struct has the single field `value`). -/
def newPercentage (value : Int) : Int := clamp value 0 100

/-- components/progress/internal/domain/model/bar.go:8-15 `Bar`. -/
structure Bar where
  percentage : Int
  width : Int
  fillChar : Char
  emptyChar : Char
  showPercent : Bool
  label : List Char
  deriving DecidableEq, Repr

/-- components/progress/internal/domain/model/bar.go:19-32 `NewBar`,
    components/progress/bar.go:29-34. -/
def newBar (width : Int) : Bar :=
  { percentage := newPercentage 0
    width := if width < 1 then 1 else width
    fillChar := '█', emptyChar := '░', showPercent := false, label := [] }

/-- components/progress/internal/domain/model/bar.go:35-39 `NewBarWithPercentage`,
    components/progress/bar.go:38-43 `NewBarWithProgress`. -/
def newBarWithProgress (width percentage : Int) : Bar :=
  { newBar width with percentage := newPercentage percentage }

/-- The public builder and update methods of a bar. components/progress/bar.go:48-136. -/
inductive Op where
  | setProgress (pct : Int)
  | increment (delta : Int)
  | decrement (delta : Int)
  | fillChar (c : Char)
  | emptyChar (c : Char)
  | showPercent (b : Bool)
  | label (s : List Char)
  | update
  deriving DecidableEq, Repr

/-- components/progress/bar.go:48-102 and 132-136, components/progress/internal/domain/model/bar.go:42-93,
    value/percentage.go:25-33 (`Add`, `Subtract`). -/
def apply (b : Bar) : Op → Bar
  | .setProgress pct => { b with percentage := newPercentage pct }
  | .increment d => { b with percentage := newPercentage (b.percentage + d) }
  | .decrement d => { b with percentage := newPercentage (b.percentage - d) }
  | .fillChar c => { b with fillChar := c }
  | .emptyChar c => { b with emptyChar := c }
  | .showPercent s => { b with showPercent := s }
  | .label s => { b with label := s }
  | .update => b

/-- value/percentage.go:36-38 `IsComplete`, components/progress/bar.go:119-121. -/
def isComplete (b : Bar) : Bool := b.percentage == 100

/-- components/progress/internal/domain/service/render.go:53-68 `CalculateFilledWidth`. -/
def calculateFilledWidth (barWidth percentage : Int) : Int :=
  if barWidth ≤ 0 then 0
  else if percentage ≤ 0 then 0
  else if percentage ≥ 100 then barWidth
  else (percentage * barWidth).tdiv 100

/-- components/progress/internal/domain/service/render.go:71-76: `string(rune('0'+d))`
    of one digit. -/
def digit (d : Int) : Char := Char.ofNat (48 + d).toNat

/-- components/progress/internal/domain/service/render.go:71-76 `formatPercentage`. -/
def formatPercentage (pct : Int) : List Char :=
  [digit ((pct.tdiv 100).tmod 10), digit ((pct.tdiv 10).tmod 10), digit (pct.tmod 10), '%']

/-- Go's `strings.Join(parts, " ")`. Go library; components/progress/internal/domain/model/bar.go. -/
def joinSp : List (List Char) → List Char
  | [] => []
  | [p] => p
  | p :: q :: rest => p ++ ' ' :: joinSp (q :: rest)

/-- components/progress/internal/domain/service/render.go:35-40: the bar proper. -/
def barStr (b : Bar) : List Char :=
  List.replicate (calculateFilledWidth b.width b.percentage).toNat b.fillChar ++
  List.replicate (b.width - calculateFilledWidth b.width b.percentage).toNat b.emptyChar

/-- components/progress/internal/domain/service/render.go:22-49 `RenderBar`,
    components/progress/bar.go:139-141 `View`. -/
def view (b : Bar) : List Char :=
  joinSp ((if b.label ≠ [] then [b.label] else []) ++ [barStr b] ++
          (if b.showPercent then [formatPercentage b.percentage] else []))

/-! ## Spinner -/

/-- components/progress/internal/domain/value/spinner_style.go:5-8 `SpinnerStyle`. -/
structure SpinnerStyle where
  frames : List (List Char)
  fps : Int
  deriving DecidableEq, Repr

/-- components/progress/internal/domain/value/spinner_style.go:13-29 `NewSpinnerStyle`. -/
def newSpinnerStyle (frames : List (List Char)) (fps : Int) : SpinnerStyle :=
  { frames := if frames = [] then [['•']] else frames
    fps := if fps ≤ 0 then 10 else fps }

/-- components/progress/internal/domain/value/spinner_style.go:50-63 `GetFrame`.
    `none` is the run-time panic of an out-of-range slice index. -/
def getFrame (s : SpinnerStyle) (index : Int) : Option (List Char) :=
  if s.frames.length = 0 then some []
  else
    let i1 := if index < 0 then (s.frames.length : Int) + index.tmod s.frames.length else index
    let i2 := i1.tmod s.frames.length
    if i2 < 0 then none else s.frames[i2.toNat]?

/-- components/progress/internal/domain/model/spinner.go:7-11 and
    components/progress/spinner.go:22-25. -/
structure Spinner where
  style : SpinnerStyle
  frameIndex : Int
  label : List Char
  deriving DecidableEq, Repr

/-- components/progress/internal/domain/model/spinner.go:14-25 `NewSpinner`. -/
def newSpinner (style : SpinnerStyle) : Spinner := ⟨style, 0, []⟩

/-- components/progress/internal/infrastructure/spinners.go:12-14: the "dots" style
    every unknown name falls back to (122-128), and `NewSpinnerCustom` always uses. -/
def dots : SpinnerStyle :=
  newSpinnerStyle [['⠋'], ['⠙'], ['⠹'], ['⠸'], ['⠼'], ['⠴'], ['⠦'], ['⠧'], ['⠇'], ['⠏']] 10

/-- components/progress/spinner.go:42-46 `NewSpinnerCustom`: the frames argument is the
    blank identifier and `fps` is unused. -/
def newSpinnerCustom (_frames : List (List Char)) (_fps : Int) : Spinner := newSpinner dots

/-- Messages a spinner distinguishes. components/progress/spinner.go:74-83. -/
inductive Msg where
  | tick
  | other
  deriving DecidableEq, Repr

/-- components/progress/internal/domain/model/spinner.go:35-38 `NextFrame`. -/
def nextFrame (s : Spinner) : Spinner :=
  { s with frameIndex := (s.frameIndex + 1).tmod s.style.frames.length }

/-- components/progress/spinner.go:99-103 `tick`: the delay in nanoseconds,
    `time.Second / time.Duration(fps)`. -/
def tickDelay (s : Spinner) : Int := (1000000000 : Int).tdiv s.style.fps

/-- components/progress/spinner.go:74-83 `Update`: the new spinner and the delay of the
    tick command returned (`none` = no command). -/
def update (s : Spinner) : Msg → Spinner × Option Int
  | .tick => (nextFrame s, some (tickDelay (nextFrame s)))
  | .other => (s, none)

/-- components/progress/spinner.go:88-96 `View`. -/
def spinnerView (s : Spinner) : Option (List Char) :=
  (getFrame s.style s.frameIndex).map fun frame =>
    if s.label ≠ [] then frame ++ ' ' :: s.label else frame

/-- An application that embeds several spinners and passes every message to each of
    them, running each returned command on its own (the pattern of
    components/progress/README.md:48-54, once per spinner): what one delivered
    message does.  Returns the new spinners and the delays of the tick commands that
    the runtime now has to run (each becomes one later `tick` message). -/
def updateAll (ss : List Spinner) (m : Msg) : List Spinner × List Int :=
  (ss.map fun s => (update s m).1, ss.filterMap fun s => (update s m).2)

/-- components/progress/spinner.go:67-69 `Init` of every spinner: the delays of the initial ticks. -/
def initAll (ss : List Spinner) : List Int := ss.map tickDelay

/-- Deliver `n` pending ticks one after the other; the result counts the tick commands
    produced, i.e. the number of ticks pending in the next round.
The event loop delivering ticks; components/progress/spinner.go:74-103. -/
def round : Nat → List Spinner → List Spinner × Nat
  | 0, ss => (ss, 0)
  | n + 1, ss =>
    ((round n (updateAll ss .tick).1).1,
     (updateAll ss .tick).2.length + (round n (updateAll ss .tick).1).2)

/-- `g` rounds starting from the state after `Init`: the number of ticks pending.
The event loop delivering ticks; components/progress/spinner.go:67-103. -/
def pendingAfter : Nat → List Spinner → Nat → List Spinner × Nat
  | 0, ss, p => (ss, p)
  | g + 1, ss, p => pendingAfter g (round p ss).1 (round p ss).2

end Phoenix.Progress
