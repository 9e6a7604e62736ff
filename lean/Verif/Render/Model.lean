/-
Model of the differential renderer.

Sources (under /repo/render/internal):
  domain/model/{cell,buffer}.go, domain/value/{style,position}.go,
  domain/service/{diff,optimize}.go, infrastructure/ansi/{writer,codes}.go,
  application/renderer.go

Simplifications:
  * the io.Writer never fails; output is the list of tokens written and flushed
    (escape sequences as tokens; their byte encoding is not part of this model);
  * the mutexes are omitted: every public method holds one lock for its whole duration,
    so calls are atomic;
  * `*Color` pointers are `Option Color` (pointers are never shared mutably);
  * the float test `changed/total > 0.75` is the exact rational one (both operands are far
    below 2^50, so float rounding cannot change the outcome);
  * the width of a rune (uniseg) is a parameter of `Cell.mk` callers; a cell carries the
    width it was created with, as in the code.
-/
namespace Phoenix.Render

/-- domain/value/color.go:8-10. -/
structure Color where
  r : UInt8
  g : UInt8
  b : UInt8
deriving DecidableEq, Repr

/-- domain/value/style.go:10-21. -/
structure Style where
  fg : Option Color := none
  bg : Option Color := none
  bold : Bool := false
  italic : Bool := false
  underline : Bool := false
  reverse : Bool := false
  dim : Bool := false
  blink : Bool := false
  hidden : Bool := false
  strike : Bool := false
deriving DecidableEq, Repr

/-- style.go:24-26 `NewStyle`. -/
def Style.new : Style := {}

/-- style.go:156-181 `Equals` (transcribed comparison by comparison). -/
def Style.equals (s o : Style) : Bool :=
  if s.fg.isNone != o.fg.isNone then false
  else if s.fg.isSome && !(s.fg == o.fg) then false
  else if s.bg.isNone != o.bg.isNone then false
  else if s.bg.isSome && !(s.bg == o.bg) then false
  else s.bold == o.bold && s.italic == o.italic && s.underline == o.underline &&
    s.reverse == o.reverse && s.dim == o.dim && s.blink == o.blink &&
    s.hidden == o.hidden && s.strike == o.strike

/-- style.go:184-188 `IsEmpty`. -/
def Style.isEmpty (s : Style) : Bool :=
  s.fg.isNone && s.bg.isNone && !s.bold && !s.italic && !s.underline && !s.reverse &&
    !s.dim && !s.blink && !s.hidden && !s.strike

/-- One SGR parameter group as produced by style.go:200-235. -/
inductive Sgr where
  | fg (c : Color) | bg (c : Color)
  | bold | dim | italic | underline | blink | reverse | hidden | strike
deriving DecidableEq, Repr

/-- style.go:192-238 `ToANSI`: the list of codes; `[]` is the empty string. -/
def Style.toANSI (s : Style) : List Sgr :=
  if s.isEmpty then []
  else
    (s.fg.map Sgr.fg).toList ++
    (s.bg.map Sgr.bg).toList ++
    (if s.bold then [Sgr.bold] else []) ++ (if s.dim then [Sgr.dim] else []) ++
    (if s.italic then [Sgr.italic] else []) ++ (if s.underline then [Sgr.underline] else []) ++
    (if s.blink then [Sgr.blink] else []) ++ (if s.reverse then [Sgr.reverse] else []) ++
    (if s.hidden then [Sgr.hidden] else []) ++ (if s.strike then [Sgr.strike] else [])

/-- domain/model/cell.go:10-14. -/
structure Cell where
  char : Char
  style : Style
  width : Nat
deriving DecidableEq, Repr

/-- cell.go:28-34 `NewEmptyCell`. -/
def Cell.empty : Cell := { char := ' ', style := Style.new, width := 1 }

/-- cell.go:61-63 `IsEmpty`. -/
def Cell.isEmpty (c : Cell) : Bool := c.char == ' ' && c.style.isEmpty

/-- cell.go:66-70 `Equals`. -/
def Cell.equals (c o : Cell) : Bool :=
  c.char == o.char && c.width == o.width && c.style.equals o.style

/-- domain/model/buffer.go:13-17. -/
structure Buffer where
  width : Nat
  height : Nat
  cells : List (List Cell)
deriving DecidableEq, Repr

/-- buffer.go:21-42 `NewBuffer`. -/
def Buffer.new (width height : Int) : Buffer :=
  let w := if width < 0 then 0 else width.toNat
  let h := if height < 0 then 0 else height.toNat
  { width := w, height := h, cells := List.replicate h (List.replicate w Cell.empty) }

/-- buffer.go:60-66 `Get`. -/
def Buffer.get (b : Buffer) (x y : Int) : Cell :=
  if x < 0 ∨ x ≥ b.width ∨ y < 0 ∨ y ≥ b.height then Cell.empty
  else (b.cells.getD y.toNat []).getD x.toNat Cell.empty

/-- buffer.go:69-75 `Set`. -/
def Buffer.set (b : Buffer) (x y : Int) (c : Cell) : Buffer :=
  if x < 0 ∨ x ≥ b.width ∨ y < 0 ∨ y ≥ b.height then b
  else { b with cells := b.cells.set y.toNat ((b.cells.getD y.toNat []).set x.toNat c) }

/-- The double loop `for y := 0; y < h; y++ { for x := 0; x < w; x++ {..} }`: positions in the
order visited. -/
def positions (w h : Nat) : List (Nat × Nat) :=
  (List.range h).flatMap fun y => (List.range w).map fun x => (x, y)

/-- Cell-wise assignment loop shared by Clear, Fill, Clone and Resize: assign `f x y` at the
visited positions. render/internal/domain/model/buffer.go:78-94, 155-181. -/
def Buffer.assign (b : Buffer) (ps : List (Nat × Nat)) (f : Nat → Nat → Cell) : Buffer :=
  ps.foldl (fun b p => b.set p.1 p.2 (f p.1 p.2)) b

/-- buffer.go:78-84 `Clear`. -/
def Buffer.clear (b : Buffer) : Buffer := b.assign (positions b.width b.height) fun _ _ => Cell.empty

/-- buffer.go:87-94 `Fill` (the cell is built by the caller: NewCell(char, style)). -/
def Buffer.fill (b : Buffer) (c : Cell) : Buffer := b.assign (positions b.width b.height) fun _ _ => c

/-- buffer.go:155-163 `Clone`. -/
def Buffer.clone (b : Buffer) : Buffer :=
  (Buffer.new b.width b.height).assign (positions b.width b.height) fun x y => b.get x y

/-- buffer.go:167-181 `Resize`. With a negative argument the loops run over nothing. -/
def Buffer.resize (b : Buffer) (width height : Int) : Buffer :=
  (Buffer.new width height).assign
    (positions (min (b.width : Int) width).toNat (min (b.height : Int) height).toNat)
    fun x y => b.get x y

/-- buffer.go:99-135 `SetString`. The grapheme clusters of the text are given as pairs
(first rune, display width), as delivered by uniseg. Returns the buffer and the number of
columns written. -/
def Buffer.setClusters (b : Buffer) (x y : Int) (style : Style) : List (Char × Nat) → Buffer × Nat
  | [] => (b, 0)
  | (c, w) :: rest =>
    if x ≥ b.width then (b, 0)
    else
      let r := (b.set x y { char := c, style := style, width := w }).setClusters (x + w) y style rest
      (r.1, w + r.2)

/-- buffer.go:99-135 `SetString`, entry check. -/
def Buffer.setString (b : Buffer) (x y : Int) (text : List (Char × Nat)) (style : Style) : Buffer × Nat :=
  if y < 0 ∨ y ≥ b.height ∨ x < 0 then (b, 0) else b.setClusters x y style text

/-- buffer.go:139-152 `SetLine`. -/
def Buffer.setLine (b : Buffer) (y : Int) (text : List (Char × Nat)) (style : Style) : Buffer :=
  if y < 0 ∨ y ≥ b.height then b
  else
    let r := b.setString 0 y text style
    ((List.range b.width).drop r.2).foldl (fun (b : Buffer) (x : Nat) => b.set x y Cell.empty) r.1

/-- buffer.go:206-215 `IsEmpty`. -/
def Buffer.isEmpty (b : Buffer) : Bool :=
  (positions b.width b.height).all fun p => (b.get p.1 p.2).isEmpty

/-! ### Diff service (domain/service/diff.go) -/

/-- diff.go:10-19. -/
inductive OpType where
  | set | clear | moveCursor
deriving DecidableEq, Repr

/-- diff.go:22-26. -/
structure DiffOp where
  type : OpType
  x : Int
  y : Int
  cell : Cell
deriving DecidableEq, Repr

/-- diff.go:72-92 `diffFullBuffer`. -/
def diffFull (b : Buffer) : List DiffOp :=
  (positions b.width b.height).filterMap fun p =>
    if !(b.get p.1 p.2).isEmpty then some ⟨.set, p.1, p.2, b.get p.1 p.2⟩ else none

/-- diff.go:38-69 `Diff` (both buffers non-nil). -/
def diff (old new : Buffer) : List DiffOp :=
  if old.width ≠ new.width ∨ old.height ≠ new.height then diffFull new
  else (positions new.width new.height).filterMap fun p =>
    if !(old.get p.1 p.2).equals (new.get p.1 p.2) then some ⟨.set, p.1, p.2, new.get p.1 p.2⟩
    else none

/-- diff.go:137-140 `CountChanges`. -/
def countChanges (old new : Buffer) : Nat := (diff old new).length

/-- diff.go:144-163 `HasChanges`. -/
def hasChanges (old new : Buffer) : Bool :=
  if old.width ≠ new.width ∨ old.height ≠ new.height then true
  else (positions new.width new.height).any fun p => !(old.get p.1 p.2).equals (new.get p.1 p.2)

/-- diff.go:115-133 `DiffLine`. -/
def diffLine (old new : List Cell) (y : Int) : List DiffOp :=
  if old.length ≠ new.length then []
  else (List.range new.length).filterMap fun x =>
    if !(old.getD x Cell.empty).equals (new.getD x Cell.empty)
    then some ⟨.set, x, y, new.getD x Cell.empty⟩ else none

/-! ### Optimize service (domain/service/optimize.go) -/

/-- optimize.go:31-55 `RemoveRedundant`: the loop with `lastStyle`. -/
def removeRedundant (ops : List DiffOp) (lastStyle : Style) : List DiffOp :=
  match ops with
  | [] => []
  | op :: rest =>
    if op.type = .set then
      if !op.cell.style.equals lastStyle then op :: removeRedundant rest op.cell.style
      else op :: removeRedundant rest lastStyle
    else op :: removeRedundant rest lastStyle

/-- optimize.go:70-102 `MergeAdjacentOps`. -/
def mergeAdjacentOps : List DiffOp → List DiffOp
  | [] => []
  | [op] => [op]
  | cur :: next :: rest =>
    if cur.type = .set ∧ next.type = .set ∧ cur.y = next.y ∧ next.x = cur.x + cur.cell.width ∧
        cur.cell.style.equals next.cell.style = true
    then cur :: mergeAdjacentOps (next :: rest)
    else cur :: mergeAdjacentOps (next :: rest)

/-- optimize.go:19-27 `BatchStyles`. -/
def batchStyles (ops : List DiffOp) : List DiffOp := ops

/-- optimize.go:59-67 `OptimizeCursorMoves`. -/
def optimizeCursorMoves (ops : List DiffOp) : List DiffOp := ops

/-- diff.go:96-111 `Optimize`. -/
def optimize (ops : List DiffOp) : List DiffOp := ops

/-- optimize.go:148-157 `GroupByLine`: the map as a function from line to its group. -/
def groupByLine (ops : List DiffOp) : Int → List DiffOp :=
  ops.foldl (fun g op => fun y => if y = op.y then g y ++ [op] else g y) (fun _ => [])

/-- optimize.go:136-145 `ShouldFullRedraw`. -/
def shouldFullRedraw (changed total : Nat) : Bool :=
  if total = 0 then false else decide (4 * changed > 3 * total)

/-! ### Writer (infrastructure/ansi/writer.go) -/

/-- What is written to the terminal: codes.go escape sequences and runes.
render/internal/infrastructure/ansi/codes.go:69-71 and the callers in writer.go:47-227. -/
inductive Token where
  | move (x y : Int)        -- CSI y+1 ; x+1 H   (codes.go:69-71)
  | sgr (codes : List Sgr)  -- CSI .. m           (style.go:237)
  | char (c : Char)
  | clearScreen             -- CSI 2 J
  | clearLine               -- CSI 2 K
  | reset                   -- CSI 0 m
  | hideCursor | showCursor -- CSI ? 25 l / h
deriving DecidableEq, Repr

/-- writer.go:15-22 (tracked state). -/
structure Writer where
  x : Int
  y : Int
  style : Style
deriving DecidableEq, Repr

/-- writer.go:25-33 `NewWriter`. -/
def Writer.new : Writer := { x := 0, y := 0, style := Style.new }

/-- writer.go:47-63 `MoveCursor`. -/
def Writer.moveCursor (w : Writer) (x y : Int) : Writer × List Token :=
  if x = w.x ∧ y = w.y then (w, []) else ({ w with x := x, y := y }, [.move x y])

/-- writer.go:93-116 `WriteCell`. -/
def Writer.writeCell (w : Writer) (c : Cell) : Writer × List Token :=
  let st :=
    if !c.style.equals w.style then
      (({ w with style := c.style } : Writer),
        if c.style.toANSI ≠ [] then [Token.sgr c.style.toANSI] else [])
    else (w, [])
  ({ st.1 with x := st.1.x + c.width }, st.2 ++ [.char c.char])

/-- writer.go:119-124 `WriteCellAt`; also renderer.go:140-145, 170-175. -/
def Writer.writeCellAt (w : Writer) (x y : Int) (c : Cell) : Writer × List Token :=
  let m := w.moveCursor x y
  let k := m.1.writeCell c
  (k.1, m.2 ++ k.2)

/-! ### Renderer (application/renderer.go) -/

/-- renderer.go:19-32 (`currentBuffer` is never read, pool omitted). -/
structure Renderer where
  writer : Writer
  prev : Buffer
  width : Int
  height : Int
deriving DecidableEq, Repr

/-- renderer.go:35-52 `NewRenderer`. -/
def Renderer.new (width height : Int) : Renderer :=
  { writer := Writer.new, prev := Buffer.new width height, width := width, height := height }

/-- renderer.go:136-148, the drawing loop of `renderFullScreen`. -/
def drawCells (b : Buffer) : Writer → List (Nat × Nat) → Writer × List Token
  | w, [] => (w, [])
  | w, p :: ps =>
    let c := b.get p.1 p.2
    if !c.isEmpty then
      let k := w.writeCellAt p.1 p.2 c
      let r := drawCells b k.1 ps
      (r.1, k.2 ++ r.2)
    else drawCells b w ps

/-- renderer.go:124-161 `renderFullScreen`. -/
def Renderer.renderFull (r : Renderer) (b : Buffer) : Renderer × List Token :=
  let m := r.writer.moveCursor 0 0
  let d := drawCells b m.1 (positions b.width b.height)
  ({ writer := d.1, prev := b.clone, width := b.width, height := b.height },
    [.clearScreen] ++ m.2 ++ d.2)

/-- renderer.go:166-193 `applyOperations`. -/
def applyOps : Writer → List DiffOp → Writer × List Token
  | w, [] => (w, [])
  | w, op :: ops =>
    let k := match op.type with
      | .set => w.writeCellAt op.x op.y op.cell
      | .clear => ((w.moveCursor op.x op.y).1, (w.moveCursor op.x op.y).2 ++ [Token.clearLine])
      | .moveCursor => w.moveCursor op.x op.y
    let r := applyOps k.1 ops
    (r.1, k.2 ++ r.2)

/-- renderer.go:75-119 `Render`, non-nil buffer. -/
def Renderer.render (r : Renderer) (b : Buffer) : Renderer × List Token :=
  if (b.width : Int) ≠ r.width ∨ (b.height : Int) ≠ r.height then r.renderFull b
  else
    let ops := diff r.prev b
    if ops.length = 0 then (r, [])
    else
      let ops := removeRedundant ops r.writer.style
      if shouldFullRedraw ops.length (r.width * r.height).toNat then r.renderFull b
      else
        let d := applyOps r.writer ops
        ({ r with writer := d.1, prev := b.clone }, d.2)

/-- renderer.go:204-222 `clearUnlocked`. -/
def Renderer.clear (r : Renderer) : Renderer × List Token :=
  let m := r.writer.moveCursor 0 0
  ({ r with writer := m.1, prev := r.prev.clear }, [.clearScreen] ++ m.2)

/-- renderer.go:225-242 `Resize`. -/
def Renderer.resize (r : Renderer) (width height : Int) : Renderer × List Token :=
  ({ r with width := width, height := height, prev := Buffer.new width height } : Renderer).clear

/-- Public operations, /repo/render/renderer.go and application/renderer.go.
render/renderer.go:188-235, render/internal/application/renderer.go:75-277. -/
inductive ROp where
  | render (b : Buffer)
  | renderNil
  | clear
  | resize (w h : Int)
  | hideCursor
  | showCursor
deriving DecidableEq, Repr

/-- renderer.go:75-266. -/
def Renderer.step (r : Renderer) : ROp → Renderer × List Token
  | .render b => r.render b
  | .renderNil => (r, [])
  | .clear => r.clear
  | .resize w h => r.resize w h
  | .hideCursor => (r, [.hideCursor])
  | .showCursor => (r, [.showCursor])

/-- A history of calls: final renderer and everything written.
a history of calls; not in the code itself: render/renderer.go:188-235. -/
def Renderer.run (r : Renderer) : List ROp → Renderer × List Token
  | [] => (r, [])
  | op :: ops =>
    let a := r.step op
    let z := a.1.run ops
    (z.1, a.2 ++ z.2)

end Phoenix.Render
