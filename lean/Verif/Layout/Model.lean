import Verif.Util
/-
Model of the `layout` package of /repo: sizes, alignment, measuring and rendering of boxes,
node trees and flex containers.

Go `int` is `Int` (no overflow).  Strings are lists of characters; `len(s)` is the UTF-8 byte
length.  The display width of a string (core.StringWidth) is a parameter `W`.
A rendered block is the list of its lines (Go joins them with newlines).
-/
namespace Phoenix.Layout
open Phoenix

/-- layout/internal/domain/value/size.go:27-34; -1 = not set. -/
structure Size where
  width : Int
  height : Int
  minW : Int
  maxW : Int
  minH : Int
  maxH : Int
  deriving DecidableEq, Repr

/-- size.go:51-68: a negative value means "not set". -/
def norm (v : Int) : Int := if v < 0 then -1 else v

/-- size.go:49-86 NewSize; `none` = panic (min greater than max). -/
def Size.new (w h minW maxW minH maxH : Int) : Option Size :=
  let s : Size := ⟨norm w, norm h, norm minW, norm maxW, norm minH, norm maxH⟩
  if s.minW ≠ -1 ∧ s.maxW ≠ -1 ∧ s.minW > s.maxW then none
  else if s.minH ≠ -1 ∧ s.maxH ≠ -1 ∧ s.minH > s.maxH then none
  else some s

/-- size.go:94-96 NewSizeExact (never panics). -/
def Size.exact (w h : Int) : Size := ⟨norm w, norm h, -1, -1, -1, -1⟩

/-- size.go:100-102 NewSizeUnconstrained. -/
def Size.free : Size := ⟨-1, -1, -1, -1, -1, -1⟩

/-- size.go:217-226 (and 229-238): one axis of Constrain. -/
def constrain1 (exact lo hi v : Int) : Int :=
  if exact ≠ -1 then exact
  else
    let v := if lo ≠ -1 ∧ v < lo then lo else v
    if hi ≠ -1 ∧ v > hi then hi else v

/-- size.go:215-241 Constrain. -/
def Size.constrain (s : Size) (w h : Int) : Int × Int :=
  (constrain1 s.width s.minW s.maxW w, constrain1 s.height s.minH s.maxH h)

/-- alignment.go:6-15 and 32-41: both kinds of alignment (start = Left/Top, middle =
Center/Middle, finish = Right/Bottom). -/
inductive Align | start | middle | finish
  deriving DecidableEq, Repr

/-- alignment.go:176-191 CalculateHorizontalOffset and 195-210 CalculateVerticalOffset (the same
function). -/
def alignOffset (a : Align) (content container : Int) : Int :=
  if content ≥ container then 0
  else match a with
    | .start => 0
    | .middle => (container - content).tdiv 2
    | .finish => container - content

/-- position.go:26-46 Position / NewPosition (clamped at 0). -/
structure Pos where
  x : Int
  y : Int
  deriving DecidableEq, Repr

/-- layout/internal/domain/value/position.go:38-46. -/
def Pos.new (x y : Int) : Pos := ⟨if x < 0 then 0 else x, if y < 0 then 0 else y⟩

/-- position.go:71-73 Add. -/
def Pos.add (p : Pos) (dx dy : Int) : Pos := .new (p.x + dx) (p.y + dy)

/-- spacing.go:34-54 Spacing / NewSpacing: four natural numbers (negative values are clamped). -/
structure Spacing where
  top : Nat
  right : Nat
  bottom : Nat
  left : Nat
  deriving DecidableEq, Repr

/-- layout/internal/domain/value/spacing.go:121-123. -/
def Spacing.horizontal (s : Spacing) : Nat := s.left + s.right
/-- layout/internal/domain/value/spacing.go:126-128. -/
def Spacing.vertical (s : Spacing) : Nat := s.top + s.bottom

/-- model/box.go:49-56. -/
structure Box where
  content : List Char
  padding : Spacing
  margin : Spacing
  border : Bool
  size : Size
  alignH : Align
  alignV : Align
  deriving DecidableEq, Repr

/-- strings.Split(content, "\n"). Go library; measure_service.go:122, render_service.go:86. -/
def splitLines : List Char → List (List Char)
  | [] => [[]]
  | c :: t =>
    if c = '\n' then [] :: splitLines t
    else match splitLines t with
      | [] => [[c]]
      | l :: ls => (c :: l) :: ls

/-- `len(s)`: the number of UTF-8 bytes. -/
def byteLen (l : List Char) : Nat := (l.map Char.utf8Size).sum

/-- The maximum of a list of widths, 0 if empty (measure_service.go:126-132,
render_service.go:211-220). -/
def maxOf : List Nat → Nat
  | [] => 0
  | a :: t => max a (maxOf t)

/-- measure_service.go:116-135 measureContent. -/
def measureContent (W : List Char → Nat) (content : List Char) : Nat × Nat :=
  if content = [] then (0, 0)
  else (maxOf ((splitLines content).map W), (splitLines content).length)

/-- measure_service.go:73-108 Measure: (width, height). -/
def measure (W : List Char → Nat) (b : Box) : Size :=
  let c := measureContent W b.content
  let ph := b.padding.horizontal + (if b.border then 2 else 0)
  let pv := b.padding.vertical + (if b.border then 2 else 0)
  let w := c.1 + ph + (if b.border then 2 else 0) + b.margin.horizontal
  let h := c.2 + pv + (if b.border then 2 else 0) + b.margin.vertical
  let r := b.size.constrain w h
  .exact r.1 r.2

/-- strings.Repeat(" ", n). Go library; render_service.go:76-192. -/
def spaces (n : Nat) : List Char := List.replicate n ' '

/-- render_service.go:121-132, 167-178: an empty row of the box. -/
def blankRow (b : Box) (inner : Nat) : List Char :=
  spaces b.margin.left ++ (if b.border then ['│'] else []) ++ spaces inner ++
    (if b.border then ['│'] else []) ++ spaces b.margin.right

/-- render_service.go:115-118, 181-184: a border row. -/
def borderRow (b : Box) (l r : Char) (inner : Nat) : List Char :=
  spaces b.margin.left ++ [l] ++ List.replicate inner '─' ++ [r] ++ spaces b.margin.right

/-- render_service.go:135-164: one content row. -/
def contentRow (b : Box) (cw padL padR : Nat) (line : List Char) : List Char :=
  spaces b.margin.left ++ (if b.border then ['│'] else []) ++ spaces padL ++ line ++
    (if b.border then spaces (cw - byteLen line) ++ spaces padR else spaces padR) ++
    (if b.border then ['│'] else []) ++ spaces b.margin.right

/-- render_service.go:76-192 Render, as a list of lines. -/
def render (b : Box) : List (List Char) :=
  let lines := splitLines b.content
  let cw := maxOf (lines.map byteLen)
  let padL := b.padding.left + (if b.border then 1 else 0)
  let padR := b.padding.right + (if b.border then 1 else 0)
  let inner := cw + padL + padR
  let total := inner + (if b.border then 2 else 0)
  List.replicate b.margin.top (spaces (total + b.margin.horizontal)) ++
  (if b.border then [borderRow b '┌' '┐' inner] else []) ++
  List.replicate b.padding.top (blankRow b inner) ++
  lines.map (contentRow b cw padL padR) ++
  List.replicate b.padding.bottom (blankRow b inner) ++
  (if b.border then [borderRow b '└' '┘' inner] else []) ++
  List.replicate b.margin.bottom (spaces (total + b.margin.horizontal))

/-- layout.go:401-414 Box.Render: measures, stores the measured size as an exact size (mutating
the box) and renders; the returned box is the mutated one. -/
def Box.renderPublic (W : List Char → Nat) (b : Box) : List (List Char) × Box :=
  let s := measure W b
  let b' := { b with size := Size.exact s.width s.height }
  (render b', b')

/-! ### Trees -/

/-- model/node.go:42-46. -/
inductive Node
  | mk (box : Box) (pos : Pos) (children : List Node)

/-- layout/internal/domain/model/node.go:70-72. -/
def Node.box : Node → Box | .mk b _ _ => b
/-- layout/internal/domain/model/node.go:84-86. -/
def Node.pos : Node → Pos | .mk _ p _ => p
/-- layout/internal/domain/model/node.go:76-81. -/
def Node.children : Node → List Node | .mk _ _ c => c
/-- node.go:194-198 SetPosition. -/
def Node.setPos (p : Pos) : Node → Node | .mk b _ c => .mk b p c

/-- layout_service.go:72-85 Layout. -/
def layoutBox (W : List Char → Nat) (b : Box) (parent : Size) : Pos :=
  let s := measure W b
  .new (alignOffset b.alignH s.width parent.width) (alignOffset b.alignV s.height parent.height)

mutual
/-- layout_service.go:107-147 LayoutNode. -/
def layoutNode (W : List Char → Nat) (parent : Size) : Node → Node
  | .mk b _ cs => .mk b (layoutBox W b parent) (layoutChildren W parent 0 cs)
/-- layout_service.go:118-144: the loop over the children, with currentY. -/
def layoutChildren (W : List Char → Nat) (parent : Size) (y : Int) : List Node → List Node
  | [] => []
  | c :: cs =>
    let n := layoutNode W (Size.exact parent.width (parent.height - y)) c
    n.setPos (n.pos.add 0 y) :: layoutChildren W parent (y + (measure W c.box).height) cs
end

/-- layout_service.go:181-214 ClampPosition. -/
def clampPosition (p : Pos) (bw bh pw ph : Int) : Pos :=
  let x := if p.x < 0 then 0 else p.x
  let maxX := if pw - bw < 0 then 0 else pw - bw
  let x := if x > maxX then maxX else x
  let y := if p.y < 0 then 0 else p.y
  let maxY := if ph - bh < 0 then 0 else ph - bh
  let y := if y > maxY then maxY else y
  .new x y

/-! ### Flex containers -/

/-- value/justify_content.go:26-80. -/
inductive Justify | start | finish | center | between
  deriving DecidableEq, Repr

/-- value/align_items.go:25-64. -/
inductive Items | stretch | start | finish | center
  deriving DecidableEq, Repr

/-- The loops of flexbox_layout_service.go:165-173, 177-185, 190-198, 210-218: items one after
the other from `pos`, each followed by `gap + extra`. -/
def place (gap extra : Int) : Int → List Int → List Int
  | _, [] => []
  | pos, s :: t => pos :: place gap extra (pos + s + gap + extra) t

/-- model/flexbox.go:244-249 TotalGap. -/
def totalGap (gap : Int) (n : Nat) : Int := if n ≤ 1 then 0 else gap * ((n : Int) - 1)

/-- Sum of a list. The loops of flexbox_layout_service.go:120-223. -/
def sum : List Int → Int
  | [] => 0
  | a :: t => a + sum t

/-- flexbox_layout_service.go:120-223 calculateMainAxisPositions, given the item sizes along the
main axis. -/
def mainPositions (j : Justify) (gap container : Int) (sizes : List Int) : List Int :=
  let rem := container - (sum sizes + totalGap gap sizes.length)
  let rem := if rem < 0 then 0 else rem
  match j with
  | .start => place gap 0 0 sizes
  | .finish => place gap 0 rem sizes
  | .center => place gap 0 (rem.tdiv 2) sizes
  | .between =>
    if sizes.length = 1 then [0]
    else place gap (rem.tdiv ((sizes.length : Int) - 1)) 0 sizes

/-- flexbox_layout_service.go:248-278: the cross axis position of one item. -/
def crossPosition (a : Items) (container item : Int) : Int :=
  let p := match a with
    | .start => 0
    | .finish => container - item
    | .center => (container - item).tdiv 2
    | .stretch => 0
  if p < 0 then 0 else p

/-- model/flexbox.go:34-41 (the container's own size is not used by Layout). -/
structure Flex where
  horizontal : Bool
  justify : Justify
  align : Items
  gap : Int
  items : List Box

/-- flexbox_layout_service.go:50-102 Layout: the position of each item. -/
def Flex.positions (W : List Char → Nat) (f : Flex) (cw ch : Int) : List Pos :=
  let sizes := f.items.map (measure W)
  let main := mainPositions f.justify f.gap (if f.horizontal then cw else ch)
    (sizes.map fun s => if f.horizontal then s.width else s.height)
  let cross := sizes.map fun s => crossPosition f.align (if f.horizontal then ch else cw)
    (if f.horizontal then s.height else s.width)
  (main.zip cross).map fun mc => if f.horizontal then Pos.new mc.1 mc.2 else Pos.new mc.2 mc.1

/-- The character grid of layout.go:770-776. -/
abbrev Grid := List (List Char)

/-- `grid[y][x] = ch`. layout/layout.go:757-810. -/
def setCell (g : Grid) (y x : Nat) (c : Char) : Grid := g.modify y fun row => row.set x c

/-- layout.go:790-797: draw one line of an item. -/
def paintRow (w : Nat) : Grid → Nat → Nat → List Char → Grid
  | g, _, _, [] => g
  | g, y, x, c :: t => if x ≥ w then g else paintRow w (setCell g y x c) y (x + 1) t

/-- layout.go:784-798: draw the lines of an item. -/
def paintLines (w h : Nat) : Grid → Nat → Nat → List (List Char) → Grid
  | g, _, _, [] => g
  | g, y, x, l :: t => if y ≥ h then g else paintLines w h (paintRow w g y x l) (y + 1) x t

/-- layout.go:779-799: draw the items in order. -/
def paintItems (w h : Nat) : Grid → List (Pos × List (List Char)) → Grid
  | g, [] => g
  | g, i :: t => paintItems w h (paintLines w h g i.1.y.toNat i.1.x.toNat i.2) t

/-- layout.go:757-810 Flex.Render for a container of `w` by `h` cells, as a list of lines. -/
def Flex.render (W : List Char → Nat) (f : Flex) (w h : Nat) : Grid :=
  paintItems w h (List.replicate h (List.replicate w ' '))
    ((f.positions W w h).zip (f.items.map Layout.render))

end Phoenix.Layout
