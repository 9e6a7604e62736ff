import Verif.Tea.Key
/-
  Model of components/modal: the modal dialog (state, key handling, rendering).

  Conventions and simplifications:
  * Go `int` is `Int` (no wrap-around);
  * displayed strings (title, content, labels) are byte lists, because
    `padOrTruncate` works on bytes; key strings are character lists (`KeyMsg.str`);
  * `strings.EqualFold` is a parameter `fold` of the update function: every theorem
    holds for every such relation;
  * the theme is stored but never read; `renderDimmedBackground` is in Modal/ViewModel.
-/
namespace Phoenix.Modal

/-- A Go string. -/
abbrev Bytes := List UInt8

/-- components/modal/internal/domain/model/button.go:7-11. `action` is the string carried
    by the `ButtonPressedMsg`. -/
structure Button where
  label : Bytes
  key : List Char
  action : Bytes
  deriving DecidableEq, Repr

/-- components/modal/internal/domain/value/position.go:6-28 (`none` = centred). -/
abbrev Position := Option (Int × Int)

/-- components/modal/internal/infrastructure/keybindings.go:9-14 `KeyBindings`. -/
structure KeyBindings where
  close : List (List Char)
  nextButton : List (List Char)
  previousButton : List (List Char)
  activateButton : List (List Char)
  deriving DecidableEq, Repr

/-- components/modal/internal/infrastructure/keybindings.go:17-24. -/
def defaultKeyBindings : KeyBindings :=
  { close := ["esc".toList]
    nextButton := ["tab".toList, "→".toList]
    previousButton := ["shift+tab".toList, "←".toList]
    activateButton := ["enter".toList] }

/-- components/modal/modal.go:49-56 merged with
    components/modal/internal/domain/model/modal.go:12-21. -/
structure Modal where
  title : Bytes
  content : Bytes
  buttons : List Button
  width : Int
  height : Int
  position : Position
  focused : Int
  visible : Bool
  dim : Bool
  kb : KeyBindings
  termW : Int
  termH : Int
  deriving DecidableEq, Repr

/-- components/modal/modal.go:60-79 `New`, `NewWithTitle` (`New` has the empty title);
    components/modal/internal/domain/model/modal.go:25-50. -/
def newWithTitle (title content : Bytes) : Modal :=
  { title := title, content := content, buttons := [], width := 40, height := 10
    position := none, focused := 0, visible := false, dim := false
    kb := defaultKeyBindings, termW := 80, termH := 24 }

/-- components/modal/internal/domain/model/modal.go:153-170 `FocusNextButton`. -/
def focusNext (m : Modal) : Modal :=
  if m.buttons.length = 0 then m
  else { m with focused := (m.focused + 1).tmod m.buttons.length }

/-- components/modal/internal/domain/model/modal.go:174-194 `FocusPreviousButton`. -/
def focusPrev (m : Modal) : Modal :=
  if m.buttons.length = 0 then m
  else if m.focused - 1 < 0 then { m with focused := (m.buttons.length : Int) - 1 }
  else { m with focused := m.focused - 1 }

/-- components/modal/internal/domain/model/modal.go:197-202 `FocusedButton`. -/
def focusedButton (m : Modal) : Option Button :=
  if m.buttons.length = 0 ∨ m.focused < 0 ∨ m.focused ≥ m.buttons.length then none
  else m.buttons[m.focused.toNat]?

/-- components/modal/internal/infrastructure/keybindings.go:47-55 `matchesKey`. -/
def matchesKey (k : List Char) (keys : List (List Char)) : Bool := keys.any (fun x => k == x)

/-- components/modal/modal.go:270-279: the shortcut loop: action of the first button
    whose key folds to the pressed key. -/
def shortcut (fold : List Char → List Char → Bool) (k : List Char) : List Button → Option Bytes
  | [] => none
  | b :: bs => if fold k b.key then some b.action else shortcut fold k bs

/-- Messages the modal distinguishes. components/modal/modal.go:201-224. -/
inductive Msg where
  | windowSize (w h : Int)
  | key (k : KeyMsg)
  | other
  deriving DecidableEq, Repr

/-- components/modal/modal.go:159-168 `Hide`. -/
def hide (m : Modal) : Modal := { m with visible := false }

/-- components/modal/modal.go:147-156 `Show`. -/
def «show» (m : Modal) : Modal := { m with visible := true }

/-- components/modal/modal.go:227-280 `handleKeyPress`: the new modal and the action of the
    `ButtonPressedMsg` command, if any. -/
def handleKeyPress (fold : List Char → List Char → Bool) (m : Modal) (k : KeyMsg) :
    Modal × Option Bytes :=
  if matchesKey k.str m.kb.close then (hide m, none)
  else if matchesKey k.str m.kb.nextButton then (focusNext m, none)
  else if matchesKey k.str m.kb.previousButton then (focusPrev m, none)
  else if matchesKey k.str m.kb.activateButton && (focusedButton m).isSome then
    (m, (focusedButton m).map (·.action))
  else (m, shortcut fold k.str m.buttons)

/-- components/modal/modal.go:201-224 `Update`. -/
def update (fold : List Char → List Char → Bool) (m : Modal) (msg : Msg) : Modal × Option Bytes :=
  if !m.visible then (m, none)
  else match msg with
    | .windowSize w h => ({ m with termW := w, termH := h }, none)
    | .key k => handleKeyPress fold m k
    | .other => (m, none)

/-- The public operations on a modal. components/modal/modal.go:82-180, 201-224. -/
inductive Op where
  | size (w h : Int)
  | position (x y : Int)
  | centered
  | buttons (bs : List Button)
  | dim (b : Bool)
  | «show»
  | hide
  | keyBindings (kb : KeyBindings)
  | update (msg : Msg)

/-- components/modal/modal.go:82-180 (builders) and 201-224;
    components/modal/internal/domain/model/modal.go:81-149 (`WithButtons` resets the focus). -/
def apply (fold : List Char → List Char → Bool) (m : Modal) : Op → Modal
  | .size w h => { m with width := w, height := h }
  | .position x y => { m with position := some (x, y) }
  | .centered => { m with position := none }
  | .buttons bs => { m with buttons := bs, focused := 0 }
  | .dim b => { m with dim := b }
  | .show => «show» m
  | .hide => hide m
  | .keyBindings kb => { m with kb := kb }
  | .update msg => (update fold m msg).1

/-! ## Layout and rendering -/

/-- components/modal/internal/domain/service/layout.go:28-41 `CenterPosition`. -/
def centerPosition (tw th mw mh : Int) : Int × Int :=
  ((if (tw - mw).tdiv 2 < 0 then 0 else (tw - mw).tdiv 2),
   (if (th - mh).tdiv 2 < 0 then 0 else (th - mh).tdiv 2))

/-- components/modal/internal/domain/service/layout.go:55-62 `CalculatePosition`, called by
    components/modal/modal.go:292-300. -/
def calculatePosition (m : Modal) : Int × Int :=
  match m.position with
  | none => centerPosition m.termW m.termH m.width m.height
  | some p => p

/-- Go's `strings.Repeat`: panics (`none`) on a negative count. Go library; components/modal/modal.go:343-385. -/
def repeatStr (s : Bytes) (n : Int) : Option Bytes :=
  if n < 0 then none else some (List.replicate n.toNat s).flatten

/-- components/modal/modal.go:416-424 `padOrTruncate` (`none` = run-time panic: negative
    slice bound or negative repeat count). -/
def padOrTruncate (text : Bytes) (width : Int) : Option Bytes :=
  if (text.length : Int) > width then
    if width > 3 then some (text.take (width - 3).toNat ++ [46, 46, 46])
    else if width < 0 then none
    else some (text.take width.toNat)
  else (repeatStr [32] (width - text.length)).map (text ++ ·)

/-- UTF-8 of the box-drawing characters U+2500, U+2502, U+250C, U+2510, U+251C, U+2524,
    U+2514, U+2518 used by components/modal/modal.go:343-385. -/
def hbar : Bytes := [0xE2, 0x94, 0x80]
/-- components/modal/modal.go:348: "│". -/
def vbar : Bytes := [0xE2, 0x94, 0x82]
/-- components/modal/modal.go:343: "┌". -/
def tl : Bytes := [0xE2, 0x94, 0x8C]
/-- components/modal/modal.go:343: "┐". -/
def tr : Bytes := [0xE2, 0x94, 0x90]
/-- components/modal/modal.go:352: "├". -/
def ml : Bytes := [0xE2, 0x94, 0x9C]
/-- components/modal/modal.go:352: "┤". -/
def mr : Bytes := [0xE2, 0x94, 0xA4]
/-- components/modal/modal.go:385: "└". -/
def bl : Bytes := [0xE2, 0x94, 0x94]
/-- components/modal/modal.go:385: "┘". -/
def br : Bytes := [0xE2, 0x94, 0x98]

/-- One `ESC[row;colH text \n` written by renderModalBox (the trailing newline, which only
    moves the cursor, is left out). components/modal/modal.go:336-388. -/
structure Draw where
  row : Int
  col : Int
  text : Bytes
  deriving DecidableEq, Repr

/-- components/modal/modal.go:343, 352, 376, 385: a horizontal rule between two corners. -/
def rule (left right : Bytes) (width : Int) : Option Bytes :=
  (repeatStr hbar (width - 2)).map fun h => left ++ h ++ right

/-- components/modal/modal.go:348, 369, 380: a padded line between two bars. -/
def barred (inner : Option Bytes) : Option Bytes :=
  inner.map fun t => vbar ++ [32] ++ t ++ [32] ++ vbar

/-- Go's `strings.Split(s, "\n")`. Go library; components/modal/modal.go:355-369. -/
def splitNL : Bytes → List Bytes
  | [] => [[]]
  | c :: cs =>
    if c = 10 then [] :: splitNL cs
    else ((c :: (splitNL cs).headD []) :: (splitNL cs).tail)

/-- components/modal/modal.go:401-404: one button. -/
def buttonText (isFocused : Bool) (b : Button) : Bytes :=
  if isFocused then [60, 32] ++ b.label ++ [32, 62] else [91, 32] ++ b.label ++ [32, 93]

/-- components/modal/modal.go:400-406: the buttons, starting at index `i`. -/
def buttonParts (focused : Int) : Int → List Button → List Bytes
  | _, [] => []
  | i, b :: bs => buttonText (i == focused) b :: buttonParts focused (i + 1) bs

/-- Go's `strings.Join(parts, "  ")`. Go library; components/modal/modal.go:391-413. -/
def join2 : List Bytes → Bytes
  | [] => []
  | [p] => p
  | p :: q :: rest => p ++ [32, 32] ++ join2 (q :: rest)

/-- components/modal/modal.go:391-413 `renderButtons` (called with at least one button). -/
def renderButtons (m : Modal) (avail : Int) : Option Bytes :=
  padOrTruncate (join2 (buttonParts m.focused 0 m.buttons)) avail

/-- components/modal/modal.go:367-370: the content loop from line index `i` on. -/
def contentDraws (x startY width : Int) : Nat → List Bytes → Option (List Draw)
  | _, [] => some []
  | i, l :: ls =>
    match barred (padOrTruncate l (width - 4)), contentDraws x startY width (i + 1) ls with
    | some t, some ds => some (⟨startY + i, x + 1, t⟩ :: ds)
    | _, _ => none

/-- components/modal/modal.go:346-353: title and separator. -/
def titleDraws (m : Modal) (x y : Int) : Option (List Draw) :=
  if m.title ≠ [] then
    match barred (padOrTruncate m.title (m.width - 4)), rule ml mr m.width with
    | some t, some s => some [⟨y + 2, x + 1, t⟩, ⟨y + 3, x + 1, s⟩]
    | _, _ => none
  else some []

/-- components/modal/modal.go:373-381: separator and buttons. -/
def buttonDraws (m : Modal) (x y : Int) : Option (List Draw) :=
  if m.buttons.length > 0 then
    match rule ml mr m.width, barred (renderButtons m (m.width - 4)) with
    | some s, some t => some [⟨y + m.height - 3, x + 1, s⟩, ⟨y + m.height - 3 + 1, x + 1, t⟩]
    | _, _ => none
  else some []

/-- components/modal/modal.go:362-365. -/
def contentHeight (m : Modal) : Int := if m.title ≠ [] then m.height - 4 - 2 else m.height - 4

/-- components/modal/modal.go:356-359. -/
def contentStartY (m : Modal) (y : Int) : Int := if m.title ≠ [] then y + 4 else y + 2

/-- components/modal/modal.go:343 and 385: top and bottom rules. -/
def frameDraw (l r : Bytes) (width row x : Int) : Option (List Draw) :=
  (rule l r width).map fun t => [⟨row, x + 1, t⟩]

/-- Sequence the pieces; a panic anywhere is a panic.
components/modal/modal.go:336-388: the pieces one after the other. -/
def seqDraws : List (Option (List Draw)) → Option (List Draw)
  | [] => some []
  | none :: _ => none
  | some ds :: rest => (seqDraws rest).map (ds ++ ·)

/-- components/modal/modal.go:336-388 `renderModalBox`. -/
def renderModalBox (m : Modal) (x y : Int) : Option (List Draw) :=
  seqDraws [
    frameDraw tl tr m.width (y + 1) x,
    titleDraws m x y,
    contentDraws x (contentStartY m y) m.width 0
      ((splitNL m.content).take (contentHeight m).toNat),
    buttonDraws m x y,
    frameDraw bl br m.width (y + m.height - 1) x ]

/-- components/modal/modal.go:283-311 `View` without the dimmed background; `none` =
    panic, `some []` = the empty string (invisible). -/
def view (m : Modal) : Option (List Draw) :=
  if !m.visible then some []
  else renderModalBox m (calculatePosition m).1 (calculatePosition m).2

end Phoenix.Modal
