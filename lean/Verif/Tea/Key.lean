/-
Keyboard messages shared by all components.
Models tea/internal/domain/model/msg.go:19-61 (KeyType, KeyMsg).
-/
namespace Phoenix

/-- tea/internal/domain/model/msg.go:22-52 `KeyType` constants. -/
inductive KeyType where
  | rune | enter | backspace | tab | esc | space | up | down | left | right
  | home | «end» | pgUp | pgDown | delete | insert
  | f1 | f2 | f3 | f4 | f5 | f6 | f7 | f8 | f9 | f10 | f11 | f12 | ctrlC
deriving DecidableEq, Repr

/-- tea/internal/domain/model/msg.go:55-61 `KeyMsg`.  A Go rune is modelled as a
Unicode scalar value (`Char`): surrogates and out-of-range runes are not modelled. -/
structure KeyMsg where
  type  : KeyType
  rune  : Char := Char.ofNat 0
  alt   : Bool := false
  ctrl  : Bool := false
  shift : Bool := false
deriving DecidableEq, Repr

/-- tea/internal/domain/model/msg.go:66-129 `keyTypeName`. Strings are lists of characters. -/
def keyTypeName (kt : KeyType) (r : Char) : List Char :=
  match kt with
  | .rune => [r]
  | .enter => "enter".toList | .backspace => "backspace".toList | .tab => "tab".toList
  | .esc => "esc".toList | .space => "space".toList | .up => "↑".toList | .down => "↓".toList
  | .left => "←".toList | .right => "→".toList | .home => "home".toList | .end => "end".toList
  | .pgUp => "pgup".toList | .pgDown => "pgdown".toList | .delete => "delete".toList
  | .insert => "insert".toList | .f1 => "F1".toList | .f2 => "F2".toList | .f3 => "F3".toList
  | .f4 => "F4".toList | .f5 => "F5".toList | .f6 => "F6".toList | .f7 => "F7".toList
  | .f8 => "F8".toList | .f9 => "F9".toList | .f10 => "F10".toList | .f11 => "F11".toList
  | .f12 => "F12".toList | .ctrlC => "ctrl+c".toList

/-- tea/internal/domain/model/msg.go:141-166 `KeyMsg.String` (same result via tea/tea.go:240-250). -/
def KeyMsg.str (k : KeyMsg) : List Char :=
  if k.type = .ctrlC then "ctrl+c".toList
  else
    (if k.alt then "alt+".toList else []) ++ (if k.ctrl then "ctrl+".toList else []) ++
    (if k.shift && k.type != .rune then "shift+".toList else []) ++ keyTypeName k.type k.rune

/-- tea/internal/domain/model/msg.go:172-179. -/
inductive MouseButton where
  | none | left | middle | right | wheelUp | wheelDown
deriving DecidableEq, Repr

/-- tea/internal/domain/model/msg.go:185-189. -/
inductive MouseAction where
  | press | release | motion
deriving DecidableEq, Repr

/-- tea/internal/domain/model/msg.go:192-200. -/
structure MouseMsg where
  x : Int
  y : Int
  button : MouseButton
  action : MouseAction
  alt : Bool := false
  ctrl : Bool := false
  shift : Bool := false
deriving DecidableEq, Repr

end Phoenix
