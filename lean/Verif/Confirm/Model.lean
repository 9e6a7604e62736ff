import Verif.Tea.Key
/-
  Model of components/confirm: the confirmation dialog.

  Conventions and simplifications:
  * labels are byte lists (a Go string), runes are code points (`Nat`);
  * Go `int` is `Int`;
  * title, description and theme are only displayed and are left out of the state
    (the builder methods drop the theme, which nothing reads).
-/
namespace Phoenix.Confirm

/-- A Go string. -/
abbrev Bytes := List UInt8

/-- "Yes", "No", "Cancel" as bytes. components/confirm/internal/domain/model/confirm.go:35-47, 212-227. -/
def sYes : Bytes := [89, 101, 115]
/-- components/confirm/internal/domain/model/confirm.go:35-47: "No". -/
def sNo : Bytes := [78, 111]
/-- components/confirm/confirm.go:93-101: "Cancel". -/
def sCancel : Bytes := [67, 97, 110, 99, 101, 108]

/-- components/confirm/internal/domain/model/confirm.go:9-20. -/
inductive Result where
  | none | yes | no | canceled
  deriving DecidableEq, Repr

/-- components/confirm/internal/domain/model/confirm.go:24-31 with the `focused` flag of
    components/confirm/confirm.go:46-51 (`active`, always true in the public API).
    A button is its label: its key is computed from it (`buttonKey`). -/
structure Confirm where
  buttons : List Bytes
  focused : Int
  result : Result
  done : Bool
  active : Bool
  deriving DecidableEq, Repr

/-- components/confirm/internal/domain/value/button.go:13-22: the shortcut of a button is
    the rune numbered like the first BYTE of its label (0 for an empty label). -/
def buttonKey : Bytes → Nat
  | [] => 0
  | b :: _ => b.toNat

/-- components/confirm/internal/domain/value/button.go:43-48 `toLower`. -/
def toLower (r : Nat) : Nat := if 65 ≤ r ∧ r ≤ 90 then r + 32 else r

/-- components/confirm/internal/domain/value/button.go:35-40 `MatchesKey`. -/
def matchesKey (label : Bytes) (r : Nat) : Bool := toLower (buttonKey label) == toLower r

/-- components/confirm/internal/domain/model/confirm.go:35-47, components/confirm/confirm.go:55-61. -/
def new : Confirm := ⟨[sYes, sNo], 1, .none, false, true⟩

/-- components/confirm/internal/domain/model/confirm.go:62-85 `WithButtons`. -/
def withButtons (c : Confirm) (labels : List Bytes) : Confirm :=
  let f1 := if c.focused ≥ labels.length then (labels.length : Int) - 1 else c.focused
  { c with buttons := labels, focused := if f1 < 0 then 0 else f1 }

/-- components/confirm/internal/domain/model/confirm.go:95-101: index of the first "No",
    else the last index (-1 without buttons). -/
def defaultNoIndex : Int → List Bytes → Int
  | i, [] => i - 1
  | i, b :: bs => if b = sNo then i else defaultNoIndex (i + 1) bs

/-- components/confirm/internal/domain/model/confirm.go:105-111. -/
def moveLeft (c : Confirm) : Confirm :=
  { c with focused := if c.focused - 1 < 0 then (c.buttons.length : Int) - 1 else c.focused - 1 }

/-- components/confirm/internal/domain/model/confirm.go:114-120. -/
def moveRight (c : Confirm) : Confirm :=
  { c with focused := if c.focused + 1 ≥ c.buttons.length then 0 else c.focused + 1 }

/-- components/confirm/internal/domain/model/confirm.go:212-227 `labelToResult`. -/
def labelToResult (focused : Int) (label : Bytes) : Result :=
  if label = sYes then .yes
  else if label = sNo then .no
  else if label = sCancel then .canceled
  else if focused = 0 then .yes else .no

/-- components/confirm/internal/domain/model/confirm.go:123-139 `Confirm`. -/
def confirm (c : Confirm) : Confirm :=
  if c.focused < 0 ∨ c.focused ≥ c.buttons.length then c
  else { c with result := labelToResult c.focused (c.buttons[c.focused.toNat]?.getD []), done := true }

/-- components/confirm/internal/domain/model/confirm.go:143-149: index of the first button
    matching the key. -/
def findKey (r : Nat) : Int → List Bytes → Option Int
  | _, [] => none
  | i, b :: bs => if matchesKey b r then some i else findKey r (i + 1) bs

/-- components/confirm/internal/domain/model/confirm.go:142-151 `ConfirmKey`. -/
def confirmKey (c : Confirm) (r : Nat) : Confirm :=
  match findKey r 0 c.buttons with
  | some i => confirm { c with focused := i }
  | none => c

/-- components/confirm/internal/domain/model/confirm.go:154-163 `Cancel`. -/
def cancel (c : Confirm) : Confirm := { c with result := .canceled, done := true }

/-- components/confirm/internal/infrastructure/keyboard.go:9-24. -/
inductive Action where
  | none | moveLeft | moveRight | confirm | cancel | shortcut
  deriving DecidableEq, Repr

/-- components/confirm/internal/infrastructure/keyboard.go:37-58 `GetAction`. -/
def getAction (k : KeyMsg) : Action :=
  match k.type with
  | .left => .moveLeft
  | .right => .moveRight
  | .tab => if k.shift then .moveLeft else .moveRight
  | .enter => .confirm
  | .esc => .cancel
  | .ctrlC => .cancel
  | .rune => .shortcut
  | _ => .none

/-- components/confirm/confirm.go:165-194 `handleKey`: the new dialog and the result carried
    by the `ConfirmResultMsg` command, if any. -/
def handleKey (c : Confirm) (k : KeyMsg) : Confirm × Option Result :=
  match getAction k with
  | .moveLeft => (moveLeft c, none)
  | .moveRight => (moveRight c, none)
  | .confirm => (confirm c, some (confirm c).result)
  | .cancel => (cancel c, some .canceled)
  | .shortcut =>
    (confirmKey c k.rune.toNat,
     if (confirmKey c k.rune.toNat).done then some (confirmKey c k.rune.toNat).result else none)
  | .none => (c, none)

/-- Messages: a key, or anything else. components/confirm/confirm.go:152-162. -/
inductive Msg where
  | key (k : KeyMsg)
  | other
  deriving DecidableEq, Repr

/-- components/confirm/confirm.go:152-162 `Update`. -/
def update (c : Confirm) (msg : Msg) : Confirm × Option Result :=
  if !c.active || c.done then (c, none)
  else match msg with
    | .key k => handleKey c k
    | .other => (c, none)

/-- components/confirm/confirm.go:73-90 `Affirmative` (i = 0) / `Negative` (i = 1). -/
def setLabel (c : Confirm) (i : Nat) (label : Bytes) : Confirm :=
  withButtons c ((if c.buttons.length < 2 then [sYes, sNo] else c.buttons).set i label)

/-- components/confirm/confirm.go:93-101 `WithCancel`. -/
def withCancel (c : Confirm) (enabled : Bool) : Confirm :=
  withButtons c
    (if enabled = true ∧ c.buttons.length = 2 then c.buttons ++ [sCancel]
     else if enabled = false ∧ c.buttons.length = 3 then c.buttons.take 2
     else c.buttons)

/-- The public operations. components/confirm/confirm.go:64-119, 152-162. -/
inductive Op where
  | description
  | affirmative (label : Bytes)
  | negative (label : Bytes)
  | withCancel (enabled : Bool)
  | defaultYes
  | defaultNo
  | update (msg : Msg)
  deriving Repr

/-- components/confirm/confirm.go:64-119 (builders), 152 (Update);
    components/confirm/internal/domain/model/confirm.go:88-102. -/
def apply (c : Confirm) : Op → Confirm
  | .description => c
  | .affirmative l => setLabel c 0 l
  | .negative l => setLabel c 1 l
  | .withCancel e => withCancel c e
  | .defaultYes => { c with focused := 0 }
  | .defaultNo => { c with focused := defaultNoIndex 0 c.buttons }
  | .update m => (update c m).1

/-- components/confirm/confirm.go:219-244 `renderButtons`, from index `i`. -/
def renderButtons (focused : Int) : Int → List Bytes → Bytes
  | _, [] => []
  | i, b :: bs =>
    (if i > 0 then [32, 32] else []) ++
    (if i = focused then [91, 32] ++ b ++ [32, 93] else [40, 32] ++ b ++ [32, 41]) ++
    renderButtons focused (i + 1) bs

end Phoenix.Confirm
