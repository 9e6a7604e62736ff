/-
Mode switches of the two terminal implementations and of the mock, with failures.
-/
set_option linter.unusedVariables false
namespace Phoenix.Terminal

/-- Outcome of a system call: success, failure without effect, failure reported although it took effect (e.g. a write whose
bytes were delivered before the error). -/
inductive Res | ok | fail | failAfter
deriving DecidableEq, Repr

/-- ansi.go:31-42 ANSITerminal mode fields, together with what is really the case: `alt` (terminal shows the alternate
screen) and `tty` (line discipline state). -/
structure AT (σ : Type) where
  inAlt : Bool
  inRaw : Bool
  orig : Option σ
  alt : Bool
  tty : σ

/-- Calls, with the outcome of the system call they make; `external`: another process changes the tty. -/
inductive MOp (σ : Type) where
  | enterAlt (r : Res) | exitAlt (r : Res) | enterRaw (r : Res) | exitRaw (r : Res)
  | external (s : σ)

/-- ansi.go:46-51 `NewANSI` on a tty in state `s`. -/
def AT.new {σ : Type} (s : σ) : AT σ := ⟨false, false, none, false, s⟩

/-- ansi.go:370-388 `EnterAltScreen`; second component: nil error. -/
def AT.enterAlt {σ : Type} (a : AT σ) (r : Res) : AT σ × Bool :=
  if a.inAlt then (a, false)
  else match r with
    | .ok => ({ a with alt := true, inAlt := true }, true)
    | .fail => (a, false)
    | .failAfter => ({ a with alt := true }, false)

/-- ansi.go:406-424 `ExitAltScreen`. -/
def AT.exitAlt {σ : Type} (a : AT σ) (r : Res) : AT σ × Bool :=
  if !a.inAlt then (a, false)
  else match r with
    | .ok => ({ a with alt := false, inAlt := false }, true)
    | .fail => (a, false)
    | .failAfter => ({ a with alt := false }, false)

/-- ansi.go:467-489 `EnterRawMode`; `raw` is what term.MakeRaw does to the tty state; MakeRaw returns the previous state. -/
def AT.enterRaw {σ : Type} (raw : σ → σ) (a : AT σ) (r : Res) : AT σ × Bool :=
  if a.inRaw then (a, false)
  else match r with
    | .ok => ({ a with tty := raw a.tty, orig := some a.tty, inRaw := true }, true)
    | .fail => (a, false)
    | .failAfter => ({ a with tty := raw a.tty }, false)

/-- ansi.go:502-520 `ExitRawMode`. -/
def AT.exitRaw {σ : Type} (a : AT σ) (r : Res) : AT σ × Bool :=
  if !a.inRaw then (a, false)
  else match r with
    | .ok => ({ a with tty := a.orig.getD a.tty, inRaw := false, orig := none }, true)
    | .fail => (a, false)
    | .failAfter => ({ a with tty := a.orig.getD a.tty }, false)

/-- One call. -/
def AT.step {σ : Type} (raw : σ → σ) (a : AT σ) : MOp σ → AT σ × Bool
  | .enterAlt r => a.enterAlt r
  | .exitAlt r => a.exitAlt r
  | .enterRaw r => a.enterRaw raw r
  | .exitRaw r => a.exitRaw r
  | .external s => ({ a with tty := s }, true)

/-- A history of calls. -/
def AT.run {σ : Type} (raw : σ → σ) (a : AT σ) (ops : List (MOp σ)) : AT σ := ops.foldl (fun a op => (a.step raw op).1) a

/-! Windows console (console.go:643-837): handles are numbers; 0 is the process's original screen buffer. -/

/-- console.go:66-80 fields and the real console state: active buffer, open handles, input mode; `fresh` is the next
handle the system will give. -/
structure WC where
  stdout : Nat
  original : Nat
  altBuf : Option Nat
  inAlt : Bool
  inRaw : Bool
  origMode : Nat
  active : Nat
  opened : List Nat
  mode : Nat
  fresh : Nat

/-- console.go:90-107 `NewConsole` on a console in input mode m. -/
def WC.new (m : Nat) : WC := ⟨0, 0, none, false, false, 0, 0, [0], m, 1⟩

/-- console.go:643-685 `EnterAltScreen`: create (may fail), activate (may fail; the new handle is closed again). -/
def WC.enterAlt (c : WC) (create activate : Bool) : WC × Bool :=
  if c.inAlt then (c, false)
  else if !create then ({ c with original := c.stdout }, false)
  else if !activate then
    ({ c with original := c.stdout, altBuf := none, fresh := c.fresh + 1 }, false)
  else ({ c with original := c.stdout, altBuf := some c.fresh, fresh := c.fresh + 1, opened := c.fresh :: c.opened,
                 active := c.fresh, stdout := c.fresh, inAlt := true }, true)

/-- console.go:700-726 `ExitAltScreen`: activate the original (may fail), close the alternate (failure ignored). -/
def WC.exitAlt (c : WC) (activate close : Bool) : WC × Bool :=
  if !c.inAlt then (c, false)
  else if !activate then (c, false)
  else ({ c with active := c.original, stdout := c.original, altBuf := none, inAlt := false,
                 opened := if close then c.opened.filter (fun h => decide (some h ≠ c.altBuf)) else c.opened }, true)

/-- console.go:797-799: line input, echo and processed input off, virtual terminal input on. -/
def rawInputMode (mode : Nat) : Nat := (mode - (mode &&& 7)) ||| 0x200

/-- console.go:769-807 `EnterRawMode`: get (may fail), set (may fail). -/
def WC.enterRaw (c : WC) (get set : Bool) : WC × Bool :=
  if c.inRaw then (c, false)
  else if !get then (c, false)
  else if !set then ({ c with origMode := c.mode }, false)
  else ({ c with origMode := c.mode, mode := rawInputMode c.mode, inRaw := true }, true)

/-- console.go:820-837 `ExitRawMode`. -/
def WC.exitRaw (c : WC) (set : Bool) : WC × Bool :=
  if !c.inRaw then (c, false)
  else if !set then (c, false)
  else ({ c with mode := c.origMode, inRaw := false, origMode := 0 }, true)

/-- Calls with the outcomes of their system calls. -/
inductive WOp where
  | enterAlt (create activate : Bool) | exitAlt (activate close : Bool)
  | enterRaw (get set : Bool) | exitRaw (set : Bool)

/-- One call. -/
def WC.step (c : WC) : WOp → WC × Bool
  | .enterAlt a b => c.enterAlt a b
  | .exitAlt a b => c.exitAlt a b
  | .enterRaw a b => c.enterRaw a b
  | .exitRaw a => c.exitRaw a

/-- A history of calls. -/
def WC.run (c : WC) (ops : List WOp) : WC := ops.foldl (fun c op => (c.step op).1) c

/-! Mock terminal (testing/mock_terminal.go). -/

/-- A call on the mock: method name and, for methods with arguments, the formatted argument list. -/
structure MCall where
  name : List Char
  args : Option (List Char)

/-- mock_terminal.go:92-342: the string recorded for a call: `Name` or `Name(args)`. -/
def MCall.record (c : MCall) : List Char :=
  match c.args with
  | none => c.name
  | some a => c.name ++ '(' :: (a ++ [')'])

/-- mock_terminal.go:39-44 `MockTerminal`. -/
structure Mock where
  inAlt : Bool
  inRaw : Bool
  calls : List (List Char)

/-- mock_terminal.go:54-58 `record`. -/
def Mock.note (m : Mock) (c : MCall) : Mock := { m with calls := m.calls ++ [c.record] }

/-- mock_terminal.go:71: the test inside `CallCount`. -/
def callMatches (method call : List Char) : Bool :=
  decide (call = method) ||
    (decide (call.length > method.length) && decide (call.take method.length = method) &&
      decide (call[method.length]? = some '('))

/-- mock_terminal.go:65-76 `CallCount`. -/
def Mock.callCount (m : Mock) (method : List Char) : Nat := (m.calls.filter (callMatches method)).length

/-- mock_terminal.go:263-342: mode switches record the call, then check. -/
def Mock.enterAlt (m : Mock) : Mock × Bool :=
  let m := { m with calls := m.calls ++ ["EnterAltScreen".toList] }
  if m.inAlt then (m, false) else ({ m with inAlt := true }, true)
/-- mock_terminal.go:278-290 -/
def Mock.exitAlt (m : Mock) : Mock × Bool :=
  let m := { m with calls := m.calls ++ ["ExitAltScreen".toList] }
  if !m.inAlt then (m, false) else ({ m with inAlt := false }, true)
/-- mock_terminal.go:315-327 -/
def Mock.enterRaw (m : Mock) : Mock × Bool :=
  let m := { m with calls := m.calls ++ ["EnterRawMode".toList] }
  if m.inRaw then (m, false) else ({ m with inRaw := true }, true)
/-- mock_terminal.go:330-342 -/
def Mock.exitRaw (m : Mock) : Mock × Bool :=
  let m := { m with calls := m.calls ++ ["ExitRawMode".toList] }
  if !m.inRaw then (m, false) else ({ m with inRaw := false }, true)
/-- mock_terminal.go:81-85 `Reset`: only the call log. -/
def Mock.reset (m : Mock) : Mock := { m with calls := [] }

/-- Everything a test can do with a mock. -/
inductive KOp where
  | call (c : MCall) | enterAlt | exitAlt | enterRaw | exitRaw | reset

/-- One step; second component: nil error. -/
def Mock.step (m : Mock) : KOp → Mock × Bool
  | .call c => (m.note c, true)
  | .enterAlt => m.enterAlt
  | .exitAlt => m.exitAlt
  | .enterRaw => m.enterRaw
  | .exitRaw => m.exitRaw
  | .reset => (m.reset, true)

/-- A history. -/
def Mock.run (m : Mock) (ops : List KOp) : Mock := ops.foldl (fun m op => (m.step op).1) m

end Phoenix.Terminal
