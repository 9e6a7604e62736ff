import Verif.Tea.ProgramProps
import Verif.Tea.InlineTermProps
/-
The event loop (Tea/ProgramModel.lean) and the inline renderer with a real terminal
(Tea/InlineTermModel.lean) together: what the user sees of a running program.

Simplifications (beyond those of the two parts):
  * the writer of the program accepts everything (an error of Render is ignored by renderView, program.go:516).
  * Suspend, Resume and the tty control functions, which draw from other goroutines, are not part of these executions.
  * Update and View take no time: one step from the received message to the drawn frame.
-/
set_option linter.unusedVariables false
namespace Phoenix.Screen
open Phoenix.Program Phoenix.Inline

variable {α σ Pen : Type}

/-- program.go:230-234: a WindowSizeMsg is passed on to the inline renderer; `size` tells which messages are window
size messages. -/
def sizeOps (size : α → Option (Int × Int)) : Msg α → List Op
  | .user a => ((size a).map fun p => Op.resize p.1 p.2).toList
  | _ => []

/-- program.go:230-246 and 505-522: everything the loop asks of the inline renderer for one message, `m` the model
before it. -/
def frameOps (a : App α σ) (view : σ → Str) (size : α → Option (Int × Int)) (m : σ) (x : Msg α) : List Op :=
  sizeOps size x ++ [.render (view (a.update m x).1)]

/-- A running program, its inline renderer and its terminal. tea/internal/application/program/program.go:101-118. -/
structure Full (α σ Pen : Type) where
  st : St α σ
  scr : R × TT Pen

/-- One step: all steps but `update` leave the terminal alone.
tea/internal/application/program/program.go:205-251, 505-522. -/
inductive FStep (a : App α σ) (view : σ → Str) (size : α → Option (Int × Int)) (cap : Nat) (d : Dev Pen) :
    Full α σ Pen → Full α σ Pen → Prop where
  /-- every step of the program that is not a call of Update -/
  | quiet (f s') : Step a cap f.st s' → s'.delivered = f.st.delivered → FStep a view size cap d f ⟨s', f.scr⟩
  /-- program.go:230-246 -/
  | update (f m) : f.st.loop = .busy m →
      FStep a view size cap d f ⟨finish a f.st m, trun d.tw d f.scr (frameOps a view size f.st.model m)⟩
  /-- Send and Quit from outside -/
  | call (f s') : Call cap f.st s' → FStep a view size cap d f ⟨s', f.scr⟩

/-- program.go:202, 505-517: the first frame, by a renderer created with unknown size. -/
def fstart (a : App α σ) (view : σ → Str) (d : Dev Pen) (t0 : TT Pen) : Full α σ Pen :=
  ⟨start a, trun d.tw d ({}, t0) [.render (view a.init)]⟩

/-- Executions of an inline program on a terminal in state `t0`. -/
inductive FReach (a : App α σ) (view : σ → Str) (size : α → Option (Int × Int)) (cap : Nat) (d : Dev Pen) (t0 : TT Pen) :
    Full α σ Pen → Prop where
  | start : FReach a view size cap d t0 (fstart a view d t0)
  | step (f f') : FReach a view size cap d t0 f → FStep a view size cap d f f' → FReach a view size cap d t0 f'

/-! ### Programs on the alternate screen -/

/-- A running program that draws on the alternate screen: no renderer, only the terminal.
tea/internal/application/program/program.go:505-522. -/
structure FullAlt (α σ Pen : Type) where
  st : St α σ
  t : TT Pen

/-- program.go:230-246 with altScreen set: no Resize (230), and renderView (520-521) writes the view as it is. -/
inductive AStep (a : App α σ) (view : σ → Str) (cap : Nat) (d : Dev Pen) :
    FullAlt α σ Pen → FullAlt α σ Pen → Prop where
  | quiet (f s') : Step a cap f.st s' → s'.delivered = f.st.delivered → AStep a view cap d f ⟨s', f.t⟩
  | update (f m) : f.st.loop = .busy m →
      AStep a view cap d f ⟨finish a f.st m, f.t.feed d (view (a.update f.st.model m).1)⟩
  | call (f s') : Call cap f.st s' → AStep a view cap d f ⟨s', f.t⟩

/-- program.go:202, 520-521. -/
def astart (a : App α σ) (view : σ → Str) (d : Dev Pen) (t0 : TT Pen) : FullAlt α σ Pen :=
  ⟨start a, t0.feed d (view a.init)⟩

/-- Executions of a program on the alternate screen, in state `t0` after EnterAltScreen. -/
inductive AReach (a : App α σ) (view : σ → Str) (cap : Nat) (d : Dev Pen) (t0 : TT Pen) : FullAlt α σ Pen → Prop where
  | start : AReach a view cap d t0 (astart a view d t0)
  | step (f f') : AReach a view cap d t0 f → AStep a view cap d f f' → AReach a view cap d t0 f'

end Phoenix.Screen
