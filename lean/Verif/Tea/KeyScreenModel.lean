import Verif.Tea.TypingProps
import Verif.Tea.ScreenProps
/-
Keyboard decoder, input goroutine, event loop, inline renderer and terminal together (the union of
Tea/TypingModel.lean and Tea/ScreenModel.lean; simplifications as there).
-/
set_option linter.unusedVariables false
namespace Phoenix.KeyScreen
open Phoenix.Program Phoenix.Inline

variable {α σ Pen : Type}

/-- tea/internal/application/program/program.go:101-118: the program with its input goroutine (TypingModel), its inline renderer and terminal. -/
structure St (α σ Pen : Type) where
  s : Typing.St α σ
  scr : R × TT Pen

/-- tea/internal/application/program/program.go:205-251, 505-522, 546-592. -/
inductive Step (a : App α σ) (view : σ → Str) (size : α → Option (Int × Int)) (cap : Nat) (key : KeyMsg → α)
    (d : Dev Pen) : St α σ Pen → St α σ Pen → Prop where
  /-- every step that is not a call of Update -/
  | quiet (f s') : Typing.Step a cap key f.s s' → s'.p.delivered = f.s.p.delivered → Step a view size cap key d f ⟨s', f.scr⟩
  /-- program.go:230-246 -/
  | update (f m) : f.s.p.loop = .busy m →
      Step a view size cap key d f ⟨{ f.s with p := finish a f.s.p m },
        trun d.tw d f.scr (Screen.frameOps a view size f.s.p.model m)⟩

/-- program.go:194-202. -/
def start (a : App α σ) (view : σ → Str) (d : Dev Pen) (t0 : TT Pen) (chunks : List (List Nat)) : St α σ Pen :=
  ⟨Typing.start a chunks, trun d.tw d ({}, t0) [.render (view a.init)]⟩

/-- tea/internal/application/program/program.go:144-252. -/
inductive Reach (a : App α σ) (view : σ → Str) (size : α → Option (Int × Int)) (cap : Nat) (key : KeyMsg → α)
    (d : Dev Pen) (t0 : TT Pen) (chunks : List (List Nat)) : St α σ Pen → Prop where
  | start : Reach a view size cap key d t0 chunks (start a view d t0 chunks)
  | step (f f') : Reach a view size cap key d t0 chunks f → Step a view size cap key d f f' →
      Reach a view size cap key d t0 chunks f'

end Phoenix.KeyScreen
