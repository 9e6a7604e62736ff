import Verif.Tea.TypingProps
/-
A program around one of the answering components (Confirm, Select, MultiSelect): keys go to the component's Update, the
command it returns is handed to the program, and the program quits when the answer arrives.

Sources: tea/internal/application/program/program.go:205-251 (the loop, Tea/ProgramModel.lean), 546-592 (the input
goroutine, Tea/TypingModel.lean); components/confirm/confirm.go:152-194, components/select/select.go:136-175, 273-284,
components/multiselect/multiselect.go:200-249 (Update and its commands); examples in components/README.md: the enclosing
Update stores the value of the result message and returns tea.Quit().
-/
set_option linter.unusedVariables false
namespace Phoenix.Dialog
open Phoenix.Program

/-- The messages: keys, and the result messages of the component (ConfirmResultMsg, ConfirmSelectionMsg).
components/confirm/confirm.go:269-271, components/select/select.go:273-284, components/multiselect/multiselect.go:368-373. -/
inductive DMsg (β : Type) where
  | key (k : KeyMsg)
  | answer (b : β)

/-- The command a component's Update returns: none, one that returns a result message, tea.Quit().
components/confirm/confirm.go:165-194, components/select/select.go:144-175, components/multiselect/multiselect.go:207-249. -/
inductive Out (β : Type) where
  | none
  | answer (b : β)
  | quit
deriving DecidableEq

/-- A component: its state and its Update on keys.
components/confirm/confirm.go:152-162, components/select/select.go:136-141, components/multiselect/multiselect.go:197-202. -/
structure Comp (σ β : Type) where
  init : σ
  upd : σ → KeyMsg → σ × Out β

/-- The enclosing model: the component and the answers received so far.
The user's model; tea/internal/application/program/program.go:237-246 calls its Update. -/
structure M (σ β : Type) where
  comp : σ
  answers : List β

variable {σ β : Type}

/-- The commands: components/confirm/confirm.go:179, 183, 189, components/select/select.go:165, 169, 273-278. -/
def cmdOf : Out β → Option (Cmd (DMsg β))
  | .none => Option.none
  | .answer b => some (.ret [.user (.answer b)])
  | .quit => some (.ret [.quit])

/-- The enclosing Update: keys are passed on; an answer is stored and the program quits.
The user's model; tea/internal/application/program/program.go:237-246 calls its Update. -/
def app (c : Comp σ β) : App (DMsg β) (M σ β) where
  init := ⟨c.init, []⟩
  initCmd := Option.none
  update := fun m x => match x with
    | .user (.key k) => (⟨(c.upd m.comp k).1, m.answers⟩, cmdOf (c.upd m.comp k).2)
    | .user (.answer b) => (⟨m.comp, m.answers ++ [b]⟩, some (.ret [.quit]))
    | _ => (m, Option.none)

/-! ### Specification -/

/-- The component after some keys. Specification. -/
def after (c : Comp σ β) (ks : List KeyMsg) : σ := ks.foldl (fun s k => (c.upd s k).1) c.init

/-- What the component's Update returns for each of these keys, from state `s` on. Specification. -/
def outsFrom (c : Comp σ β) : σ → List KeyMsg → List (Out β)
  | _, [] => []
  | s, k :: ks => (c.upd s k).2 :: outsFrom c (c.upd s k).1 ks

/-- Specification: from the start. -/
def outs (c : Comp σ β) (ks : List KeyMsg) : List (Out β) := outsFrom c c.init ks

/-- Specification. -/
def Out.answer? : Out β → Option β
  | .answer b => some b
  | _ => Option.none

/-- The answers these keys give, in order. Specification. -/
def answers (c : Comp σ β) (ks : List KeyMsg) : List β := (outs c ks).filterMap Out.answer?

/-- Nobody but the keyboard and the program's commands sends messages. Specification. -/
def Alone (s : Typing.St (DMsg β) (M σ β)) : Prop := from' .send s.p.accepted = s.typed

end Phoenix.Dialog
