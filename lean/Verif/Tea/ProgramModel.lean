import Verif.Util
/-
Model of the event loop of tea/internal/application/program/program.go and of commands
(tea/internal/domain/model/cmd.go), as a labelled transition system: one step per
synchronisation (channel operation) of the Go program, in any interleaving.

Simplifications:
  * Update and View are pure functions of the model; a command is a finite description of
    the messages it may return (`Cmd`), it takes arbitrarily long and never panics.
  * terminal handling and drawing are in Tea/SuspendModel.lean and Tea/InlineModel.lean;
    here `screen` records the model whose View was drawn last.
  * `Send` is modelled by its successful outcome (the message enters msgCh); its timeout
    and its "not running" error have no effect.
  * the loop counts as waiting in its select from the end of `update` on (the few instructions
    between renderView and the select belong to `update`).  The input reader goroutine is a further
    sender of the same kind: it blocks on the same select as a command goroutine.
  * the capacity of msgCh (100, program.go:107) is the parameter `cap`.
-/
namespace Phoenix.Program

/-- tea/internal/domain/model/msg.go:282, cmd.go:155-157, 182-184; `user a` is any other
message (a nil message included). -/
inductive Msg (α : Type) where
  | user (a : α)
  | quit
  | batch (ms : List (Msg α))
  | seq (ms : List (Msg α))

/-- tea/internal/domain/model/cmd.go: `ret ms` is an elementary command that returns one of
the messages `ms`; `batch`/`seq` are the closures built by Batch and Sequence.
Lines 44-135 there; public: tea/tea.go:454-548. -/
inductive Cmd (α : Type) where
  | ret (ms : List (Msg α))
  | batch (cs : List (Cmd α))
  | seq (cs : List (Cmd α))

/-- cmd.go:44-82 `Batch`; `none` is the nil Cmd. -/
def mkBatch {α} (cmds : List (Option (Cmd α))) : Option (Cmd α) :=
  let filtered := cmds.filterMap id
  if filtered.length = 0 then none
  else if filtered.length = 1 then filtered.head?
  else some (.batch filtered)

/-- cmd.go:104-135 `Sequence`. -/
def mkSequence {α} (cmds : List (Option (Cmd α))) : Option (Cmd α) :=
  let filtered := cmds.filterMap id
  if filtered.length = 0 then none
  else if filtered.length = 1 then filtered.head?
  else some (.seq filtered)

mutual
/-- Results a command can return: Batch (cmd.go:64-81) collects one result per command in
completion order, i.e. in any order; Sequence (124-134) in the given order. -/
inductive Returns {α} : Cmd α → Msg α → Prop where
  | ret (ms m) : m ∈ ms → Returns (.ret ms) m
  | batch (cs rs ms) : ReturnsAll cs rs → rs.Perm ms → Returns (.batch cs) (.batch ms)
  | seq (cs rs) : ReturnsAll cs rs → Returns (.seq cs) (.seq rs)
/-- One result per command, in the order of the commands.
tea/internal/domain/model/cmd.go:44-135: the commands of a list. -/
inductive ReturnsAll {α} : List (Cmd α) → List (Msg α) → Prop where
  | nil : ReturnsAll [] []
  | cons (c cs m ms) : Returns c m → ReturnsAll cs ms → ReturnsAll (c :: cs) (m :: ms)
end

/-- What is observable of running a command: elementary commands start and finish.
tea/internal/domain/model/cmd.go:44-135. -/
inductive Ev (α : Type) where
  | start (ms : List (Msg α))
  | finish (m : Msg α)

/-- All interleavings of a list of traces. tea/internal/domain/model/cmd.go:60-75: the goroutines of Batch. -/
inductive Interleave {β : Type} : List (List β) → List β → Prop where
  | done (ts : List (List β)) : (∀ t ∈ ts, t = []) → Interleave ts []
  | pick (l r : List (List β)) (e : β) (t : List β) (tr : List β) :
      Interleave (l ++ t :: r) tr → Interleave (l ++ (e :: t) :: r) (e :: tr)

mutual
/-- Running a command, with the trace of its elementary commands: Sequence (cmd.go:124-134)
runs its commands one after the other, Batch (64-81) in one goroutine each. -/
inductive Runs {α} : Cmd α → List (Ev α) → Msg α → Prop where
  | ret (ms m) : m ∈ ms → Runs (.ret ms) [.start ms, .finish m] m
  | batch (cs rs ms trs tr) : RunsAll cs trs rs → Interleave trs tr → rs.Perm ms → Runs (.batch cs) tr (.batch ms)
  | seq (cs rs trs) : RunsAll cs trs rs → Runs (.seq cs) trs.flatten (.seq rs)
/-- One trace and one result per command. tea/internal/domain/model/cmd.go:44-135: the commands of a list. -/
inductive RunsAll {α} : List (Cmd α) → List (List (Ev α)) → List (Msg α) → Prop where
  | nil : RunsAll [] [] []
  | cons (c cs t ts m ms) : Runs c t m → RunsAll cs ts ms → RunsAll (c :: cs) (t :: ts) (m :: ms)
end

/-- Where the event loop is (program.go:205-251). -/
inductive Loop (α : Type) where
  | select                        -- blocked in the select statement
  | busy (m : Msg α)              -- handling m in Update and View (237-246)
  | push (rest : List (Msg α))    -- re-sending the messages of a batch or sequence (214-227)
  | done                          -- Run has returned

/-- Who put a message into msgCh. tea/internal/application/program/program.go:205-251, 466-495. -/
inductive Src where
  | loop | cmd | send
deriving DecidableEq

/-- The state of a running program.  `accepted`, `consumed`, `delivered`, `results`,
`dropped`, `quitCalls` are history variables no step depends on.
tea/internal/application/program/program.go:144-252, 466-495. -/
structure St (α σ : Type) where
  loop : Loop α
  queue : List (Msg α)
  model : σ
  screen : σ
  running : List (Cmd α)                  -- command goroutines still in cmd()
  blocked : List (Msg α)                  -- command goroutines in the select of 489-493
  accepted : List (Src × Msg α)           -- everything ever put into msgCh, in order
  consumed : List (Msg α)                 -- everything taken out, in order
  delivered : List (Msg α)                -- arguments of Update, in order
  results : List (Msg α)                  -- what finished commands returned
  dropped : List (Msg α)                  -- results of goroutines that took a quit signal
  quitCalls : Nat                         -- number of Quit() calls so far

/-- The application: Init, Update and View's argument.
The user's model, tea/internal/application/program/program.go:194-197, 237-246, 505-522. -/
structure App (α σ : Type) where
  init : σ
  initCmd : Option (Cmd α)
  update : σ → Msg α → σ × Option (Cmd α)

/-- executeCommand for an optional command (program.go:195-197, 241-243, 484-495). -/
def spawn {α} (c : Option (Cmd α)) (rs : List (Cmd α)) : List (Cmd α) :=
  match c with
  | none => rs
  | some c => c :: rs

/-- program.go:194-202: the state in which the loop starts. -/
def start {α σ} (a : App α σ) : St α σ :=
  { loop := .select, queue := [], model := a.init, screen := a.init, running := spawn a.initCmd [],
    blocked := [], accepted := [], consumed := [], delivered := [], results := [], dropped := [],
    quitCalls := 0 }

/-- program.go:207-227: what the loop does with a received message. -/
def onMsg {α} : Msg α → Loop α
  | .quit => .done
  | .batch ms => .push ms
  | .seq ms => .push ms
  | .user a => .busy (.user a)

/-- program.go:237-246: Update, executeCommand, renderView. -/
def finish {α σ} (a : App α σ) (s : St α σ) (m : Msg α) : St α σ :=
  let r := a.update s.model m
  { s with loop := .select, model := r.1, screen := r.1, running := spawn r.2 s.running,
           delivered := s.delivered ++ [m] }

/-- A send on msgCh by `src` (possible iff there is room).
tea/internal/application/program/program.go:475-477, 489-493. -/
def enqueue {α σ} (s : St α σ) (src : Src) (m : Msg α) : St α σ :=
  { s with queue := s.queue ++ [m], accepted := s.accepted ++ [(src, m)] }

/-- Steps of the program itself. tea/internal/application/program/program.go:205-251, 484-495; lines at each step. -/
inductive Step {α σ} (a : App α σ) (cap : Nat) : St α σ → St α σ → Prop where
  /-- program.go:207: the loop receives from msgCh -/
  | recv (s m q) : s.loop = .select → s.queue = m :: q →
      Step a cap s { s with queue := q, loop := onMsg m, consumed := s.consumed ++ [m] }
  /-- program.go:237-246 -/
  | update (s m) : s.loop = .busy m → Step a cap s (finish a s m)
  /-- program.go:216, 224: blocks while the channel is full -/
  | push (s m rest) : s.loop = .push (m :: rest) → s.queue.length < cap →
      Step a cap s { enqueue s .loop m with loop := .push rest }
  /-- program.go:218, 226: continue -/
  | pushed (s) : s.loop = .push [] → Step a cap s { s with loop := .select }
  /-- program.go:486: a command returns -/
  | result (s c m l r) : s.running = l ++ c :: r → Returns c m →
      Step a cap s { s with running := l ++ r, blocked := s.blocked ++ [m], results := s.results ++ [m] }
  /-- program.go:490: its message enters the channel -/
  | deliver (s m l r) : s.blocked = l ++ m :: r → s.queue.length < cap →
      Step a cap s { enqueue s .cmd m with blocked := l ++ r }

/-- Calls from outside. tea/internal/application/program/program.go:439-481; lines at each step. -/
inductive Call {α σ} (cap : Nat) : St α σ → St α σ → Prop where
  /-- program.go:475-477: Send succeeds.  The check of 471 is made before, without holding the lock: a Send that saw a
  running program may put its message into the channel after the loop has ended. -/
  | send (s m) : s.queue.length < cap → Call cap s (enqueue s .send m)
  /-- program.go:439-445 Quit: somebody is waiting on quitCh: the loop, which waits only when msgCh is empty ... -/
  | quitLoop (s) : s.loop = .select → s.queue = [] →
      Call cap s { s with loop := .done, quitCalls := s.quitCalls + 1 }
  /-- ... or a command goroutine (491), which waits only when msgCh is full; it takes the signal and drops its message -/
  | quitCmd (s m l r) : s.blocked = l ++ m :: r → ¬ s.queue.length < cap →
      Call cap s { s with blocked := l ++ r, dropped := s.dropped ++ [m], quitCalls := s.quitCalls + 1 }
  /-- nobody waits on quitCh: the default branch (442).  A goroutine in `blocked` may not have reached its select yet. -/
  | quitLost (s) : ¬ (s.loop = .select ∧ s.queue = []) → Call cap s { s with quitCalls := s.quitCalls + 1 }

/-- Executions. tea/internal/application/program/program.go:144-252 and all interleavings. -/
inductive Reach {α σ} (a : App α σ) (cap : Nat) : St α σ → Prop where
  | start : Reach a cap (start a)
  | step (s s') : Reach a cap s → Step a cap s s' → Reach a cap s'
  | call (s s') : Reach a cap s → Call cap s s' → Reach a cap s'

end Phoenix.Program
