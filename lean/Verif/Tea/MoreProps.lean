import Verif.Tea.MoreModel
import Verif.Tea.ProgramProps
import Verif.Tea.SuspendProps
/-
C135 commands are run exactly once, C136 one event loop at a time, C137 consecutive Runs,
C138 Start.
-/
set_option linter.unusedVariables false
set_option linter.unusedSimpArgs false
namespace Phoenix.Program
variable {α σ : Type}

/-! ## C135 -/

/-- The commands an application returns when its Update is called with these messages, one after the other. -/
def issuedFrom (a : App α σ) : σ → List (Msg α) → List (Cmd α)
  | _, [] => []
  | m, x :: xs => (a.update m x).2.toList ++ issuedFrom a (a.update m x).1 xs

/-- ... including Init's. -/
def issued (a : App α σ) (msgs : List (Msg α)) : List (Cmd α) := a.initCmd.toList ++ issuedFrom a a.init msgs

theorem issuedFrom_append (a : App α σ) (l : List (Msg α)) (m : σ) (x : Msg α) :
    issuedFrom a m (l ++ [x]) = issuedFrom a m l ++ (a.update (l.foldl (fun m x => (a.update m x).1) m) x).2.toList := by
  induction l generalizing m with
  | nil => simp [issuedFrom]
  | cons y l ih => simp [issuedFrom, ih]

theorem issued_append (a : App α σ) (l : List (Msg α)) (x : Msg α) :
    issued a (l ++ [x]) = issued a l ++ (a.update (l.foldl (fun m x => (a.update m x).1) a.init) x).2.toList := by
  rw [issued, issuedFrom_append, issued, List.append_assoc]

theorem spawn_eq (c : Option (Cmd α)) (rs : List (Cmd α)) : spawn c rs = c.toList ++ rs := by
  cases c <;> rfl

/-- Commands paired with what they returned. -/
def Fits (done : List (Cmd α × Msg α)) : Prop := ∀ p ∈ done, Returns p.1 p.2

/-- C135.  In every execution: the commands returned by Init and by the Update calls so far are exactly those
still running together with those that have returned, each of them once; and the results delivered to the
program are exactly what the returned commands returned. -/
theorem C135_commands_run {a : App α σ} {cap : Nat} {s : St α σ} (h : Reach a cap s) :
    ∃ done : List (Cmd α × Msg α), Fits done ∧ done.map (·.2) = s.results ∧
      (done.map (·.1) ++ s.running).Perm (issued a s.delivered) := by
  induction h with
  | start =>
    refine ⟨[], (by intro p hp; cases hp), rfl, ?_⟩
    simp [start, spawn_eq, issued, issuedFrom]
  | step s s' hs st ih =>
    obtain ⟨done, h1, h2, h3⟩ := ih
    cases st with
    | recv m q _ _ => exact ⟨done, h1, h2, h3⟩
    | update m hl =>
      refine ⟨done, h1, h2, ?_⟩
      show (done.map (·.1) ++ spawn (a.update s.model m).2 s.running).Perm (issued a (s.delivered ++ [m]))
      rw [issued_append, ← (inv_reach hs).model, spawn_eq]
      refine (List.Perm.append_left _ List.perm_append_comm).trans ?_
      rw [← List.append_assoc]
      exact List.Perm.append_right _ h3
    | push m rest _ _ => exact ⟨done, h1, h2, h3⟩
    | pushed _ => exact ⟨done, h1, h2, h3⟩
    | result c m l r hr hret =>
      refine ⟨done ++ [(c, m)], ?_, by simp [h2], ?_⟩
      · intro p hp
        rcases List.mem_append.1 hp with hp | hp
        · exact h1 p hp
        · simp at hp; subst hp; exact hret
      · show ((done ++ [(c, m)]).map (·.1) ++ (l ++ r)).Perm (issued a s.delivered)
        refine List.Perm.trans ?_ h3
        rw [hr, List.map_append, List.append_assoc]
        exact List.Perm.append_left _ (show (c :: (l ++ r)).Perm (l ++ c :: r) from List.perm_middle.symm)
    | deliver m l r _ _ => exact ⟨done, h1, h2, h3⟩
  | call s s' hs st ih =>
    obtain ⟨done, h1, h2, h3⟩ := ih
    cases st <;> exact ⟨done, h1, h2, h3⟩

/-- An execution with a command issued by Update. -/
example : ∃ s, Reach (⟨(), none, fun _ _ => ((), some (.ret [.quit]))⟩ : App Nat Unit) 10 s ∧ s.running.length = 1 :=
  ⟨_, .step _ _ (.step _ _ (.call _ _ .start (.send _ (.user 1) (by decide)))
    (.recv _ (.user 1) [] rfl rfl)) (.update _ (.user 1) rfl), rfl⟩

/-! ## C137 -/

/-- C137, full: the event loop of a Run takes from the queue only messages that the queue accepted after that
Run began: whenever it takes one, the first `n` accepted messages (`n` = accepted before this Run) are already
gone. -/
def C137_statement : Prop :=
  ∀ (α σ : Type) (a : App α σ) (ic : σ → Option (Cmd α)) (cap : Nat) (s s' : St α σ) (n : Nat),
    ReachN a ic cap s n → Step a cap s s' → s'.consumed.length = s.consumed.length + 1 → n ≤ s.consumed.length

structure InvN (a : App α σ) (cap : Nat) (s : St α σ) : Prop where
  fifo : s.accepted.map (·.2) = s.consumed ++ s.queue
  deliv : s.delivered ++ s.loop.current = s.consumed.filter Msg.isUser ∨
    (s.loop = .done ∧ s.delivered = s.consumed.filter Msg.isUser)
  model : s.model = s.delivered.foldl (fun m x => (a.update m x).1) a.init
  screen : s.screen = s.model
  busy : ∀ m, s.loop = .busy m → m.isUser = true
  room : s.queue.length ≤ cap

theorem invN {a : App α σ} {ic : σ → Option (Cmd α)} {cap n : Nat} {s : St α σ} (h : ReachN a ic cap s n) : InvN a cap s := by
  induction h with
  | start => exact ⟨rfl, .inl rfl, rfl, rfl, (by intro m h; simp [start] at h), Nat.zero_le _⟩
  | again s n _ hl ih =>
    refine ⟨ih.fifo, .inl ?_, ih.model, rfl, (by intro m h; simp [again] at h), ih.room⟩
    show s.delivered ++ [] = s.consumed.filter Msg.isUser
    rcases ih.deliv with h | h
    · rw [hl] at h; simpa [Loop.current] using h
    · simpa using h.2
  | step s s' n _ st ih =>
    have hd : ∀ {l : Loop α}, s.loop = l → l ≠ .done → s.delivered ++ l.current = s.consumed.filter Msg.isUser := by
      intro l hl hn
      rcases ih.deliv with h | h
      · rw [hl] at h; exact h
      · exact absurd (hl ▸ h.1) hn
    cases st with
    | recv m q hl hq =>
      have hd := hd hl (by simp)
      simp only [Loop.current, List.append_nil] at hd
      refine ⟨?_, .inl ?_, ih.model, ih.screen, ?_, ?_⟩
      · simp only; rw [ih.fifo, hq]; simp
      · simp only
        rw [List.filter_append, ← hd]
        congr 1
        cases m <;> rfl
      · simp only
        intro x hx
        cases m with
        | user b => simp only [onMsg, Loop.busy.injEq] at hx; rw [← hx]; rfl
        | quit => simp [onMsg] at hx
        | batch _ => simp [onMsg] at hx
        | seq _ => simp [onMsg] at hx
      · have := ih.room; rw [hq] at this; simp only [List.length_cons] at this; simp only; omega
    | update m hl =>
      have hd := hd hl (by simp)
      refine ⟨ih.fifo, .inl ?_, ?_, rfl, ?_, ih.room⟩
      · show (s.delivered ++ [m]) ++ [] = _
        rw [List.append_nil]; exact hd
      · show (a.update s.model m).1 = List.foldl _ _ (s.delivered ++ [m])
        rw [List.foldl_append, ← ih.model]; rfl
      · intro x hx; cases hx
    | push m rest hl hq =>
      have hd := hd hl (by simp)
      refine ⟨?_, .inl hd, ih.model, ih.screen, ?_, ?_⟩
      · show (s.accepted ++ [(Src.loop, m)]).map (·.2) = s.consumed ++ (s.queue ++ [m])
        rw [List.map_append, ih.fifo]; simp
      · intro x hx; cases hx
      · show (s.queue ++ [m]).length ≤ cap
        rw [List.length_append, List.length_singleton]; omega
    | pushed hl =>
      have hd := hd hl (by simp)
      exact ⟨ih.fifo, .inl hd, ih.model, ih.screen, (by intro x hx; cases hx), ih.room⟩
    | result c m l r hr hret => exact ⟨ih.fifo, ih.deliv, ih.model, ih.screen, ih.busy, ih.room⟩
    | deliver m l r hb hq =>
      refine ⟨?_, ih.deliv, ih.model, ih.screen, ih.busy, ?_⟩
      · show (s.accepted ++ [(Src.cmd, m)]).map (·.2) = s.consumed ++ (s.queue ++ [m])
        rw [List.map_append, ih.fifo]; simp
      · show (s.queue ++ [m]).length ≤ cap
        rw [List.length_append, List.length_singleton]; omega
  | call s s' n _ st ih =>
    cases st with
    | send m hq =>
      refine ⟨?_, ih.deliv, ih.model, ih.screen, ih.busy, ?_⟩
      · show (s.accepted ++ [(Src.send, m)]).map (·.2) = s.consumed ++ (s.queue ++ [m])
        rw [List.map_append, ih.fifo]; simp
      · show (s.queue ++ [m]).length ≤ cap
        rw [List.length_append, List.length_singleton]; omega
    | quitLoop hl =>
      have : s.delivered ++ [] = s.consumed.filter Msg.isUser := by
        rcases ih.deliv with h | h
        · rw [hl] at h; exact h
        · rw [hl] at h; exact absurd h.1 (by simp)
      exact ⟨ih.fifo, .inl this, ih.model, ih.screen, (by intro x hx; cases hx), ih.room⟩
    | quitCmd m l r hb _ => exact ⟨ih.fifo, ih.deliv, ih.model, ih.screen, ih.busy, ih.room⟩
    | quitLost hl => exact ⟨ih.fifo, ih.deliv, ih.model, ih.screen, ih.busy, ih.room⟩

/-- C137, what holds over any number of Runs of one Program value: messages are consumed in the order in which
the queue accepted them, none is lost or duplicated, the model carries over (each Update continues from the
last), and the screen shows it. -/
theorem C137_runs_continue_partial {a : App α σ} {ic : σ → Option (Cmd α)} {cap n : Nat} {s : St α σ}
    (h : ReachN a ic cap s n) :
    s.accepted.map (·.2) = s.consumed ++ s.queue ∧
    (s.loop = .select → s.delivered = s.consumed.filter Msg.isUser) ∧
    s.model = s.delivered.foldl (fun m x => (a.update m x).1) a.init ∧ s.screen = s.model := by
  have i := invN h
  refine ⟨i.fifo, ?_, i.model, i.screen⟩
  intro hl
  rcases i.deliv with h | h
  · rw [hl] at h; simpa [Loop.current] using h
  · exact h.2

/-- C137: a later Run calls Init on the model the last one left and runs the command it returns, next to the commands that
are still running; it begins with that model on the screen and handles messages. -/
theorem C137_next_run {a : App α σ} {ic : σ → Option (Cmd α)} {cap n : Nat} {s : St α σ} (h : ReachN a ic cap s n)
    (hl : s.loop = .done) :
    ReachN a ic cap (again ic s) s.accepted.length ∧
    (again ic s).model = s.delivered.foldl (fun m x => (a.update m x).1) a.init ∧ (again ic s).screen = s.model ∧
    (∀ c, c ∈ (again ic s).running ↔ ic s.model = some c ∨ c ∈ s.running) ∧
    (again ic s).running.length = s.running.length + (if (ic s.model).isSome then 1 else 0) ∧
    (again ic s).loop = .select := by
  refine ⟨.again s n h hl, (invN h).model, rfl, ?_, ?_, rfl⟩
  · intro c
    simp only [again, spawn_eq, List.mem_append, Option.mem_toList, Option.mem_def]
  · simp only [again, spawn_eq, List.length_append]
    cases ic s.model <;> simp <;> omega

/-- C137 is false: what was still queued when the first Run quit is delivered to the second Run. -/
theorem C137_refuted : ¬ C137_statement := by
  intro H
  let a : App Nat Unit := ⟨(), none, fun _ _ => ((), none)⟩
  have h0 : ReachN a (fun _ => none) 10 (start a) 0 := .start
  have h1 := ReachN.call _ _ _ h0 (.send _ .quit (by decide))
  have h2 := ReachN.call _ _ _ h1 (.send _ (.user 7) (by decide))
  have h3 := ReachN.step _ _ _ h2 (.recv _ .quit [.user 7] rfl rfl)
  have h4 := ReachN.again _ _ h3 rfl
  have := H _ _ _ _ _ _ _ _ h4 (.recv _ (.user 7) [] rfl rfl) rfl
  revert this
  decide

/-- ... and a quit message left over ends the second Run before it has handled anything. -/
theorem C137_stale_quit_refuted : ∃ (s s' : St Nat Unit) (n : Nat),
    ReachN (⟨(), none, fun _ _ => ((), none)⟩ : App Nat Unit) (fun _ => none) 10 s n ∧ s.accepted.length = n ∧
    s.loop = .select ∧ Step (⟨(), none, fun _ _ => ((), none)⟩ : App Nat Unit) 10 s s' ∧ s'.loop = .done := by
  let a : App Nat Unit := ⟨(), none, fun _ _ => ((), none)⟩
  have h0 : ReachN a (fun _ => none) 10 (start a) 0 := .start
  have h1 := ReachN.call _ _ _ h0 (.send _ .quit (by decide))
  have h2 := ReachN.call _ _ _ h1 (.send _ .quit (by decide))
  have h3 := ReachN.step _ _ _ h2 (.recv _ .quit [.quit] rfl rfl)
  have h4 := ReachN.again _ _ h3 rfl
  exact ⟨_, _, _, h4, rfl, rfl, .recv _ .quit [] rfl rfl, rfl⟩

end Phoenix.Program

/-! ## C136 -/
namespace Phoenix.Loops

/-- C136, full: at any moment at most one event loop is executing, and IsRunning tells whether one is. -/
def C136_statement : Prop := ∀ s, Reach true s → s.loops ≤ 1 ∧ (isRunning s = true ↔ s.loops = 1)

/-- C136 is false: a Stop that times out (an Update takes longer than a second) reports the program as stopped
while its loop lives on, and a following Run starts a second loop on the same state. -/
theorem C136_refuted : ¬ C136_statement := by
  intro h
  have h1 : Reach true _ := .run _ .init
  have h2 := Reach.stop _ h1
  have h3 := Reach.timeout _ h2 (by decide) rfl
  have h4 := Reach.run _ h3
  exact absurd (h _ h4).1 (by decide)

/-- C136, exactly what a time-out does: the program counts as stopped, the loop lives on, and one Stop
has returned. -/
theorem C136_timeout {s : St} (h : s.waiting > 0) :
    isRunning (timeout s) = false ∧ (timeout s).loops = s.loops ∧ (timeout s).waiting + 1 = s.waiting ∧
    (run (timeout s)).2 = true := by
  refine ⟨rfl, rfl, ?_, rfl⟩
  show s.waiting - 1 + 1 = s.waiting
  omega
example := C136_timeout (s := { running := true, loops := 1, waiting := 1 }) (by decide)

/-- C136, what holds: if no Stop times out, then in every interleaving of Run, Start, Stop and the loop's end
at most one event loop is executing, IsRunning tells whether one is, a second Run is refused exactly then, and a
Stop returns only after the loop has ended. -/
theorem C136_no_timeout_partial {s : St} (h : Reach false s) :
    s.loops ≤ 1 ∧ (isRunning s = true ↔ s.loops = 1) ∧ ((run s).2 = false ↔ s.loops = 1) := by
  have : (s.running = true ∧ s.loops = 1) ∨ (s.running = false ∧ s.loops = 0) := by
    induction h with
    | init => exact .inr ⟨rfl, rfl⟩
    | run s _ ih =>
      unfold run
      rcases ih with ⟨h1, h2⟩ | ⟨h1, h2⟩
      · rw [h1]; exact .inl ⟨h1, h2⟩
      · rw [h1]; exact .inl ⟨rfl, by simp [h2]⟩
    | exit s _ hl ih =>
      rcases ih with ⟨h1, h2⟩ | ⟨h1, h2⟩
      · exact .inr ⟨rfl, by simp [exit, h2]⟩
      · omega
    | stop s _ ih => unfold stop; split <;> exact ih
    | seen s _ _ _ ih => exact ih
    | timeout s _ _ h => exact absurd h (by decide)
  unfold isRunning run
  rcases this with ⟨h1, h2⟩ | ⟨h1, h2⟩ <;> simp [h1, h2]

/-- C136: if no Stop times out, a Stop waits exactly when a loop is executing (and returns at once otherwise), it has no
other effect, and the wait can end only when no loop is executing any more. -/
theorem C136_stop_partial {s : St} (h : Reach false s) :
    (stop s).waiting = s.waiting + s.loops ∧ (stop s).loops = s.loops ∧ isRunning (stop s) = isRunning s ∧
    (isRunning s = false → s.loops = 0 ∧ (seen s).waiting = s.waiting - 1 ∧ (seen s).loops = 0) := by
  have k := C136_no_timeout_partial h
  have h1 : s.running = true ↔ s.loops = 1 := k.2.1
  have h2 := k.1
  refine ⟨?_, ?_, ?_, ?_⟩
  · unfold stop
    cases hr : s.running with
    | true => have := h1.1 hr; simp [this]
    | false =>
      have : s.loops = 0 := by
        have : ¬ s.loops = 1 := fun e => by rw [h1.2 e] at hr; cases hr
        omega
      simp [this]
  · unfold stop; split <;> rfl
  · unfold stop; split <;> rfl
  · intro hr
    have : s.loops = 0 := by
      have : ¬ s.loops = 1 := fun e => by
        have := h1.2 e
        simp only [isRunning] at hr
        rw [hr] at this; cases this
      omega
    exact ⟨this, rfl, this⟩

example : Reach false { running := true, loops := 1, waiting := 1 } :=
  Reach.stop { running := true, loops := 1, waiting := 0 } (Reach.run { running := false, loops := 0, waiting := 0 } .init)

end Phoenix.Loops

/-! ## C138 -/
namespace Phoenix.Suspend

/-- C138, full: a program with the alternate-screen option that begins its event loop (and so starts drawing)
is on the alternate screen. -/
def C138_statement (start : Oracle → St → St × Bool) : Prop :=
  ∀ (ok : Oracle) (s : St), s.running = false → s.altOpt = true → (start ok s).2 = true → (start ok s).1.alt = true

/-- C138: a Run that begins its event loop reads input, whatever its options. -/
theorem C138_run_reads (ok : Oracle) (s : St) (h1 : s.running = false) (h2 : (runStart ok s).2 = true) :
    (runStart ok s).1.reader = true ∧ (runStart ok s).1.running = true := by
  obtain ⟨raw, alt, cur, susp, rd, rn, ao, t⟩ := s
  simp only at h1
  subst h1
  revert h2
  cases raw <;> cases alt <;> cases ao <;> cases h0 : ok t <;> cases h1 : ok (t + 1) <;>
    simp [runStart, enterRaw, enterAlt, h0, h1]

/-- C138 holds for Run. -/
theorem C138_run : C138_statement runStart := by
  intro ok s h1 h2
  obtain ⟨raw, alt, cur, susp, rd, rn, ao, t⟩ := s
  simp only at h1 h2
  subst h1 h2
  cases raw <;> cases alt <;> cases h0 : ok t <;> cases h1 : ok (t + 1) <;> cases h2 : ok (t + 2) <;> cases h3 : ok (t + 3) <;>
    simp [runStart, enterRaw, enterAlt, exitRaw, cleanup, exitAlt, h0, h1, h2, h3]

/-- C138 is false for Start: if raw mode cannot be entered (input is not a terminal), Start does not enter the
alternate screen either and draws over the user's normal screen. -/
theorem C138_start_refuted : ¬ C138_statement startStart := by
  intro h
  have := h (fun n => n != 0) ⟨false, false, true, none, false, false, true, 0⟩ rfl rfl (by decide)
  revert this
  decide

/-- C138 for Start, what holds: if raw mode was entered the alternate screen was too; when the goroutine ends at
once no mode is left behind (if leaving works). -/
theorem C138_start_partial (ok : Oracle) (s : St) (h1 : s.running = false) (hr : s.raw = false) :
    ((startStart ok s).2 = true → (startStart ok s).1.raw = true → s.altOpt = true → (startStart ok s).1.alt = true) ∧
    ((startStart ok s).2 = false → s.alt = false → (∀ n, s.t + 2 ≤ n → ok n = true) →
      (startStart ok s).1.raw = false ∧ (startStart ok s).1.alt = false ∧ (startStart ok s).1.running = false) ∧
    ((startStart ok s).2 = true → (startStart ok s).1.running = true ∧ (startStart ok s).1.reader = true) := by
  obtain ⟨raw, alt, cur, susp, rd, rn, ao, t⟩ := s
  simp only at h1 hr
  subst h1 hr
  refine ⟨?_, ?_, ?_⟩
  · cases alt <;> cases ao <;> cases h0 : ok t <;> cases h1 : ok (t + 1) <;> cases h2 : ok (t + 2) <;> cases h3 : ok (t + 3) <;>
      simp [startStart, enterRaw, enterAlt, exitRaw, cleanup, exitAlt, h0, h1, h2, h3]
  · intro hf ha hok
    simp only at ha
    subst ha
    have k2 := hok (t + 2) (Nat.le_refl _)
    have k3 := hok (t + 3) (Nat.le_succ _)
    clear hok
    revert hf
    cases ao <;> cases h0 : ok t <;> cases h1 : ok (t + 1) <;>
      simp [startStart, enterRaw, enterAlt, exitRaw, cleanup, exitAlt, h0, h1, k2, k3]
  · cases alt <;> cases ao <;> cases h0 : ok t <;> cases h1 : ok (t + 1) <;> cases h2 : ok (t + 2) <;> cases h3 : ok (t + 3) <;>
      simp [startStart, enterRaw, enterAlt, exitRaw, cleanup, exitAlt, h0, h1, h2, h3]

/-- C138: starting and ending with Start leaves no mode behind, like Run (C24). -/
theorem C138_cleanup (ok : Oracle) (s : St) (hi : Inv s) (h1 : s.running = false) (hr : s.raw = false)
    (hs : (startStart ok s).2 = true) (hok : ∀ n, (startStart ok s).1.t ≤ n → ok n = true) :
    (runEnd ok (startStart ok s).1).raw = false ∧ (runEnd ok (startStart ok s).1).alt = false := by
  have hinv : Inv (startStart ok s).1 := by
    obtain ⟨raw, alt, cur, susp, rd, rn, ao, t⟩ := s
    have g1 := hi.alt
    have g2 := hi.susp
    clear hi hok hs
    simp only at h1 hr g1 g2
    subst h1 hr
    constructor
    · clear g2
      revert g1
      cases alt <;> cases ao <;> cases h0 : ok t <;> cases h1 : ok (t + 1) <;> cases h2 : ok (t + 2) <;> cases h3 : ok (t + 3) <;>
        simp [startStart, enterRaw, enterAlt, exitRaw, cleanup, exitAlt, h0, h1, h2, h3]
    · clear g1
      revert g2
      cases alt <;> cases ao <;> cases h0 : ok t <;> cases h1 : ok (t + 1) <;> cases h2 : ok (t + 2) <;> cases h3 : ok (t + 3) <;>
        simp [startStart, enterRaw, enterAlt, exitRaw, cleanup, exitAlt, h0, h1, h2, h3]
  have hrun := ((C138_start_partial ok s h1 hr).2.2 hs).1
  have := cleanup_modes ok (startStart ok s).1 hinv hok
  unfold runEnd
  rw [if_pos hrun]
  exact ⟨this.1, this.2.1⟩

example : (startStart (fun _ => true) (fresh true)).1.alt = true ∧ (startStart (fun _ => true) (fresh true)).2 = true := by decide

end Phoenix.Suspend
