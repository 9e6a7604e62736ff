import Verif.Tea.SuspendModel
/-
C23 (Suspend/Resume) and C24 (terminal restored at the end).
-/
set_option linter.unusedVariables false
set_option linter.unusedSimpArgs false
namespace Phoenix.Suspend

/-! ## one call -/

/-- C23.  A successful Suspend leaves raw mode and the alternate screen, stops the input
reader, and makes the program suspended; from any state and for any pattern of failures. -/
theorem C23_suspend_ok (ok : Oracle) (s : St) (hs : s.susp = none) (h : (suspend ok s).2 = true) :
    (suspend ok s).1.raw = false ∧ (suspend ok s).1.alt = false ∧ (suspend ok s).1.reader = false ∧
    (suspend ok s).1.susp = some (s.raw, s.alt) := by
  revert h
  obtain ⟨raw, alt, cur, susp, rd, rn, ao, t⟩ := s
  simp only at hs
  subst hs
  cases raw <;> cases alt <;> cases h0 : ok t <;> cases h1 : ok (t + 1) <;> cases h2 : ok (t + 2) <;>
    simp [suspend, leaveRaw, leaveAlt, exitRaw, exitAlt, enterRaw, setCursor, redoRaw, h0, h1, h2]
example := C23_suspend_ok (fun _ => true) (runOps (fun _ => true) (fresh true) [.runStart]) (by decide) (by decide)


/-- C23.  When no terminal operation fails, a Suspend shows the cursor to whoever uses the terminal meanwhile, and the
Resume of a suspended program hides it again. -/
theorem C23_cursor (ok : Oracle) (s : St) (hok : ∀ n, ok n = true) :
    (s.susp = none → (suspend ok s).2 = true ∧ (suspend ok s).1.cursor = true) ∧
    (∀ p, s.susp = some p → (resume ok s).1.cursor = false) := by
  refine ⟨fun hs => ?_, fun p hp => ?_⟩
  · obtain ⟨raw, alt, cur, susp, rd, rn, ao, t⟩ := s
    simp only at hs
    subst hs
    cases raw <;> cases alt <;> simp [suspend, leaveRaw, leaveAlt, exitRaw, exitAlt, setCursor, hok]
  · obtain ⟨raw, alt, cur, susp, rd, rn, ao, t⟩ := s
    obtain ⟨wr, wa⟩ := p
    simp only at hp
    subst hp
    cases raw <;> cases alt <;> cases wr <;> cases wa <;>
      simp [resume, backRaw, backAlt, enterRaw, enterAlt, setCursor, hok]
example := (C23_cursor (fun _ => true) (runOps (fun _ => true) (fresh true) [.runStart]) (fun _ => rfl)).1 (by decide)


/-- C23.  A failing Suspend leaves the program unsuspended with its input reader running and
the alternate screen as it was; raw mode is as it was unless leaving the alternate screen
and re-entering raw mode both failed. -/
theorem C23_suspend_err (ok : Oracle) (s : St) (hs : s.susp = none) (h : (suspend ok s).2 = false) :
    (suspend ok s).1.susp = none ∧ (suspend ok s).1.reader = true ∧ (suspend ok s).1.alt = s.alt ∧
    ((suspend ok s).1.raw = s.raw ∨ (ok (s.t + 1) = false ∧ ok (s.t + 2) = false)) := by
  revert h
  obtain ⟨raw, alt, cur, susp, rd, rn, ao, t⟩ := s
  simp only at hs
  subst hs
  cases raw <;> cases alt <;> cases h0 : ok t <;> cases h1 : ok (t + 1) <;> cases h2 : ok (t + 2) <;>
    simp [suspend, leaveRaw, leaveAlt, exitRaw, exitAlt, enterRaw, setCursor, redoRaw, h0, h1, h2]
example := C23_suspend_err (fun n => n != 3) (runOps (fun _ => true) (fresh true) [.runStart]) (by decide) (by decide)


/-- C23.  Suspend succeeds whenever its terminal operations do. -/
theorem C23_suspend_succeeds (ok : Oracle) (s : St) (h : ∀ n, ok n = true) : (suspend ok s).2 = true := by
  obtain ⟨raw, alt, cur, susp, rd, rn, ao, t⟩ := s
  cases susp <;> cases raw <;> cases alt <;>
    simp [suspend, leaveRaw, leaveAlt, exitRaw, exitAlt, enterRaw, setCursor, redoRaw, h]

/-- C23.  Suspend of a suspended program and Resume of a running one do nothing and report
no error. -/
theorem C23_idempotent (ok : Oracle) (s : St) :
    (s.susp.isSome → suspend ok s = (s, true)) ∧ (s.susp = none → resume ok s = (s, true)) := by
  constructor
  · intro h; simp [suspend, h]
  · intro h; simp [resume, h]
example := (C23_idempotent (fun _ => true) (runOps (fun _ => true) (fresh true) [.runStart, .suspend])).1 (by decide)
example := (C23_idempotent (fun _ => true) (runOps (fun _ => true) (fresh true) [.runStart])).2 (by decide)


/-- The modes of the terminal. -/
def St.modes (s : St) : Bool × Bool := (s.raw, s.alt)

/-- C23.  A successful Resume of a program that was suspended and whose terminal is in its
normal state re-enters exactly the recorded modes. -/
theorem resume_ok (ok : Oracle) (s : St) (r a : Bool) (hs : s.susp = some (r, a)) (hr : s.raw = false)
    (ha : s.alt = false) (h : (resume ok s).2 = true) :
    (resume ok s).1.modes = (r, a) ∧ (resume ok s).1.susp = none ∧ (resume ok s).1.reader = true := by
  revert h
  obtain ⟨raw, alt, cur, susp, rd, rn, ao, t⟩ := s
  simp only at hs hr ha
  subst hs hr ha
  cases r <;> cases a <;> cases h0 : ok t <;> cases h1 : ok (t + 1) <;> cases h2 : ok (t + 2) <;>
    simp [resume, backRaw, backAlt, enterRaw, enterAlt, setCursor, St.modes, h0, h1, h2]

/-- Any number of further Suspend calls. -/
def suspends (ok : Oracle) : Nat → St → St
  | 0, s => s
  | n + 1, s => suspends ok n (suspend ok s).1

theorem suspends_noop (ok : Oracle) (n : Nat) (s : St) (h : s.susp.isSome) : suspends ok n s = s := by
  induction n with
  | zero => rfl
  | succ n ih => rw [suspends, (C23_idempotent ok s).1 h]; exact ih

/-- C23.  Suspend, any number of further Suspends, then a successful Resume: the terminal is
back in the modes it was in before, the program is not suspended and the input reader runs. -/
theorem C23_roundtrip (ok : Oracle) (s : St) (n : Nat) (hs : s.susp = none) (h : (suspend ok s).2 = true)
    (h2 : (resume ok (suspends ok n (suspend ok s).1)).2 = true) :
    (resume ok (suspends ok n (suspend ok s).1)).1.modes = s.modes ∧
    (resume ok (suspends ok n (suspend ok s).1)).1.susp = none ∧
    (resume ok (suspends ok n (suspend ok s).1)).1.reader = true := by
  obtain ⟨e1, e2, e3, e4⟩ := C23_suspend_ok ok s hs h
  rw [suspends_noop ok n _ (by rw [e4]; rfl)] at h2 ⊢
  exact resume_ok ok _ s.raw s.alt e4 e1 e2 h2
example := C23_roundtrip (fun _ => true) (runOps (fun _ => true) (fresh true) [.runStart]) 2 (by decide) (by decide) (by decide)


/-- C23.  ExecProcess that reports no terminal error gives the terminal back in the modes it
had, for any initial modes and failure pattern. -/
theorem C23_exec (ok : Oracle) (s : St) (hs : s.susp = none) (h : (exec ok s).2 = true) :
    (exec ok s).1.modes = s.modes ∧ (exec ok s).1.susp = none := by
  unfold exec at h ⊢
  by_cases h1 : (suspend ok s).2 = true
  · simp only [h1] at h ⊢
    have := C23_roundtrip ok s 0 hs h1 h
    exact ⟨this.1, this.2.1⟩
  · simp [h1] at h
example := C23_exec (fun _ => true) (runOps (fun _ => true) (fresh true) [.runStart]) (by decide) (by decide)


/-- C23, restart: if Resume fails, calling it again after the cause is gone must succeed and
restore the modes. -/
def C23_retry_statement : Prop :=
  ∀ (ok : Oracle) (s : St), s.susp = none → (suspend ok s).2 = true →
    (∀ n, (resume ok (suspend ok s).1).1.t ≤ n → ok n = true) →
    (resume ok (resume ok (suspend ok s).1).1).2 = true

/-- C23 (retry) is false: with raw mode and the alternate screen active, a single failure to
re-enter raw mode makes every later Resume fail (EnterAltScreen reports "already in
alternate screen"). -/
theorem C23_retry_refuted : ¬ C23_retry_statement := by
  intro h
  have := h (fun n => n != 5) ⟨true, true, true, none, true, true, true, 0⟩ rfl (by decide) (by
    intro n hn
    have : (resume (fun n => n != 5) (suspend (fun n => n != 5) ⟨true, true, true, none, true, true, true, 0⟩).1).1.t = 6 := by
      decide
    rw [this] at hn
    simp; omega)
  revert this
  decide

/-- C23 (retry), for ever: whatever happens, a program whose Resume failed after entering the
alternate screen can never be resumed. -/
theorem C23_stuck (ok : Oracle) (s : St) (r : Bool) (hs : s.susp = some (r, true)) (ha : s.alt = true) :
    (resume ok s).2 = false ∧ (resume ok s).1.susp = some (r, true) ∧ (resume ok s).1.alt = true := by
  obtain ⟨raw, alt, cur, susp, rd, rn, ao, t⟩ := s
  simp only at hs ha
  subst hs ha
  cases h0 : ok t <;> simp [resume, backAlt, enterAlt, setCursor, h0]
-- after a Resume whose switch back to raw mode failed
example := C23_stuck (fun _ => true) (runOps (fun n => n != 7) (fresh true) [.runStart, .suspend, .resume]) true (by decide) (by decide)


/-- C23 (retry), what holds: without the alternate screen a failed Resume can be retried. -/
theorem C23_retry_partial (ok : Oracle) (s : St) (r : Bool) (hs : s.susp = some (r, false)) (hr : s.raw = false)
    (hf : (resume ok s).2 = false) (hok : ∀ n, (resume ok s).1.t ≤ n → ok n = true) :
    (resume ok (resume ok s).1).2 = true := by
  revert hf hok
  obtain ⟨raw, alt, cur, susp, rd, rn, ao, t⟩ := s
  simp only at hs hr
  subst hs hr
  cases r <;> cases h0 : ok t <;> cases h1 : ok (t + 1) <;>
    simp [resume, backRaw, backAlt, enterRaw, enterAlt, setCursor, h0, h1] <;>
    (intro hok; have a2 := hok (t + 2) (by omega); have a3 := hok (t + 3) (by omega); simp [a2, a3])
example := C23_retry_partial (fun n => n != 4) (runOps (fun n => n != 4) (fresh false) [.runStart, .suspend]) true (by decide)
  (by decide) (by decide) (by intro n hn; have : 5 ≤ n := hn; simp; omega)


/-! ## histories -/

/-- What holds in every reachable state. -/
structure Inv (s : St) : Prop where
  /-- the alternate screen is only ever entered when the option is set -/
  alt : s.alt = true → s.altOpt = true
  susp : ∀ r a, s.susp = some (r, a) → a = true → s.altOpt = true

theorem inv_fresh (b : Bool) : Inv (fresh b) := ⟨by simp [fresh], by simp [fresh]⟩

theorem inv_suspend (ok : Oracle) (s : St) (h : Inv s) : Inv (suspend ok s).1 := by
  obtain ⟨raw, alt, cur, susp, rd, rn, ao, t⟩ := s
  obtain ⟨h1, h2⟩ := h
  simp only at h1 h2
  constructor <;> revert h1 h2 <;>
    cases susp <;> cases raw <;> cases alt <;> cases ao <;> cases h0 : ok t <;> cases h1 : ok (t + 1) <;> cases h2 : ok (t + 2) <;>
    simp [suspend, leaveRaw, leaveAlt, exitRaw, exitAlt, enterRaw, setCursor, redoRaw, h0, h1, h2]

theorem inv_resume (ok : Oracle) (s : St) (h : Inv s) : Inv (resume ok s).1 := by
  obtain ⟨raw, alt, cur, susp, rd, rn, ao, t⟩ := s
  obtain ⟨h1, h2⟩ := h
  simp only at h1 h2
  rcases susp with _ | ⟨r, a⟩
  · exact ⟨h1, h2⟩
  · have h3 := h2 r a rfl
    clear h2
    constructor <;> revert h1 h3 <;>
    cases r <;> cases a <;> cases raw <;> cases alt <;> cases ao <;> cases h0 : ok t <;> cases h1 : ok (t + 1) <;> cases h2 : ok (t + 2) <;>
    simp [resume, backRaw, backAlt, enterRaw, enterAlt, setCursor, h0, h1, h2]

theorem inv_cleanup (ok : Oracle) (s : St) (h : Inv s) : Inv (cleanup ok s) := by
  obtain ⟨raw, alt, cur, susp, rd, rn, ao, t⟩ := s
  obtain ⟨h1, h2⟩ := h
  simp only at h1 h2
  constructor
  · revert h1
    clear h2
    cases raw <;> cases alt <;> cases ao <;> cases h0 : ok t <;> cases h1 : ok (t + 1) <;>
    simp [cleanup, exitRaw, exitAlt, h0, h1]
  · revert h2
    clear h1
    cases raw <;> cases alt <;> cases ao <;> cases h0 : ok t <;> cases h1 : ok (t + 1) <;>
    simp [cleanup, exitRaw, exitAlt, h0, h1]

theorem inv_runStart (ok : Oracle) (s : St) (h : Inv s) : Inv (runStart ok s).1 := by
  obtain ⟨raw, alt, cur, susp, rd, rn, ao, t⟩ := s
  obtain ⟨h1, h2⟩ := h
  simp only at h1 h2
  constructor
  · revert h1
    clear h2
    cases rn <;> cases raw <;> cases alt <;> cases ao <;> cases h0 : ok t <;> cases h1 : ok (t + 1) <;> cases h2 : ok (t + 2) <;> cases h3 : ok (t + 3) <;>
    simp [runStart, cleanup, exitRaw, exitAlt, enterRaw, enterAlt, h0, h1, h2, h3]
  · revert h2
    clear h1
    cases rn <;> cases raw <;> cases alt <;> cases ao <;> cases h0 : ok t <;> cases h1 : ok (t + 1) <;> cases h2 : ok (t + 2) <;> cases h3 : ok (t + 3) <;>
    simp [runStart, cleanup, exitRaw, exitAlt, enterRaw, enterAlt, h0, h1, h2, h3]

theorem inv_step (ok : Oracle) (s : St) (op : Op) (h : Inv s) : Inv (stepOp ok s op) := by
  cases op with
  | runStart => exact inv_runStart ok s h
  | runEnd =>
    show Inv (runEnd ok s)
    unfold runEnd
    split
    · exact inv_cleanup ok s h
    · exact h
  | suspend => exact inv_suspend ok s h
  | resume => exact inv_resume ok s h
  | exec =>
    show Inv (exec ok s).1
    unfold exec
    simp only
    split
    · exact inv_suspend ok s h
    · exact inv_resume ok _ (inv_suspend ok s h)

theorem inv_run (ok : Oracle) (b : Bool) (ops : List Op) : Inv (runOps ok (fresh b) ops) := by
  unfold runOps
  suffices ∀ s, Inv s → Inv (ops.foldl (stepOp ok) s) from this _ (inv_fresh b)
  induction ops with
  | nil => intro s h; exact h
  | cons op ops ih => intro s h; exact ih _ (inv_step ok s op h)

/-- C24: after any history ending with the end of Run, in which the clean-up's own terminal
operations succeed, the terminal is in its normal state. -/
def C24_statement : Prop :=
  ∀ (ok : Oracle) (b : Bool) (ops : List Op),
    (∀ n, (runOps ok (fresh b) ops).t ≤ n → ok n = true) →
    let s := runEnd ok (runOps ok (fresh b) ops)
    (runOps ok (fresh b) ops).running = true → s.raw = false ∧ s.alt = false ∧ s.cursor = true

/-- C24 is false for the cursor: Resume hides it and nothing shows it again. -/
theorem C24_refuted : ¬ C24_statement := by
  intro h
  have := h (fun _ => true) true [.runStart, .suspend, .resume] (fun _ _ => rfl) (by decide)
  revert this
  decide

theorem cleanup_modes (ok : Oracle) (s : St) (h : Inv s) (hok : ∀ n, s.t ≤ n → ok n = true) :
    (cleanup ok s).raw = false ∧ (cleanup ok s).alt = false ∧ (cleanup ok s).cursor = s.cursor ∧
    (cleanup ok s).running = false := by
  obtain ⟨raw, alt, cur, susp, rd, rn, ao, t⟩ := s
  have h1 := h.alt
  have k0 := hok t (Nat.le_refl _)
  have k1 := hok (t + 1) (Nat.le_succ _)
  simp only at h1
  clear h hok
  revert h1
  cases raw <;> cases alt <;> cases ao <;> simp [cleanup, exitRaw, exitAlt, k0, k1]

/-- C24, the part that holds: whatever happened before (suspends, resumes, failures of any
terminal operation), when the event loop ends and the final mode switches succeed, the
terminal is neither in raw mode nor in the alternate screen; the cursor is as it was. -/
theorem C24_modes_partial (ok : Oracle) (b : Bool) (ops : List Op)
    (hok : ∀ n, (runOps ok (fresh b) ops).t ≤ n → ok n = true)
    (hr : (runOps ok (fresh b) ops).running = true) :
    (runEnd ok (runOps ok (fresh b) ops)).raw = false ∧ (runEnd ok (runOps ok (fresh b) ops)).alt = false ∧
    (runEnd ok (runOps ok (fresh b) ops)).cursor = (runOps ok (fresh b) ops).cursor ∧
    (runEnd ok (runOps ok (fresh b) ops)).running = false := by
  unfold runEnd
  rw [if_pos hr]
  exact cleanup_modes ok _ (inv_run ok b ops) hok
example := C24_modes_partial (fun n => n != 3) true [.runStart, .suspend, .exec]
  (by intro n hn; have : 4 ≤ n := Nat.le_trans (by decide) hn; simp; omega) (by decide)


/-- C24.  A Run that fails to start (the alternate screen cannot be entered) leaves no mode
behind, for any failure pattern in which leaving raw mode works. -/
theorem C24_failed_start (ok : Oracle) (s : St) (hi : Inv s) (hs : s.running = false) (hraw : s.raw = false)
    (halt : s.alt = false) (hok : ∀ n, s.t + 2 ≤ n → ok n = true) (hf : (runStart ok s).2 = false) :
    (runStart ok s).1.raw = false ∧ (runStart ok s).1.alt = false ∧ (runStart ok s).1.running = false := by
  obtain ⟨raw, alt, cur, susp, rd, rn, ao, t⟩ := s
  have h1 := hi.alt
  have k2 := hok (t + 2) (Nat.le_refl _)
  have k3 := hok (t + 3) (Nat.le_succ _)
  simp only at h1 hs hraw halt
  subst hs hraw halt
  clear hi hok
  revert h1 hf
  cases ao <;> cases h0 : ok t <;> cases h1 : ok (t + 1) <;>
    simp [runStart, cleanup, exitRaw, exitAlt, enterRaw, enterAlt, h0, h1, k2, k3]
example := C24_failed_start (fun n => n != 1) (fresh true) (by constructor <;> simp [fresh]) rfl rfl rfl
  (by intro n hn; have : 2 ≤ n := hn; simp; omega) (by decide)


/-- C24, never suspended: the cursor, too, is as before. -/
theorem C24_cursor_partial (ok : Oracle) (b : Bool) (ops : List Op) (h : ∀ op ∈ ops, op = .runStart ∨ op = .runEnd) :
    (runOps ok (fresh b) ops).cursor = true := by
  unfold runOps
  suffices ∀ s : St, s.cursor = true → (ops.foldl (stepOp ok) s).cursor = true from this _ rfl
  induction ops with
  | nil => intro s hs; exact hs
  | cons op ops ih =>
    intro s hs
    apply ih (fun o ho => h o (by simp [ho]))
    obtain ⟨raw, alt, cur, susp, rd, rn, ao, t⟩ := s
    simp only at hs
    subst hs
    rcases h op (by simp) with rfl | rfl
    · cases rn <;> cases raw <;> cases alt <;> cases ao <;> cases h0 : ok t <;> cases h1 : ok (t + 1) <;> cases h2 : ok (t + 2) <;> cases h3 : ok (t + 3) <;>
      simp [stepOp, runStart, cleanup, exitRaw, exitAlt, enterRaw, enterAlt, h0, h1, h2, h3]
    · cases rn <;> cases raw <;> cases alt <;> cases ao <;> cases h0 : ok t <;> cases h1 : ok (t + 1) <;>
      simp [stepOp, runEnd, cleanup, exitRaw, exitAlt, h0, h1]
example := C24_cursor_partial (fun n => n != 1) true [.runStart, .runEnd, .runStart] (by decide)


/-- C24, afterwards: once Run has ended, no later call of Suspend or Resume may put the
terminal back into raw mode. -/
def C24_afterwards_statement : Prop :=
  ∀ (ok : Oracle) (b : Bool) (ops rest : List Op), (∀ op ∈ rest, op = .suspend ∨ op = .resume) →
    (runOps ok (runEnd ok (runOps ok (fresh b) ops)) rest).raw = false

/-- C24 (afterwards) is false: a program that ends while suspended stays suspended, and a
later Resume enters raw mode although nothing is running. -/
theorem C24_afterwards_refuted : ¬ C24_afterwards_statement := by
  intro h
  have := h (fun _ => true) true [.runStart, .suspend] [.resume] (by simp)
  revert this
  decide

/-- C23, over runs: after a successful Suspend of a running program the terminal is not in
raw mode. -/
def C23_history_statement : Prop :=
  ∀ (ok : Oracle) (b : Bool) (ops : List Op), (runOps ok (fresh b) ops).running = true →
    (suspend ok (runOps ok (fresh b) ops)).2 = true →
    (suspend ok (runOps ok (fresh b) ops)).1.raw = false

/-- C23 (over runs) is false: a program that was suspended when its previous Run ended counts
as suspended in the next Run, so Suspend succeeds without leaving raw mode. -/
theorem C23_history_refuted : ¬ C23_history_statement := by
  intro h
  have := h (fun _ => true) true [.runStart, .suspend, .runEnd, .runStart] (by decide) (by decide)
  revert this
  decide

/-- A history that meets the hypotheses: raw mode and the alternate screen are active,
Suspend leaves both, a failing clean-up is not involved. -/
example : (runOps (fun _ => true) (fresh true) [.runStart]).modes = (true, true) ∧
    (runOps (fun _ => true) (fresh true) [.runStart, .suspend]).modes = (false, false) ∧
    (runOps (fun _ => true) (fresh true) [.runStart, .suspend, .resume]).modes = (true, true) ∧
    (runOps (fun n => n != 3) (fresh true) [.runStart, .suspend]).susp = none := by decide

end Phoenix.Suspend
