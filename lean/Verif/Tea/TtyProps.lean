import Verif.Tea.TtyModel
import Verif.Tea.SuspendProps
/-
C142: ExecProcessWithTTY.
-/
set_option linter.unusedVariables false
set_option linter.unusedSimpArgs false
namespace Phoenix.Tty
open Phoenix.Suspend (Oracle)

/-- C142, full: a command run with TransferForeground owns the terminal while it runs; one run without it keeps the terminal
with the program's group; afterwards the terminal belongs to whom it belonged before. Here: what a caller expects to see
while the command runs, for options `o`. -/
def C142_statement : Prop := ∀ (ok : Oracle) (w : World) (o : Opts) (s : St),
  w.isTTY = true → w.starts = true → w.handOver = true → (Suspend.suspend ok s.p).2 = true → s.fg = w.own →
    ∃ g, (execTTY ok w o s).ran = some (g, g)

/-- C142: with both options the command's group is the foreground group while it runs. -/
theorem C142_owner_partial (ok : Oracle) (w : World) (o : Opts) (s : St) (h1 : w.isTTY = true) (h2 : w.starts = true)
    (h3 : w.handOver = true) (h4 : (Suspend.suspend ok s.p).2 = true) (hfg : s.fg = w.own) :
    (o.transfer = true ∧ o.create = true → (execTTY ok w o s).ran = some (w.pid, w.pid)) ∧
    (o.transfer = false ∧ o.create = false → (execTTY ok w o s).ran = some (w.own, w.own)) := by
  refine ⟨?_, ?_⟩
  · rintro ⟨ht, hc⟩; simp [execTTY, h1, h2, h3, h4, ht, hc, handsOver, childGroup]
  · rintro ⟨ht, hc⟩; simp [execTTY, h1, h2, h3, h4, ht, hc, handsOver, childGroup, hfg]


/-- C142: a program with its terminal in the normal state. -/
def plain : St := ⟨Suspend.fresh false, 5, false⟩
/-- C142: a world in which everything works. -/
def good : World := ⟨true, true, true, true, id, true, 5, 77⟩

/-- C142: TransferForeground without CreateProcessGroup: the command is never run, in no world. -/
theorem C142_transfer_alone_refuted : ¬ C142_statement ∧
    ∀ (ok : Oracle) (w : World) (s : St), w.isTTY = true →
      (execTTY ok w ⟨true, false⟩ s).ok = false ∧ (execTTY ok w ⟨true, false⟩ s).ran = none := by
  refine ⟨?_, ?_⟩
  · intro h
    obtain ⟨g, hg⟩ := h (fun _ => true) good ⟨true, false⟩ plain rfl rfl rfl (by decide) rfl
    have : (execTTY (fun _ => true) good ⟨true, false⟩ plain).ran = none := by decide
    rw [this] at hg; cases hg
  · intro ok w s ht
    simp only [execTTY, ht, Bool.not_true, Bool.false_eq_true, if_false, handsOver, Bool.false_and]
    split
    · exact ⟨rfl, rfl⟩
    · split <;> exact ⟨rfl, rfl⟩

/-- C142: CreateProcessGroup without TransferForeground runs the command in the background: its group is not the terminal's
foreground group (a command that reads the terminal is stopped, and the program waits for it). -/
theorem C142_create_alone_refuted (ok : Oracle) (w : World) (s : St) (h1 : w.isTTY = true) (h2 : w.starts = true)
    (h4 : (Suspend.suspend ok s.p).2 = true) (hpid : w.pid ≠ s.fg) :
    ∃ g, (execTTY ok w ⟨false, true⟩ s).ran = some (s.fg, g) ∧ g ≠ s.fg := by
  exact ⟨w.pid, by simp [execTTY, h1, h2, h4, childGroup], hpid⟩

/-- C142: afterwards the terminal belongs to the group it belonged to before, whatever the command did with it, if it was
transferred and taking it back works; and if nothing was run nothing changed. -/
theorem C142_returned (ok : Oracle) (w : World) (o : Opts) (s : St) (h1 : w.isTTY = true) :
    (o.transfer = true → w.takeBack = true → (execTTY ok w o s).s.fg = s.fg) ∧
    ((execTTY ok w o s).ran = none → (execTTY ok w o s).s.fg = s.fg) ∧
    (o.transfer = false → w.child s.fg = s.fg → (execTTY ok w o s).s.fg = s.fg) := by
  refine ⟨?_, ?_, ?_⟩ <;> simp only [execTTY, h1, Bool.not_true, Bool.false_eq_true, if_false] <;>
    (repeat' split) <;> simp_all

/-- C142: whenever the program was suspended for the command it is resumed, whatever happened to the command; a nil error
means that it ran, succeeded and the program is back in the modes it was in, reading input, not suspended. -/
theorem C142_resumed (ok : Oracle) (w : World) (o : Opts) (s : St) :
    ((Suspend.suspend ok s.p).2 = true → (execTTY ok w o s).s.p = (Suspend.resume ok (Suspend.suspend ok s.p).1).1) ∧
    ((Suspend.suspend ok s.p).2 = false → (execTTY ok w o s).s.p = (Suspend.suspend ok s.p).1 ∧
      (execTTY ok w o s).ok = false ∧ (execTTY ok w o s).ran = none) ∧
    ((execTTY ok w o s).ok = true → (execTTY ok w o s).ran.isSome = true ∧ w.succeeds = true ∧
      (s.p.susp = none → (execTTY ok w o s).s.p.raw = s.p.raw ∧ (execTTY ok w o s).s.p.alt = s.p.alt ∧
        (execTTY ok w o s).s.p.susp = none ∧ (execTTY ok w o s).s.p.reader = true)) := by
  have key : (Suspend.suspend ok s.p).2 = true → (execTTY ok w o s).s.p = (Suspend.resume ok (Suspend.suspend ok s.p).1).1 := by
    intro h
    simp only [execTTY, execPlain, h, Bool.true_eq_false, if_false]
    (repeat' split) <;> rfl
  refine ⟨key, ?_, ?_⟩
  · intro h
    simp only [execTTY, execPlain, h, if_true]
    (repeat' split) <;> simp_all
  · intro hok
    have hs : (Suspend.suspend ok s.p).2 = true := by
      cases hh : (Suspend.suspend ok s.p).2 with
      | true => rfl
      | false =>
        simp only [execTTY, execPlain, hh, if_true] at hok
        revert hok; split <;> simp
    have hq : (Suspend.resume ok (Suspend.suspend ok s.p).1).2 = true ∧ w.succeeds = true ∧ (execTTY ok w o s).ran.isSome = true := by
      revert hok
      simp only [execTTY, execPlain, hs, Bool.true_eq_false, if_false]
      (repeat' split) <;> simp_all
    refine ⟨hq.2.2, hq.2.1, ?_⟩
    intro hsusp
    rw [key hs]
    have h2 := Suspend.C23_roundtrip ok s.p 0 hsusp hs hq.1
    have h3 : (Suspend.resume ok (Suspend.suspend ok s.p).1).1.modes = s.p.modes := h2.1
    simp only [Suspend.St.modes, Prod.mk.injEq] at h3
    exact ⟨h3.1, h3.2, h2.2.1, h2.2.2⟩

/-- C142: when the program's input is not a terminal there is nothing to hand over: the options make no difference, a
command that runs is in the program's own group, and the foreground group is what the command left it to be. -/
theorem C142_no_terminal (ok : Oracle) (w : World) (o : Opts) (s : St) (h : w.isTTY = false) :
    (∀ r, (execTTY ok w o s).ran = some r → r = (s.fg, w.own)) ∧
    ((execTTY ok w o s).ran.isSome = (w.starts && (Suspend.suspend ok s.p).2)) ∧
    ((execTTY ok w o s).ran = none → (execTTY ok w o s).s.fg = s.fg) ∧
    ((execTTY ok w o s).ran.isSome = true → (execTTY ok w o s).s.fg = w.child s.fg) ∧
    (w.child s.fg = s.fg → (execTTY ok w o s).s.fg = s.fg) ∧ (execTTY ok w o s).s.ttou = s.ttou := by
  simp only [execTTY, h, Bool.not_false, if_true, execPlain]
  refine ⟨?_, ?_, ?_, ?_, ?_, ?_⟩ <;> (repeat' split) <;> simp_all

/-- C142: SIGTTOU is not left ignored. -/
theorem C142_signal (ok : Oracle) (w : World) (o : Opts) (s : St) (h : w.isTTY = true) : (execTTY ok w o s).s.ttou = false := by
  simp only [execTTY, h, Bool.not_true, Bool.false_eq_true, if_false]
  (repeat' split) <;> rfl

/-! ## Windows -/

/-- C142 on Windows, full: after a program that ran any number of commands the console has the input mode it had before. -/
def C142_windows_statement : Prop := ∀ m n, winProgram m n = m

theorem noVT_idem (m : Nat) : noVT (noVT m) = noVT m := by
  apply Nat.eq_of_testBit_eq
  intro i
  simp only [noVT, Nat.testBit_xor, Nat.testBit_and]
  cases m.testBit i <;> cases Nat.testBit 512 i <;> rfl

theorem noVT_off (m : Nat) (h : m &&& 0x200 = 0) : noVT m = m := by simp [noVT, h]

theorem winExec_orig (c : Terminal.WC) (h : c.inRaw = true) :
    (winExec c).inRaw = true ∧ (winExec c).origMode = noVT c.origMode := by
  simp [winExec, Terminal.WC.exitRaw, Terminal.WC.enterRaw, h]

theorem winExecs_orig (n : Nat) (c : Terminal.WC) (h : c.inRaw = true) :
    (winExecs n c).inRaw = true ∧ (winExecs n c).origMode = if n = 0 then c.origMode else noVT c.origMode := by
  induction n generalizing c with
  | zero => exact ⟨h, rfl⟩
  | succ n ih =>
    have h1 := winExec_orig c h
    have h2 := ih (winExec c) h1.1
    refine ⟨h2.1, ?_⟩
    show (winExecs n (winExec c)).origMode = _
    rw [h2.2, h1.2, noVT_idem]
    simp

/-- C142 on Windows: exactly one bit can be lost: without any command, or if virtual terminal input was off, the mode is back;
else that bit is off for good. -/
theorem C142_windows_partial (m n : Nat) :
    winProgram m n = (if n = 0 then m else noVT m) ∧ (m &&& 0x200 = 0 → winProgram m n = m) := by
  have h0 : (((Terminal.WC.new m).enterRaw true true).1).inRaw = true := rfl
  have h := winExecs_orig n _ h0
  have h1 : winProgram m n = (if n = 0 then m else noVT m) := by
    unfold winProgram
    simp only [Terminal.WC.exitRaw, h.1, Bool.not_true, Bool.false_eq_true, if_false]
    rw [h.2]; rfl
  refine ⟨h1, fun hm => ?_⟩
  rw [h1, noVT_off m hm]; split <;> rfl
example := (C142_windows_partial 0x1F7 2).2 (by decide)


/-- C142 on Windows is false: a console with virtual terminal input on has it off after one command. -/
theorem C142_windows_refuted : ¬ C142_windows_statement := by
  intro h
  have := h 0x207 1
  revert this; decide

example : (execTTY (fun _ => true) good ⟨true, true⟩ plain).ran = some (77, 77) ∧
    (execTTY (fun _ => true) good ⟨true, true⟩ plain).ok = true := by decide

example := (C142_owner_partial (fun _ => true) good ⟨true, true⟩ plain (by decide) (by decide) (by decide) (by decide) (by decide)).1
  (by decide)
example := (C142_returned (fun _ => true) good ⟨true, true⟩ plain (by decide)).1 rfl (by decide)
example := (C142_resumed (fun _ => true) good ⟨true, true⟩ plain).2.2 (by decide)
example := (C142_no_terminal (fun _ => true) { good with isTTY := false } ⟨true, true⟩ plain rfl).1 _
  (show _ = some (plain.fg, good.own) by decide)

end Phoenix.Tty
