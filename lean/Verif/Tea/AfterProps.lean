import Verif.Tea.TypingProps
/-
C195: what the input goroutine does after Run has returned.  Run's deferred function (program.go:159-174) leaves raw
mode and the alternate screen; it does not stop the goroutine started at 199.  `Typing.Step` has no step that stops it.
-/
set_option linter.unusedVariables false
set_option linter.unusedSimpArgs false
namespace Phoenix.Typing
open Phoenix.Program

variable {α σ : Type}

/-- C195, full claim: after Run has returned, no byte of the terminal is taken by the program (what the user types goes
to the shell, or to the program that reads the terminal next). -/
def C195_statement (cap : Nat) : Prop :=
  ∀ (a : App KeyMsg Nat) (chunks : List (List Nat)) (s t : St KeyMsg Nat), Reach a cap id chunks s →
    s.p.loop = .done → Later a cap id s t → t.rd = s.rd

/-- C195 is false, for every capacity of the queue: Quit, Run returns, and the next key typed is taken. -/
theorem C195_refuted (cap : Nat) : ¬ C195_statement cap := by
  intro H
  let chunks : List (List Nat) := [[97]]
  have r0 : Reach demoApp cap id chunks (start demoApp chunks) := .start
  have r1 := Reach.step _ _ r0 (.call _ _ (.quitLoop _ rfl rfl))
  have l := Later.step _ _ _ (Later.refl _) (Step.read (a := demoApp) (cap := cap) (key := id)
    { start demoApp chunks with p := { (start demoApp chunks).p with loop := .done, quitCalls := 1 } }
    (some keyA) ⟨[], []⟩ rfl rfl rfl)
  have := H demoApp chunks _ _ r1 rfl l
  have := congrArg Input.St.more this
  simp [start, chunks] at this


/-- C195, what happens: after Run has returned nothing empties the queue any more; the goroutine puts at most the keys
that still fit into the queue (`cap` less those left in it), none of which ever reaches Update, and takes at most one
more, with which it waits.. -/
theorem C195_bounded_partial {a : App α σ} {cap : Nat} {key : KeyMsg → α} {s t : St α σ} (h : Later a cap key s t)
    (hd : s.p.loop = .done) :
    t.p.loop = .done ∧ t.p.model = s.p.model ∧ t.p.delivered = s.p.delivered ∧
    (∃ more, t.p.queue = s.p.queue ++ more ∧ t.typed.length ≤ s.typed.length + more.length) ∧
    t.p.queue.length ≤ max cap s.p.queue.length ∧
    t.typed.length + s.p.queue.length ≤ s.typed.length + max cap s.p.queue.length := by
  have key : t.p.loop = .done ∧ t.p.model = s.p.model ∧ t.p.delivered = s.p.delivered ∧
      (∃ more, t.p.queue = s.p.queue ++ more ∧ t.typed.length ≤ s.typed.length + more.length) ∧
      t.p.queue.length ≤ max cap s.p.queue.length := by
    induction h with
    | refl => exact ⟨hd, rfl, rfl, ⟨[], (List.append_nil _).symm, Nat.le_refl _⟩, Nat.le_max_right _ _⟩
    | step t u _ st ih =>
      obtain ⟨i1, i2, i3, ⟨more, i4, i5⟩, i6⟩ := ih
      have grow : ∀ m : Msg α, t.p.queue.length < cap → ∃ more', t.p.queue ++ [m] = s.p.queue ++ more' ∧
          more'.length = more.length + 1 ∧ (t.p.queue ++ [m]).length ≤ max cap s.p.queue.length := by
        intro m hm
        refine ⟨more ++ [m], by rw [i4, List.append_assoc], by simp, ?_⟩
        rw [List.length_append, List.length_singleton]
        omega
      cases st with
      | prog p' st =>
        cases st with
        | recv _ _ e | update _ e | push _ _ e | pushed e => rw [i1] at e; cases e
        | result c m l r e hr => exact ⟨i1, i2, i3, ⟨more, i4, i5⟩, i6⟩
        | deliver m l r e hq =>
          obtain ⟨more', g1, g2, g3⟩ := grow m hq
          exact ⟨i1, i2, i3, ⟨more', g1, by rw [g2]; show t.typed.length ≤ _; omega⟩, g3⟩
      | call p' c =>
        cases c with
        | send m hq =>
          obtain ⟨more', g1, g2, g3⟩ := grow m hq
          exact ⟨i1, i2, i3, ⟨more', g1, by rw [g2]; show t.typed.length ≤ _; omega⟩, g3⟩
        | quitLoop e => rw [i1] at e; cases e
        | quitCmd | quitLost => exact ⟨i1, i2, i3, ⟨more, i4, i5⟩, i6⟩
      | read | eof | steal | cancel => exact ⟨i1, i2, i3, ⟨more, i4, i5⟩, i6⟩
      | put m he hh hq =>
        obtain ⟨more', g1, g2, g3⟩ := grow (.user m) hq
        refine ⟨i1, i2, i3, ⟨more', g1, ?_⟩, g3⟩
        show (t.typed ++ [_]).length ≤ _
        rw [List.length_append, List.length_singleton, g2]
        omega
  obtain ⟨k1, k2, k3, ⟨more, k4, k5⟩, k6⟩ := key
  refine ⟨k1, k2, k3, ⟨more, k4, k5⟩, k6, ?_⟩
  rw [k4, List.length_append] at k6
  omega

/-- C195, the end: once the queue is full, the goroutine takes at most the bytes of one more Read. -/
theorem C195_stops_partial {a : App α σ} {cap : Nat} {key : KeyMsg → α} {s t : St α σ} (h : Later a cap key s t)
    (hd : s.p.loop = .done) (hq : ¬ s.p.queue.length < cap) (m : α) (hh : s.hand = some m) : t.rd = s.rd := by
  have : t.rd = s.rd ∧ ¬ t.p.queue.length < cap ∧ (t.hand = some m ∨ t.ended = true) := by
    induction h with
    | refl => exact ⟨rfl, hq, Or.inl hh⟩
    | step t u hl st ih =>
      obtain ⟨i1, i2, i3⟩ := ih
      have i0 := (C195_bounded_partial hl hd).1
      cases st with
      | prog p' st =>
        cases st with
        | recv _ _ e | update _ e | push _ _ e | pushed e => rw [i0] at e; cases e
        | result c m l r e hr => exact ⟨i1, i2, i3⟩
        | deliver m l r e hq => exact absurd hq i2
      | call p' c =>
        cases c with
        | send m hq => exact absurd hq i2
        | quitLoop e => rw [i0] at e; cases e
        | quitCmd | quitLost => exact ⟨i1, i2, i3⟩
      | read m' rd' e e2 =>
        rcases i3 with i3 | i3
        · rw [i3] at e2; cases e2
        · rw [i3] at e; cases e
      | eof e e2 => exact ⟨i1, i2, Or.inr rfl⟩
      | steal _ e e2 => exact ⟨i1, i2, Or.inr rfl⟩
      | cancel e => exact ⟨i1, i2, Or.inr rfl⟩
      | put m' e e2 e3 => exact absurd e3 i2
  exact this.1

/-- C195: the hypotheses: the demo program with room for one message, ended by Quit; one key fills the queue, the next
one is held for ever; the third stays in the terminal. -/
example : ∃ s t : St KeyMsg Nat, Reach demoApp 1 id [[97], [97], [97]] s ∧ s.p.loop = .done ∧ Later demoApp 1 id s t ∧
    t.p.queue.length = 1 ∧ t.typed.length = 1 ∧ t.hand = some keyA ∧ t.rd = ⟨[], [[97]]⟩ := by
  let chunks : List (List Nat) := [[97], [97], [97]]
  have r0 : Reach demoApp 1 id chunks (start demoApp chunks) := .start
  have r1 := Reach.step _ _ r0 (.call _ _ (.quitLoop _ rfl rfl))
  have l0 : Later demoApp 1 id _ _ := Later.refl { start demoApp chunks with p :=
    { (start demoApp chunks).p with loop := .done, quitCalls := 1 } }
  have l1 := Later.step _ _ _ l0 (.read _ (some keyA) ⟨[], [[97], [97]]⟩ rfl rfl rfl)
  have l2 := Later.step _ _ _ l1 (.put _ keyA rfl rfl (by decide))
  have l3 := Later.step _ _ _ l2 (.read _ (some keyA) ⟨[], [[97]]⟩ rfl rfl rfl)
  exact ⟨_, _, r1, rfl, l3, rfl, rfl, rfl, rfl⟩

/-- C21 with the input goroutine in the picture: a Quit on a program that waits for messages always ends it; the input
goroutine cannot take the signal then. -/
theorem C21_with_input_partial {a : App α σ} {cap : Nat} (hcap : 0 < cap) {key : KeyMsg → α} {s t : St α σ}
    (hl : s.p.loop = .select) (he : s.p.queue = []) (st : Step a cap key s t)
    (hq : t.p.quitCalls = s.p.quitCalls + 1) : t.p.loop = .done := by
  cases st with
  | prog p' st =>
    have hq : p'.quitCalls = s.p.quitCalls + 1 := hq
    cases st <;> simp only [finish, enqueue] at hq <;> omega
  | call p' c => exact C21_quit_partial hcap hl he c hq
  | read | eof | cancel => simp only at hq; omega
  | put m he' hh hr => simp only [enqueue] at hq; omega
  | steal m he' hh hr => rw [he] at hr; exact absurd hcap hr

/-- C21 is false in another way: with a full queue the input goroutine takes the signal of Quit, for every capacity of
the queue; the program runs on. -/
theorem C21_stolen_refuted (cap : Nat) (hcap : 0 < cap) :
    ∃ (s t : St KeyMsg Nat), Reach demoApp cap id [[97]] s ∧ Step demoApp cap id s t ∧
      t.p.quitCalls = s.p.quitCalls + 1 ∧ t.p.loop = s.p.loop ∧ t.p.queue = s.p.queue ∧
      ∃ m, t.p.loop = .busy m := by
  let chunks : List (List Nat) := [[97]]
  have r0 : Reach demoApp cap id chunks (start demoApp chunks) := .start
  have r1 := Reach.step _ _ r0 (.call _ _ (.send _ (.user keyA) hcap))
  have r2 := Reach.step _ _ r1 (.prog _ _ (.recv _ (.user keyA) [] rfl rfl))
  have r3 := Reach.step _ _ r2 (.read _ (some keyA) ⟨[], []⟩ rfl rfl rfl)
  have fill : ∀ n, n ≤ cap → ∃ s : St KeyMsg Nat, Reach demoApp cap id chunks s ∧ s.p.queue.length = n ∧
      (∃ m, s.p.loop = .busy m) ∧ s.ended = false ∧ s.hand = some keyA := by
    intro n
    induction n with
    | zero => exact fun _ => ⟨_, r3, rfl, ⟨_, rfl⟩, rfl, rfl⟩
    | succ n ih =>
      intro hn
      obtain ⟨s, hr, hq, hl, he, hh⟩ := ih (by omega)
      refine ⟨_, Reach.step _ _ hr (.call _ _ (.send _ (.user keyA) (by omega))), ?_, hl, he, hh⟩
      show (s.p.queue ++ [_]).length = _
      rw [List.length_append, hq]
      rfl
  obtain ⟨s, hr, hq, hl, he, hh⟩ := fill cap (Nat.le_refl _)
  exact ⟨s, _, hr, .steal _ keyA he hh (by omega), rfl, rfl, rfl, hl⟩

end Phoenix.Typing
