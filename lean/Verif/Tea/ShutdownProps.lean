import Verif.Tea.ShutdownModel
/-
C159: stopping the input reader always comes to an end.
C160: a stopped reader takes no more input.
-/
set_option linter.unusedVariables false
set_option linter.unusedSimpArgs false
namespace Phoenix.Shutdown

theorem Run.append {s t u : St} {a b : List Actor} (h : Run s a t) (k : Run t b u) : Run s (a ++ b) u := by
  induction h with
  | nil => exact k
  | cons x s t u' tr st _ ih => exact .cons x _ _ _ _ st (ih k)

/-- Induction along an execution. -/
theorem Run.inv {P : St → Prop} {s t : St} {tr : List Actor} (h : Run s tr t)
    (hP : ∀ a s t, Step a s t → P s → P t) (h0 : P s) : P t := by
  induction h with
  | nil => exact h0
  | cons x s t u' tr st _ ih => exact ih (hP _ _ _ st h0)

/-- The two facts about a reader with a pipe that matter after Cancel. -/
def Closed (s : St) : Prop := s.usePipe = true ∧ (s.canceled = true → s.wclosed = true)

theorem closed_step {a : Actor} {s t : St} (st : Step a s t) (h : Closed s) : Closed t := by
  obtain ⟨hp, hc⟩ := h
  cases st <;> (try (exact ⟨hp, hc⟩)) <;> (try (exact ⟨hp, fun _ => rfl⟩)) <;> (try (simp_all [Closed]; done))
  case cancel =>
    by_cases hcan : s.canceled = true
    · rw [if_pos hcan]; exact ⟨hp, hc⟩
    · rw [if_neg hcan]
      exact ⟨hp, fun _ => by show (s.usePipe || s.wclosed) = true; rw [hp]; rfl⟩

theorem closed_reach {d w : Bool} {s : St} (h : Reach true d w s) : Closed s := by
  obtain ⟨tr, h⟩ := h
  exact h.inv (fun _ _ _ st hc => closed_step st hc) ⟨rfl, fun h => by cases h⟩

/-- Steps the read loop can still take after Cancel. -/
def loopRank (s : St) : Nat :=
  if s.loop = .ended then 0 else if s.loop = .check then 1 else if s.loop = .reading then 3 else 2

/-- Steps WaitForShutdown can still take. -/
def waitRank (s : St) : Nat :=
  if s.wait = .idle then 3 else if s.wait = .waitLoop then 2 else if s.wait = .waitRelay then 1 else 0

theorem rank_step {a : Actor} {s t : St} (st : Step a s t) (hc : s.canceled = true) :
    t.canceled = true ∧
    loopRank t + (if a = .loop then 1 else 0) ≤ loopRank s ∧
    waitRank t + (if a = .waiter then 1 else 0) ≤ waitRank s := by
  cases st
  case cancel => rw [if_pos hc]; exact ⟨hc, by simp, by simp⟩
  case loopSend r h1 h2 =>
    refine ⟨hc, ?_, by simp [waitRank]⟩
    cases hr : r.err <;> simp [loopRank, h1, hr]
  case waitLoopDone h1 h2 =>
    refine ⟨hc, by simp [loopRank], ?_⟩
    cases hr : s.usePipe <;> simp [waitRank, h1, hr]
  all_goals (refine ⟨hc, ?_, ?_⟩ <;> simp_all [loopRank, waitRank])

theorem rank_run {s t : St} {tr : List Actor} (h : Run s tr t) (hc : s.canceled = true) :
    loopRank t + tr.count .loop ≤ loopRank s ∧ waitRank t + tr.count .waiter ≤ waitRank s := by
  induction h with
  | nil => simp
  | cons x s t u tr st _ ih =>
    obtain ⟨hc', h1, h2⟩ := rank_step st hc
    obtain ⟨i1, i2⟩ := ih hc'
    rw [List.count_cons, List.count_cons]
    constructor
    · cases x <;> simp at h1 ⊢ <;> omega
    · cases x <;> simp at h2 ⊢ <;> omega

theorem rank_le (s : St) : loopRank s ≤ 3 ∧ waitRank s ≤ 3 := by
  constructor
  · unfold loopRank; (repeat' split) <;> omega
  · unfold waitRank; (repeat' split) <;> omega

/-- Bounded work: after Cancel, in every execution, the read loop takes at most three more steps
and WaitForShutdown at most three, however the other goroutines, the user and the stream behave. -/
theorem C159_bounded {usePipe d w : Bool} {s t : St} {tr : List Actor} (h : Reach usePipe d w s)
    (hc : s.canceled = true) (hr : Run s tr t) :
    tr.count .loop ≤ 3 ∧ tr.count .waiter ≤ 3 := by
  have h1 := rank_run hr hc
  have h2 := rank_le s
  omega
-- the reader was waiting for a key; Cancel; then the loop ends and the waiter goes on
example : ∃ s t tr, Reach true false false s ∧ s.canceled = true ∧ Run s tr t ∧ tr = [.waiter] :=
  ⟨_, _, _, ⟨_, .cons _ _ _ _ _ (.loopGo _ rfl rfl) (.cons _ _ _ _ _ (.cancel _) (.nil _))⟩, rfl,
    .cons _ _ _ _ _ (.waitCall _ rfl) (.nil _), rfl⟩


/-- C159, full statement: after Cancel, WaitForShutdown never gets stuck: as long as it has not
returned, it or the read loop can take a step.  (With C159_bounded: it returns.) -/
def C159_statement : Prop :=
  ∀ (usePipe d w : Bool) (s : St), Reach usePipe d w s → s.canceled = true →
    s.wait ≠ .returned → ∃ (a : Actor) (t : St), (a = .loop ∨ a = .waiter) ∧ Step a s t

/-- The read loop of a cancelled reader with a pipe is never blocked. -/
theorem loop_enabled {s : St} (hp : s.usePipe = true) (hc : s.canceled = true) (hw : s.wclosed = true)
    (hl : s.loop ≠ .ended) : ∃ t, Step .loop s t := by
  cases hl' : s.loop with
  | ended => exact absurd hl' hl
  | check => exact ⟨_, .loopStop s hl' hc⟩
  | sending r => exact ⟨_, .loopDrop s r hl' hc⟩
  | reading =>
    cases hpp : s.pipe with
    | nil => exact ⟨_, .loopEof s hp hl' hpp hw⟩
    | cons b bs => exact ⟨_, .loopRead s [b] bs hp hl' hpp (by simp) (by simp)⟩

theorem wait_enabled {s : St} (hw : s.wait ≠ .returned) (hl : s.loop = .ended) : ∃ t, Step .waiter s t := by
  cases hw' : s.wait with
  | idle => exact ⟨_, .waitCall s hw'⟩
  | waitLoop => exact ⟨_, .waitLoopDone s hw' hl⟩
  | waitRelay => exact ⟨_, .waitTimeout s hw'⟩
  | returned => exact absurd hw' hw

/-- C159 with a pipe (what the program uses on every system where a pipe can be made): never
stuck, whatever the stream (a file or not), the platform, and whether anything is ever typed. -/
theorem C159_pipe_partial {d w : Bool} {s : St} (h : Reach true d w s) (hc : s.canceled = true)
    (hw : s.wait ≠ .returned) : ∃ (a : Actor) (t : St), (a = .loop ∨ a = .waiter) ∧ Step a s t := by
  obtain ⟨hp, hcl⟩ := closed_reach h
  by_cases hl : s.loop = .ended
  · obtain ⟨t, st⟩ := wait_enabled hw hl
    exact ⟨_, t, .inr rfl, st⟩
  · obtain ⟨t, st⟩ := loop_enabled hp hc (hcl hc) hl
    exact ⟨_, t, .inl rfl, st⟩

theorem canceled_run {s t : St} {tr : List Actor} (h : Run s tr t) (hc : s.canceled = true) : t.canceled = true :=
  h.inv (P := fun x => x.canceled = true) (fun _ _ _ st hc => (rank_step st hc).1) hc

/-- C159 with a pipe, as one statement: from every state after Cancel, letting only the read loop
and WaitForShutdown run (nobody types, the relay stays blocked, the client takes nothing) brings
WaitForShutdown to its return in at most six steps. -/
theorem C159_pipe_returns_partial {d w : Bool} {s : St} (h : Reach true d w s) (hc : s.canceled = true) :
    ∃ (tr : List Actor) (t : St), Run s tr t ∧ tr.length ≤ 6 ∧ (∀ a ∈ tr, a = .loop ∨ a = .waiter) ∧
      t.wait = .returned ∧ (t.loop = .ended ∨ s.wait = .returned) := by
  have key : ∀ n (s : St), Reach true d w s → s.canceled = true → loopRank s + waitRank s ≤ n →
      ∃ (tr : List Actor) (t : St), Run s tr t ∧ tr.length ≤ n ∧ (∀ a ∈ tr, a = .loop ∨ a = .waiter) ∧
        t.wait = .returned ∧ (t.loop = .ended ∨ s.wait = .returned) := by
    intro n
    induction n with
    | zero =>
      intro s hs hc hn
      have hw : s.wait = .returned := by
        have : waitRank s = 0 := by omega
        unfold waitRank at this
        cases hw : s.wait <;> simp [hw] at this ⊢
      exact ⟨[], s, .nil s, by simp, by simp, hw, .inr hw⟩
    | succ n ih =>
      intro s hs hc hn
      by_cases hw : s.wait = .returned
      · exact ⟨[], s, .nil s, by simp, by simp, hw, .inr hw⟩
      · obtain ⟨hp, hcl⟩ := closed_reach hs
        by_cases hl : s.loop = .ended
        · obtain ⟨t, st⟩ := wait_enabled hw hl
          obtain ⟨hct, h1, h2⟩ := rank_step st hc
          obtain ⟨tr0, r0⟩ := hs
          obtain ⟨tr, u, hr, hlen, hall, hu, hul⟩ := ih t ⟨_, r0.append (.cons _ _ _ _ _ st (.nil _))⟩ hct
            (by simp at h1 h2; omega)
          have hlu : u.loop = .ended := by
            have : loopRank u + tr.count .loop ≤ loopRank s := by
              have := rank_run hr hct
              simp at h1; omega
            have h0 : loopRank s = 0 := by simp [loopRank, hl]
            have : loopRank u = 0 := by omega
            unfold loopRank at this
            cases hlu : u.loop <;> simp [hlu] at this ⊢
          exact ⟨_, u, .cons _ _ _ _ _ st hr, by simp; omega,
            fun a ha => by
              rcases List.mem_cons.1 ha with rfl | ha
              · exact .inr rfl
              · exact hall a ha, hu, .inl hlu⟩
        · obtain ⟨t, st⟩ := loop_enabled hp hc (hcl hc) hl
          obtain ⟨hct, h1, h2⟩ := rank_step st hc
          obtain ⟨tr0, r0⟩ := hs
          obtain ⟨tr, u, hr, hlen, hall, hu, hul⟩ := ih t ⟨_, r0.append (.cons _ _ _ _ _ st (.nil _))⟩ hct
            (by simp at h1 h2; omega)
          refine ⟨_, u, .cons _ _ _ _ _ st hr, by simp; omega,
            fun a ha => by
              rcases List.mem_cons.1 ha with rfl | ha
              · exact .inl rfl
              · exact hall a ha, hu, ?_⟩
          rcases hul with hul | hul
          · exact .inl hul
          · exfalso
            apply hw
            have h3 : t.wait = s.wait := by cases st <;> rfl
            rw [← h3]; exact hul
  have := rank_le s
  exact key 6 s h hc (by omega)

/-- Not vacuous: a reader cancelled while its relay and its loop are both blocked in a Read of a
terminal that ignores deadlines, with nobody typing. -/
example : ∃ s, Reach true false false s ∧ s.canceled = true ∧ s.wait = .waitLoop ∧ s.loop = .reading ∧
    s.relay = .reading := by
  refine ⟨_, ⟨_, .cons _ _ _ _ _ (.relayGo _ rfl rfl) (.cons _ _ _ _ _ (.loopGo _ rfl rfl)
    (.cons _ _ _ _ _ (.cancel _) (.cons _ _ _ _ _ (.waitCall _ rfl) (.nil _))))⟩, rfl, rfl, rfl, rfl⟩

/-- The state of a reader without a pipe (Unix) that was cancelled while waiting for a key. -/
def hung : St :=
  { init false true false with loop := .reading, canceled := true, wait := .waitLoop }

theorem hung_reach : Reach false true false hung :=
  ⟨_, .cons _ _ _ _ _ (.loopGo _ rfl rfl) (.cons _ _ _ _ _ (.cancel _)
    (.cons _ _ _ _ _ (.waitCall _ rfl) (.nil _)))⟩

/-- C159 is false without a pipe outside Windows: Cancel does nothing to the blocked Read, and
WaitForShutdown waits for the next key. -/
theorem C159_refuted : ¬ C159_statement := by
  intro h
  obtain ⟨a, t, ha, st⟩ := h false true false hung hung_reach rfl (by decide)
  rcases ha with rfl | rfl
  · cases st <;> simp_all [hung, init]
  · cases st <;> simp_all [hung, init]

/-- ... for ever, if nobody types and the terminal does not hang up. -/
theorem C159_fallback_hangs_refuted {tr : List Actor} {t : St} (h : Run hung tr t) (hq : .env ∉ tr) :
    t.wait = .waitLoop := by
  have key : ∀ {s t : St} {tr : List Actor}, Run s tr t → .env ∉ tr →
      (s.wait = .waitLoop ∧ s.loop = .reading ∧ s.src = [] ∧ s.ended = false ∧ s.usePipe = false ∧ s.wakes = false ∧
        s.relay = .ended) → t.wait = .waitLoop := by
    intro s t tr h
    induction h with
    | nil => intro _ h; exact h.1
    | cons a s t u tr st _ ih =>
      intro hq ⟨h1, h2, h3, h4, h5, h6, h7⟩
      refine ih (fun hm => hq (List.mem_cons_of_mem _ hm)) ?_
      cases st <;> simp_all
      case cancel => split <;> simp_all
  exact key h hq ⟨rfl, rfl, rfl, rfl, rfl, rfl, rfl⟩

/-- C159 without a pipe, where UnblockStdinRead wakes the blocked Read (Windows consoles). -/
theorem C159_fallback_wakes_partial {d : Bool} {s : St} (h : Reach false d true s) (hc : s.canceled = true)
    (hw : s.wait ≠ .returned) : ∃ (a : Actor) (t : St), (a = .loop ∨ a = .waiter) ∧ Step a s t := by
  obtain ⟨tr, h⟩ := h
  have hp : s.usePipe = false ∧ s.wakes = true := by
    refine h.inv (P := fun x => x.usePipe = false ∧ x.wakes = true) ?_ ⟨rfl, rfl⟩
    intro a s t st hs
    cases st <;> first | exact hs | skip
    case cancel => split <;> exact hs
  by_cases hl : s.loop = .ended
  · obtain ⟨t, st⟩ := wait_enabled hw hl
    exact ⟨_, t, .inr rfl, st⟩
  · cases hl' : s.loop with
    | ended => exact absurd hl' hl
    | check => exact ⟨_, _, .inl rfl, .loopStop s hl' hc⟩
    | sending r => exact ⟨_, _, .inl rfl, .loopDrop s r hl' hc⟩
    | reading => exact ⟨_, _, .inl rfl, .loopWoken s hp.1 hl' hp.2 hc⟩
example : ∃ s, Reach false true true s ∧ s.canceled = true ∧ s.wait = .waitLoop :=
  ⟨_, ⟨_, .cons _ _ _ _ _ (.loopGo _ rfl rfl) (.cons _ _ _ _ _ (.cancel _)
    (.cons _ _ _ _ _ (.waitCall _ rfl) (.nil _)))⟩, rfl, rfl⟩


/-! ### C160 -/

/-- C160: a reader takes nothing from the input after WaitForShutdown returned, so that whoever
reads next (an external command, the next reader) gets every key. -/
def C160_statement : Prop :=
  ∀ (usePipe d w : Bool) (s : St), Reach usePipe d w s → s.stolen = []

/-- False: the relay may outlive WaitForShutdown (it waits 50 ms at most) and takes the next key. -/
theorem C160_refuted : ¬ C160_statement := by
  intro h
  have := h true false false _ ⟨_, .cons _ _ _ _ _ (.relayGo _ rfl rfl) (.cons _ _ _ _ _ (.cancel _)
    (.cons _ _ _ _ _ (.loopStop _ rfl rfl)
    (.cons _ _ _ _ _ (.waitCall _ rfl) (.cons _ _ _ _ _ (.waitLoopDone _ rfl rfl)
    (.cons _ _ _ _ _ (.waitTimeout _ rfl) (.cons _ _ _ _ _ (.type _ 65)
    (.cons _ _ _ _ _ (.relayRead _ [65] [] false rfl rfl (by decide) (by decide)) (.nil _))))))))⟩
  exact absurd this (by decide)

/-- ... and that key is gone: nobody receives it, and it is not left in the input. -/
theorem C160_key_lost_refuted : ∃ s t tr, Reach true false false s ∧ s.wait = .returned ∧ s.src = [] ∧
    Run s tr t ∧ tr = [.env, .relay, .relay] ∧ t.src = [] ∧ t.out = [] ∧ t.pipe = [] ∧ t.ch = none ∧
    t.relay = .ended ∧ t.loop = .ended := by
  refine ⟨_, _, _, ⟨_, .cons _ _ _ _ _ (.relayGo _ rfl rfl) (.cons _ _ _ _ _ (.cancel _)
    (.cons _ _ _ _ _ (.loopStop _ rfl rfl)
    (.cons _ _ _ _ _ (.waitCall _ rfl) (.cons _ _ _ _ _ (.waitLoopDone _ rfl rfl)
    (.cons _ _ _ _ _ (.waitTimeout _ rfl) (.nil _))))))⟩, rfl, rfl,
    .cons _ _ _ _ _ (.type _ 65) (.cons _ _ _ _ _ (.relayRead _ [65] [] false rfl rfl (by decide) (by decide))
      (.cons _ _ _ _ _ (.relayLost _ [65] false rfl rfl) (.nil _))), rfl, rfl, rfl, rfl, rfl, rfl, rfl⟩

/-- Facts behind the positive half. -/
def Quiet (s : St) : Prop :=
  (s.usePipe = false → s.relay = .ended) ∧
  (s.wait = .waitRelay → s.loop = .ended) ∧
  (s.wait = .returned → s.loop = .ended ∧ (s.relay = .ended ∨ s.timedOut = true)) ∧
  (s.timedOut = false → s.stolen = []) ∧
  (s.wait ≠ .returned → s.timedOut = false)

theorem quiet_step {a : Actor} {s t : St} (st : Step a s t) (h : Quiet s) : Quiet t := by
  obtain ⟨h1, h2, h3, h4, h5⟩ := h
  cases st <;> (try (exact ⟨h1, h2, h3, h4, h5⟩)) <;> (try (simp_all [Quiet, St.steal]; done))
  case relayRead a b e hne hs hsrc he =>
    refine ⟨?_, h2, ?_, ?_, h5⟩
    · intro hp; have := h1 hp; rw [hs] at this; cases this
    · intro hw
      obtain ⟨hl, hr⟩ := h3 hw
      refine ⟨hl, ?_⟩
      rcases hr with hr | hr
      · rw [hs] at hr; cases hr
      · exact .inr hr
    · intro ht
      show s.steal a = []
      unfold St.steal
      by_cases hw : s.wait = .returned
      · obtain ⟨hl, hr⟩ := h3 hw
        rcases hr with hr | hr
        · rw [hs] at hr; cases hr
        · have : s.timedOut = false := ht
          rw [hr] at this; cases this
      · rw [if_neg hw]; exact h4 ht
  case cancel =>
    split <;> exact ⟨h1, h2, h3, h4, h5⟩

theorem quiet_reach {p d w : Bool} {s : St} (h : Reach p d w s) : Quiet s := by
  obtain ⟨tr, h⟩ := h
  refine h.inv (fun _ _ _ st hq => quiet_step st hq) ⟨?_, ?_, ?_, ?_, ?_⟩
  · intro hp; cases p
    · rfl
    · cases hp
  · intro hw; cases hw
  · intro hw; cases hw
  · intro _; rfl
  · intro _; rfl

/-- C160 whenever WaitForShutdown did not have to give up waiting for the relay: nothing is taken
from the input after it returned, whatever is typed and whatever runs. -/
theorem C160_partial {p d w : Bool} {s : St} (h : Reach p d w s) (ht : s.timedOut = false) : s.stolen = [] :=
  (quiet_reach h).2.2.2.1 ht

/-- Without a pipe WaitForShutdown never gives up, so there C160 holds as it stands. -/
theorem C160_fallback_partial {d w : Bool} {s : St} (h : Reach false d w s) : s.stolen = [] := by
  refine C160_partial h ?_
  obtain ⟨tr, h⟩ := h
  have := h.inv (P := fun x => x.usePipe = false ∧ x.wait ≠ .waitRelay ∧ x.timedOut = false) ?_
    ⟨rfl, (by intro hx; cases hx), rfl⟩
  · exact this.2.2
  · intro a s t st hs
    obtain ⟨h1, h2, h3⟩ := hs
    cases st <;> (try (exact ⟨h1, h2, h3⟩)) <;> (try (simp_all; done))
    case cancel => split <;> exact ⟨h1, h2, h3⟩

/-- With working deadlines (or a waking platform) the relay blocked in its Read at the time of
Cancel can end without any input, as soon as it is scheduled and until WaitForShutdown returns: the
timeout is needed only if it is not scheduled for 50 ms. -/
theorem C160_relay_can_end_partial {d w : Bool} {s : St} (h : Reach true d w s) (hc : s.canceled = true)
    (hdw : d = true ∨ w = true) (hw : s.wait ≠ .returned) :
    ∃ (tr : List Actor) (t : St), Run s tr t ∧ tr.length ≤ 2 ∧ (∀ a ∈ tr, a = .relay) ∧
      t.relay = .ended ∧ t.src = s.src ∧ t.wait = s.wait := by
  obtain ⟨hp, hcl⟩ := closed_reach h
  obtain ⟨tr0, h⟩ := h
  have hk : s.deadlines = d ∧ s.wakes = w ∧ (s.canceled = true → s.wait ≠ .returned → s.usePipe = true → s.deadline = true) := by
    refine h.inv (P := fun s => s.deadlines = d ∧ s.wakes = w ∧
      (s.canceled = true → s.wait ≠ .returned → s.usePipe = true → s.deadline = true)) ?_
      ⟨rfl, rfl, fun h => by cases h⟩
    intro a s t st hs
    obtain ⟨h1, h2, h3⟩ := hs
    cases st <;> (try (exact ⟨h1, h2, h3⟩)) <;> (try (simp_all; done))
    case cancel =>
      split
      · exact ⟨h1, h2, h3⟩
      · exact ⟨h1, h2, fun _ _ hp => hp⟩
  obtain ⟨hd, hwk, hdl⟩ := hk
  cases hr : s.relay with
  | ended => exact ⟨[], s, .nil s, by simp, by simp, hr, rfl, rfl⟩
  | check =>
    exact ⟨_, _, .cons _ _ _ _ _ (.relayStop s hr hc) (.nil _), by simp, by simp, rfl, rfl, rfl⟩
  | writing a e =>
    exact ⟨_, _, .cons _ _ _ _ _ (.relayLost s a e hr (hcl hc)) (.nil _), by simp, by simp, rfl, rfl, rfl⟩
  | reading =>
    rcases hdw with hdw | hdw
    · exact ⟨_, _, .cons _ _ _ _ _ (.relayDeadline s hr (hd.trans hdw) (hdl hc hw hp)) (.nil _), by simp, by simp, rfl, rfl, rfl⟩
    · exact ⟨_, _, .cons _ _ _ _ _ (.relayWoken s hr (hwk.trans hdw) hc)
        (.cons _ _ _ _ _ (.relayStop _ rfl hc) (.nil _)), by simp, by simp, rfl, rfl, rfl⟩

/-- Not vacuous: an orderly shutdown, after which a key stays in the input for the next reader. -/
example : ∃ s, Reach true true false s ∧ s.wait = .returned ∧ s.timedOut = false ∧ s.src = [65] := by
  refine ⟨_, ⟨_, .cons _ _ _ _ _ (.relayGo _ rfl rfl) (.cons _ _ _ _ _ (.cancel _)
    (.cons _ _ _ _ _ (.loopStop _ rfl rfl) (.cons _ _ _ _ _ (.relayDeadline _ rfl rfl rfl)
    (.cons _ _ _ _ _ (.waitCall _ rfl) (.cons _ _ _ _ _ (.waitLoopDone _ rfl rfl)
    (.cons _ _ _ _ _ (.waitRelayDone _ rfl rfl) (.cons _ _ _ _ _ (.type _ 65) (.nil _))))))))⟩, rfl, rfl, rfl⟩

end Phoenix.Shutdown
