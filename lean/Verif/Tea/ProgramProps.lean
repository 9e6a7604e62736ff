import Verif.Tea.ProgramModel
/-
Theorems about the event loop and commands: C18-C22.
-/
set_option linter.unusedVariables false
set_option linter.unusedSimpArgs false
namespace Phoenix.Program

variable {α σ : Type}

/-- Messages handed to Update: everything but Quit, Batch and Sequence messages. -/
def Msg.isUser : Msg α → Bool
  | .user _ => true
  | _ => false

/-- The messages inside a Batch or Sequence message. -/
def Msg.children : Msg α → List (Msg α)
  | .batch ms => ms
  | .seq ms => ms
  | _ => []

/-- Messages that entered the queue from a given source. -/
def from' (src : Src) (l : List (Src × Msg α)) : List (Msg α) := (l.filter fun p => p.1 == src).map (·.2)

/-- Messages still to be re-sent by the loop. -/
def Loop.rest : Loop α → List (Msg α)
  | .push ms => ms
  | _ => []

/-- The message being handled. -/
def Loop.current : Loop α → List (Msg α)
  | .busy m => [m]
  | _ => []

structure Inv (a : App α σ) (cap : Nat) (s : St α σ) : Prop where
  fifo : s.accepted.map (·.2) = s.consumed ++ s.queue
  deliv : s.delivered ++ s.loop.current = s.consumed.filter Msg.isUser
  model : s.model = s.delivered.foldl (fun m x => (a.update m x).1) a.init
  screen : s.screen = s.model
  unpacked : from' .loop s.accepted ++ s.loop.rest = s.consumed.flatMap Msg.children
  results : s.results.Perm (from' .cmd s.accepted ++ (s.blocked ++ s.dropped))
  quit : Msg.quit ∈ s.consumed → s.loop = .done
  last : ∀ pre post, s.consumed = pre ++ .quit :: post → post = []
  busy : ∀ m, s.loop = .busy m → m.isUser = true
  room : s.queue.length ≤ cap

theorem from_append (src : Src) (l : List (Src × Msg α)) (x : Src) (m : Msg α) :
    from' src (l ++ [(x, m)]) = from' src l ++ (if x = src then [m] else []) := by
  unfold from'
  rw [List.filter_append, List.map_append]
  congr 1
  by_cases h : x = src
  · simp [h]
  · simp [h]

theorem inv_start (a : App α σ) (cap : Nat) : Inv a cap (start a) := by
  refine ⟨rfl, rfl, rfl, rfl, rfl, List.Perm.refl _, ?_, ?_, ?_, Nat.zero_le _⟩
  · intro h; simp [start] at h
  · intro pre post h; simp [start] at h
  · intro m h; simp [start] at h

theorem inv_step {a : App α σ} {cap : Nat} {s s' : St α σ} (h : Inv a cap s) (st : Step a cap s s') :
    Inv a cap s' := by
  cases st with
  | recv m q hl hq =>
    have hnq : Msg.quit ∉ s.consumed := fun hm => by have := h.quit hm; rw [hl] at this; cases this
    refine ⟨?_, ?_, h.model, h.screen, ?_, h.results, ?_, ?_, ?_, ?_⟩
    · simp only; rw [h.fifo, hq]; simp
    · simp only
      have hd := h.deliv
      rw [hl] at hd
      simp only [Loop.current, List.append_nil] at hd
      rw [List.filter_append, ← hd]
      congr 1
      cases m <;> rfl
    · simp only
      have hu := h.unpacked
      rw [hl] at hu
      simp only [Loop.rest, List.append_nil] at hu
      rw [List.flatMap_append, ← hu]
      congr 1
      cases m <;> simp [onMsg, Loop.rest, Msg.children]
    · simp only
      intro hm
      rcases List.mem_append.1 hm with hm | hm
      · exact absurd hm hnq
      · rw [List.mem_singleton] at hm
        subst hm; rfl
    · simp only
      intro pre post e
      rcases List.eq_nil_or_concat post with rfl | ⟨p, x, hp⟩
      · rfl
      · exfalso
        apply hnq
        have : s.consumed ++ [m] = (pre ++ .quit :: p) ++ [x] := by rw [e, hp]; simp
        have := (List.append_inj' this rfl).1
        rw [this]; simp
    · simp only
      intro x hx
      cases m with
      | user b => simp only [onMsg, Loop.busy.injEq] at hx; rw [← hx]; rfl
      | quit => simp [onMsg] at hx
      | batch _ => simp [onMsg] at hx
      | seq _ => simp [onMsg] at hx
    · have := h.room
      rw [hq] at this
      simp only [List.length_cons] at this
      simp only; omega
  | update m hl =>
    have hd := h.deliv
    have hu := h.unpacked
    rw [hl] at hd hu
    simp only [Loop.current] at hd
    refine ⟨h.fifo, ?_, ?_, rfl, hu, h.results, ?_, h.last, ?_, h.room⟩
    · show (s.delivered ++ [m]) ++ [] = _
      rw [List.append_nil]; exact hd
    · show (a.update s.model m).1 = List.foldl _ _ (s.delivered ++ [m])
      rw [List.foldl_append, ← h.model]; rfl
    · intro hm
      have := h.quit hm
      rw [hl] at this; cases this
    · intro x hx; cases hx
  | push m rest hl hq =>
    have hd := h.deliv
    have hu := h.unpacked
    rw [hl] at hd hu
    refine ⟨?_, hd, h.model, h.screen, ?_, ?_, ?_, h.last, ?_, ?_⟩
    · show (s.accepted ++ [(Src.loop, m)]).map (·.2) = s.consumed ++ (s.queue ++ [m])
      rw [List.map_append, h.fifo]; simp
    · show from' .loop (s.accepted ++ [(Src.loop, m)]) ++ rest = s.consumed.flatMap Msg.children
      rw [from_append, if_pos rfl]
      simp only [Loop.rest] at hu
      rw [← hu]; simp [enqueue]
    · show s.results.Perm (from' .cmd (s.accepted ++ [(Src.loop, m)]) ++ (s.blocked ++ s.dropped))
      rw [from_append, if_neg (by decide), List.append_nil]
      exact h.results
    · intro hm
      have := h.quit hm
      rw [hl] at this; cases this
    · intro x hx; cases hx
    · show (s.queue ++ [m]).length ≤ cap
      rw [List.length_append, List.length_singleton]; omega
  | pushed hl =>
    have hd := h.deliv
    have hu := h.unpacked
    rw [hl] at hd hu
    refine ⟨h.fifo, hd, h.model, h.screen, hu, h.results, ?_, h.last, ?_, h.room⟩
    · intro hm
      have := h.quit hm
      rw [hl] at this; cases this
    · intro x hx; cases hx
  | result c m l r hr hret =>
    refine ⟨h.fifo, h.deliv, h.model, h.screen, h.unpacked, ?_, h.quit, h.last, h.busy, h.room⟩
    show (s.results ++ [m]).Perm (from' .cmd s.accepted ++ ((s.blocked ++ [m]) ++ s.dropped))
    refine (h.results.append_right [m]).trans ?_
    rw [List.append_assoc, List.append_assoc, List.append_assoc]
    exact List.Perm.append_left _ (List.Perm.append_left _ List.perm_append_comm)
  | deliver m l r hb hq =>
    refine ⟨?_, h.deliv, h.model, h.screen, ?_, ?_, h.quit, h.last, h.busy, ?_⟩
    · show (s.accepted ++ [(Src.cmd, m)]).map (·.2) = s.consumed ++ (s.queue ++ [m])
      rw [List.map_append, h.fifo]; simp
    · show from' .loop (s.accepted ++ [(Src.cmd, m)]) ++ s.loop.rest = _
      rw [from_append, if_neg (by decide), List.append_nil]
      exact h.unpacked
    · show s.results.Perm (from' .cmd (s.accepted ++ [(Src.cmd, m)]) ++ ((l ++ r) ++ s.dropped))
      rw [from_append, if_pos rfl]
      refine h.results.trans ?_
      rw [hb, List.append_assoc (from' Src.cmd s.accepted) [m]]
      apply List.Perm.append_left
      rw [← List.append_assoc [m]]
      apply List.Perm.append_right
      exact List.perm_middle
    · show (s.queue ++ [m]).length ≤ cap
      rw [List.length_append, List.length_singleton]; omega

theorem inv_call {a : App α σ} {cap : Nat} {s s' : St α σ} (h : Inv a cap s) (c : Call cap s s') :
    Inv a cap s' := by
  cases c with
  | send m hq =>
    refine ⟨?_, h.deliv, h.model, h.screen, ?_, ?_, h.quit, h.last, h.busy, ?_⟩
    · show (s.accepted ++ [(Src.send, m)]).map (·.2) = s.consumed ++ (s.queue ++ [m])
      rw [List.map_append, h.fifo]; simp
    · show from' .loop (s.accepted ++ [(Src.send, m)]) ++ s.loop.rest = _
      rw [from_append, if_neg (by decide), List.append_nil]
      exact h.unpacked
    · show s.results.Perm (from' .cmd (s.accepted ++ [(Src.send, m)]) ++ (s.blocked ++ s.dropped))
      rw [from_append, if_neg (by decide), List.append_nil]
      exact h.results
    · show (s.queue ++ [m]).length ≤ cap
      rw [List.length_append, List.length_singleton]; omega
  | quitLoop hl =>
    have hd := h.deliv
    have hu := h.unpacked
    rw [hl] at hd hu
    exact ⟨h.fifo, hd, h.model, h.screen, hu, h.results, fun _ => rfl, h.last, (fun x hx => by cases hx), h.room⟩
  | quitCmd m l r hb =>
    refine ⟨h.fifo, h.deliv, h.model, h.screen, h.unpacked, ?_, h.quit, h.last, h.busy, h.room⟩
    show s.results.Perm (from' .cmd s.accepted ++ ((l ++ r) ++ (s.dropped ++ [m])))
    refine h.results.trans (List.Perm.append_left _ ?_)
    rw [hb]
    have : (l ++ m :: r ++ s.dropped).Perm (m :: (l ++ r) ++ s.dropped) :=
      List.Perm.append_right _ List.perm_middle
    refine this.trans ?_
    rw [← List.append_assoc, List.cons_append]
    exact (List.perm_append_singleton m _).symm
  | quitLost hl =>
    exact ⟨h.fifo, h.deliv, h.model, h.screen, h.unpacked, h.results, h.quit, h.last, h.busy, h.room⟩

theorem inv_reach {a : App α σ} {cap : Nat} {s : St α σ} (h : Reach a cap s) : Inv a cap s := by
  induction h with
  | start => exact inv_start a cap
  | step s s' _ st ih => exact inv_step ih st
  | call s s' _ c ih => exact inv_call ih c

/-! ## C20: every accepted message reaches Update once, in order -/

/-- C20.  In every execution, at every moment: the messages accepted by the queue are
exactly those already consumed followed by those still queued (first in, first out, none
lost or duplicated); Update has been called exactly with the ordinary messages consumed, in
that order (the one being handled last); each call received the model returned by the one
before; and the view drawn last is that of the current model. -/
theorem C20_fifo {a : App α σ} {cap : Nat} {s : St α σ} (h : Reach a cap s) :
    s.accepted.map (·.2) = s.consumed ++ s.queue ∧
    s.delivered ++ s.loop.current = s.consumed.filter Msg.isUser ∧
    s.model = s.delivered.foldl (fun m x => (a.update m x).1) a.init ∧
    s.screen = s.model ∧ s.queue.length ≤ cap :=
  let i := inv_reach h
  ⟨i.fifo, i.deliv, i.model, i.screen, i.room⟩

/-- C20.  When the program is idle, everything accepted has been delivered. -/
theorem C20_idle {a : App α σ} {cap : Nat} {s : St α σ} (h : Reach a cap s)
    (hl : s.loop = .select) (hq : s.queue = []) :
    s.delivered = (s.accepted.map (·.2)).filter Msg.isUser := by
  have i := inv_reach h
  have hd := i.deliv
  rw [hl] at hd
  rw [i.fifo, hq, List.append_nil, ← hd]
  simp [Loop.current]

/-- C20.  Nothing is delivered after a quit message: once it is consumed the program has
ended, and it is the last message consumed. -/
theorem C20_quit_last {a : App α σ} {cap : Nat} {s : St α σ} (h : Reach a cap s)
    (hq : Msg.quit ∈ s.consumed) :
    s.loop = .done ∧ ∃ pre, s.consumed = pre ++ [.quit] := by
  have i := inv_reach h
  refine ⟨i.quit hq, ?_⟩
  obtain ⟨pre, post, e⟩ := List.append_of_mem hq
  have := i.last pre post e
  subst this
  exact ⟨pre, e⟩

/-! ## C18, C19: Batch and Sequence -/

/-- C18/C19.  Batch and Sequence drop nil commands, are nil when none is left and the
command itself when one is left. -/
theorem C18_builders (cmds : List (Option (Cmd α))) :
    let live := cmds.filterMap id
    (live = [] → mkBatch cmds = none ∧ mkSequence cmds = none) ∧
    (∀ c, live = [c] → mkBatch cmds = some c ∧ mkSequence cmds = some c) ∧
    (2 ≤ live.length → mkBatch cmds = some (.batch live) ∧ mkSequence cmds = some (.seq live)) := by
  intro live
  refine ⟨fun h => ?_, fun c h => ?_, fun h => ?_⟩
  · have e : cmds.filterMap id = [] := h
    simp [mkBatch, mkSequence, e]
  · have e : cmds.filterMap id = [c] := h
    simp [mkBatch, mkSequence, e]
  · unfold mkBatch mkSequence
    simp only
    have h : 2 ≤ (cmds.filterMap id).length := h
    rw [if_neg (by omega), if_neg (by omega), if_neg (by omega), if_neg (by omega)]
    exact ⟨rfl, rfl⟩
example := (C18_builders [none, some (Cmd.ret [Msg.user 1]), some (.ret [.user 2])]).2.2 (by decide)
example := (C18_builders [none, some (Cmd.ret [Msg.user 1])]).2.1 _ rfl


theorem returnsAll_length {cs : List (Cmd α)} {ms : List (Msg α)} (h : ReturnsAll cs ms) :
    cs.length = ms.length := by
  match cs, ms, h with
  | [], [], _ => rfl
  | c :: cs, m :: ms, .cons _ _ _ _ _ h => simp [returnsAll_length h]

theorem returnsAll_get {cs : List (Cmd α)} {ms : List (Msg α)} (h : ReturnsAll cs ms) :
    ∀ (i : Nat) (c : Cmd α) (m : Msg α), cs[i]? = some c → ms[i]? = some m → Returns c m := by
  match cs, ms, h with
  | [], [], _ => intro i c m hc; simp at hc
  | c :: cs, m :: ms, .cons _ _ _ _ h1 h2 =>
    intro i c' m' hc hm
    cases i with
    | zero => simp at hc hm; subst hc hm; exact h1
    | succ i => exact returnsAll_get h2 i c' m' (by simpa using hc) (by simpa using hm)

/-- C18.  A Batch of two or more commands returns one message holding, in some order,
exactly one result of each command. -/
theorem C18_batch_result {cs : List (Cmd α)} {m : Msg α} (h : Returns (.batch cs) m) :
    ∃ (ms rs : List (Msg α)), m = .batch ms ∧ rs.Perm ms ∧ rs.length = cs.length ∧
      ∀ (i : Nat) (c : Cmd α) (r : Msg α), cs[i]? = some c → rs[i]? = some r → Returns c r := by
  cases h with
  | batch _ rs ms h1 h2 => exact ⟨ms, rs, rfl, h2, (returnsAll_length h1).symm, returnsAll_get h1⟩
example := C18_batch_result (.batch _ _ _ (.cons _ _ _ _ (.ret [.user 1, .user 3] (.user 3) (by simp)) (.cons _ _ _ _ (.ret [.user 2] _ (by simp)) .nil))
  (List.Perm.swap _ _ _) : Returns (.batch [.ret [.user 1, .user 3], .ret [.user 2]] : Cmd Nat) (.batch [.user 2, .user 3]))


/-- C19.  A Sequence of two or more commands returns one message holding the results in the
order of the commands. -/
theorem C19_sequence_result {cs : List (Cmd α)} {m : Msg α} (h : Returns (.seq cs) m) :
    ∃ (rs : List (Msg α)), m = .seq rs ∧ rs.length = cs.length ∧
      ∀ (i : Nat) (c : Cmd α) (r : Msg α), cs[i]? = some c → rs[i]? = some r → Returns c r := by
  cases h with
  | seq _ rs h1 => exact ⟨rs, rfl, (returnsAll_length h1).symm, returnsAll_get h1⟩

mutual
theorem runs_returns {c : Cmd α} {t : List (Ev α)} {m : Msg α} (h : Runs c t m) : Returns c m := by
  match c, t, m, h with
  | _, _, _, .ret ms m h => exact .ret ms m h
  | _, _, _, .batch cs rs ms trs tr h _ hp => exact .batch cs rs ms (runsAll_returns h) hp
  | _, _, _, .seq cs rs trs h => exact .seq cs rs (runsAll_returns h)
theorem runsAll_returns {cs : List (Cmd α)} {ts : List (List (Ev α))} {ms : List (Msg α)} (h : RunsAll cs ts ms) :
    ReturnsAll cs ms := by
  match cs, ts, ms, h with
  | _, _, _, .nil => exact .nil
  | _, _, _, .cons c cs t ts m ms h1 h2 => exact .cons c cs m ms (runs_returns h1) (runsAll_returns h2)
end

/-- Number of elementary commands started and not finished. -/
def active : List (Ev α) → Int
  | [] => 0
  | .start _ :: t => active t + 1
  | .finish _ :: t => active t - 1

theorem active_append (a b : List (Ev α)) : active (a ++ b) = active a + active b := by
  induction a with
  | nil => simp [active]
  | cons e a ih => cases e <;> simp only [List.cons_append, active, ih] <;> omega

/-- No Batch inside. -/
inductive NoBatch : Cmd α → Prop where
  | ret (ms) : NoBatch (.ret ms)
  | seq (cs) : (∀ c ∈ cs, NoBatch c) → NoBatch (.seq cs)

mutual
theorem runs_one {c : Cmd α} {t : List (Ev α)} {m : Msg α} (h : Runs c t m) (hn : NoBatch c) :
    active t = 0 ∧ ∀ n, active (t.take n) = 0 ∨ active (t.take n) = 1 := by
  match c, t, m, h with
  | _, _, _, .ret ms m h =>
    refine ⟨rfl, ?_⟩
    intro n
    match n with
    | 0 => exact Or.inl rfl
    | 1 => exact Or.inr rfl
    | n + 2 => exact Or.inl (by simp [active])
  | _, _, _, .batch cs rs ms trs tr h _ hp => cases hn
  | _, _, _, .seq cs rs trs h =>
    cases hn with
    | seq _ hn => exact runsAll_one h hn
theorem runsAll_one {cs : List (Cmd α)} {ts : List (List (Ev α))} {ms : List (Msg α)} (h : RunsAll cs ts ms)
    (hn : ∀ c ∈ cs, NoBatch c) :
    active ts.flatten = 0 ∧ ∀ n, active (ts.flatten.take n) = 0 ∨ active (ts.flatten.take n) = 1 := by
  match cs, ts, ms, h with
  | _, _, _, .nil => exact ⟨rfl, fun n => Or.inl (by simp [active])⟩
  | _, _, _, .cons c cs t ts m ms h1 h2 =>
    obtain ⟨a1, b1⟩ := runs_one h1 (hn c (by simp))
    obtain ⟨a2, b2⟩ := runsAll_one h2 (fun c' hc => hn c' (by simp [hc]))
    rw [List.flatten_cons]
    refine ⟨by rw [active_append, a1, a2]; rfl, ?_⟩
    intro n
    rw [List.take_append, active_append]
    by_cases hl : n ≤ t.length
    · have : n - t.length = 0 := by omega
      rw [this, List.take_zero]
      have := b1 n
      simp only [active]
      omega
    · rw [List.take_of_length_le (by omega : t.length ≤ n), a1]
      have := b2 (n - t.length)
      omega
end

theorem runsAll_get {cs : List (Cmd α)} {ts : List (List (Ev α))} {ms : List (Msg α)} (h : RunsAll cs ts ms) :
    ts.length = cs.length ∧ ms.length = cs.length ∧ ∀ (i : Nat) (c : Cmd α) (t : List (Ev α)) (m : Msg α),
      cs[i]? = some c → ts[i]? = some t → ms[i]? = some m → Runs c t m := by
  match cs, ts, ms, h with
  | _, _, _, .nil => exact ⟨rfl, rfl, fun i c t m hc => by simp at hc⟩
  | _, _, _, .cons c cs t ts m ms h1 h2 =>
    obtain ⟨e1, e2, e3⟩ := runsAll_get h2
    refine ⟨by simp [e1], by simp [e2], ?_⟩
    intro i c' t' m' hc ht hm
    cases i with
    | zero => simp at hc ht hm; subst hc ht hm; exact h1
    | succ i => exact e3 i c' t' m' (by simpa using hc) (by simpa using ht) (by simpa using hm)

/-- C19.  Running a Sequence runs its commands strictly one after the other: the trace is
the concatenation, in the order of the commands, of one complete run of each command, and
the results are those of these runs in the same order. -/
theorem C19_one_after_the_other {cs : List (Cmd α)} {t : List (Ev α)} {m : Msg α} (h : Runs (.seq cs) t m) :
    ∃ (ts : List (List (Ev α))) (rs : List (Msg α)), t = ts.flatten ∧ m = .seq rs ∧
      ts.length = cs.length ∧ rs.length = cs.length ∧
      ∀ (i : Nat) (c : Cmd α) (u : List (Ev α)) (r : Msg α),
        cs[i]? = some c → ts[i]? = some u → rs[i]? = some r → Runs c u r := by
  cases h with
  | seq _ rs trs h =>
    obtain ⟨e1, e2, e3⟩ := runsAll_get h
    exact ⟨trs, rs, rfl, rfl, e1, e2, e3⟩

/-- C19.  At no moment of a Sequence (of commands that are not Batches) are two elementary
commands running. -/
theorem C19_never_two {c : Cmd α} {t : List (Ev α)} {m : Msg α} (h : Runs c t m) (hn : NoBatch c) (n : Nat) :
    0 ≤ active (t.take n) ∧ active (t.take n) ≤ 1 := by
  have := (runs_one h hn).2 n
  omega

/-- Two commands of a Batch can run at the same time. -/
example : ∃ t m, Runs (.batch [.ret [.user 1], .ret [.user 2]] : Cmd Nat) t m ∧ active (t.take 2) = 2 :=
  ⟨[.start [.user 1], .start [.user 2], .finish (.user 1), .finish (.user 2)], _,
    .batch _ _ [.user 1, .user 2] [[.start [.user 1], .finish (.user 1)], [.start [.user 2], .finish (.user 2)]] _
      (.cons _ _ _ _ _ _ (.ret _ _ (by simp)) (.cons _ _ _ _ _ _ (.ret _ _ (by simp)) .nil))
      (by
        have h4 : Interleave (β := Ev Nat) ([[]] ++ [[]]) [] := .done _ (by simp)
        have h3 := Interleave.pick [[]] [] (Ev.finish (Msg.user 2)) [] _ h4
        have h2 := Interleave.pick [] [[Ev.finish (Msg.user 2)]] (Ev.finish (Msg.user 1)) [] _ h3
        have h1 := Interleave.pick [[Ev.finish (Msg.user 1)]] [] (Ev.start [Msg.user 2]) [Ev.finish (Msg.user 2)] _ h2
        exact Interleave.pick [] [[Ev.start [Msg.user 2], Ev.finish (Msg.user 2)]] (Ev.start [Msg.user 1]) [Ev.finish (Msg.user 1)] _ h1)
      (List.Perm.refl _), rfl⟩

/-- C18/C19.  In every execution, the messages the loop has put back into the queue,
followed by those it still holds, are exactly the contents of the Batch and Sequence
messages consumed so far, in order: nothing is lost, duplicated, invented or reordered. -/
theorem C18_unpack {a : App α σ} {cap : Nat} {s : St α σ} (h : Reach a cap s) :
    from' .loop s.accepted ++ s.loop.rest = s.consumed.flatMap Msg.children :=
  (inv_reach h).unpacked

/-- C18.  In every execution the results of the finished commands are exactly the messages
command goroutines have put into the queue, those waiting to do so, and those dropped by a
goroutine that took a quit signal. -/
theorem C18_results {a : App α σ} {cap : Nat} {s : St α σ} (h : Reach a cap s) :
    s.results.Perm (from' .cmd s.accepted ++ (s.blocked ++ s.dropped)) :=
  (inv_reach h).results

theorem countP_split (p : Msg α → Bool) (l : List (Src × Msg α)) :
    (l.map (·.2)).countP p = (from' .loop l).countP p + (from' .cmd l).countP p + (from' .send l).countP p := by
  induction l with
  | nil => rfl
  | cons x xs ih =>
    obtain ⟨src, m⟩ := x
    have e : ∀ q : Src, from' q ((src, m) :: xs) = (if src = q then [m] else []) ++ from' q xs := by
      intro q
      unfold from'
      by_cases h : src = q
      · simp [h]
      · simp [h]
    rw [List.map_cons, List.countP_cons, ih, e, e, e]
    cases src <;> simp [List.countP_append, List.countP_cons] <;> omega

/-- C18.  Exactly once: when the program is idle, the number of Update calls with a message
satisfying any predicate equals the number of such messages sent from outside, returned by
commands (and not dropped at a quit), and contained in the Batch and Sequence messages. -/
theorem C18_exactly_once {a : App α σ} {cap : Nat} {s : St α σ} (h : Reach a cap s)
    (hl : s.loop = .select) (hq : s.queue = []) (hb : s.blocked = []) (hd : s.dropped = []) (p : Msg α → Bool)
    (hp : ∀ m, p m = true → m.isUser = true) :
    s.delivered.countP p = (from' .send s.accepted).countP p + s.results.countP p +
      (s.consumed.flatMap Msg.children).countP p := by
  have i := inv_reach h
  have e1 := C20_idle h hl hq
  have e2 : s.delivered.countP p = (s.accepted.map (·.2)).countP p := by
    rw [e1, List.countP_filter]
    apply List.countP_congr
    intro m _
    constructor
    · intro h; simp only [Bool.and_eq_true] at h; exact h.1
    · intro h; simp only [Bool.and_eq_true]; exact ⟨h, hp m h⟩
  have e3 := i.unpacked
  rw [hl] at e3
  simp only [Loop.rest, List.append_nil] at e3
  have e4 := i.results
  rw [hb, hd] at e4
  simp only [List.append_nil] at e4
  rw [e2, countP_split, e3, e4.countP_eq]
  omega

theorem flatMap_mid {pre post : List (Msg α)} {x : Msg α} :
    (pre ++ x :: post).flatMap Msg.children =
      pre.flatMap Msg.children ++ (x.children ++ post.flatMap Msg.children) := by
  rw [List.flatMap_append, List.flatMap_cons]

theorem sub_accepted (src : Src) (l : List (Src × Msg α)) : (from' src l).Sublist (l.map (·.2)) := by
  unfold from'
  exact List.Sublist.map _ List.filter_sublist

/-- C19.  The results of a Sequence (or Batch) that was received reach Update in their
order, once the program is idle again, whatever else was interleaved. -/
theorem C19_in_order {a : App α σ} {cap : Nat} {s : St α σ} (h : Reach a cap s)
    (hl : s.loop = .select) (hq : s.queue = []) (pre post : List (Msg α)) (ms : List (Msg α))
    (hc : s.consumed = pre ++ .seq ms :: post) :
    (ms.filter Msg.isUser).Sublist s.delivered := by
  have i := inv_reach h
  have e := i.unpacked
  rw [hl, hc, flatMap_mid] at e
  simp only [Loop.rest, List.append_nil, Msg.children] at e
  have s1 : ms.Sublist (from' .loop s.accepted) := by
    rw [e]
    exact (List.sublist_append_left ms _).trans (List.sublist_append_right _ _)
  have s2 := s1.trans (sub_accepted .loop s.accepted)
  rw [C20_idle h hl hq]
  exact s2.filter _

/-! ## C22: the loop cannot block on its own queue -/

/-- C22: the loop is never left re-sending a message into a full queue (it is the only
receiver, so that would be forever). -/
def C22_statement : Prop :=
  ∀ (α σ : Type) (a : App α σ) (s : St α σ), Reach a 100 s →
    ∀ m rest, s.loop = .push (m :: rest) → s.queue.length < 100

/-- A loop re-sending into a full queue. -/
def Stuck (cap : Nat) (s : St α σ) : Prop := (∃ m rest, s.loop = .push (m :: rest)) ∧ cap ≤ s.queue.length

/-- C22.  Such a state is final: whatever commands, Send or Quit calls follow, the loop
never moves again, and Run never returns. -/
theorem C22_stuck_forever {a : App α σ} {cap : Nat} {s s' : St α σ} (h : Stuck cap s)
    (st : Step a cap s s' ∨ Call cap s s') : Stuck cap s' ∧ s'.loop = s.loop ∧ s'.delivered = s.delivered := by
  obtain ⟨⟨m, rest, hl⟩, hq⟩ := h
  rcases st with st | st
  · cases st with
    | recv _ _ h1 _ => rw [hl] at h1; cases h1
    | update _ h1 => rw [hl] at h1; cases h1
    | push _ _ _ h2 => omega
    | pushed h1 => rw [hl] at h1; cases h1
    | result => exact ⟨⟨⟨m, rest, hl⟩, hq⟩, rfl, rfl⟩
    | deliver _ _ _ _ h2 => omega
  · cases st with
    | send _ h2 => omega
    | quitLoop h1 => rw [hl] at h1; cases h1
    | quitCmd => exact ⟨⟨⟨m, rest, hl⟩, hq⟩, rfl, rfl⟩
    | quitLost => exact ⟨⟨⟨m, rest, hl⟩, hq⟩, rfl, rfl⟩

/-- Steps of the loop alone. -/
inductive LoopRun (a : App α σ) (cap : Nat) : St α σ → St α σ → Prop where
  | refl (s) : LoopRun a cap s s
  | push (s m rest t) : s.loop = .push (m :: rest) → s.queue.length < cap →
      LoopRun a cap { enqueue s .loop m with loop := .push rest } t → LoopRun a cap s t
  | pushed (s t) : s.loop = .push [] → LoopRun a cap { s with loop := .select } t → LoopRun a cap s t

theorem loopRun_reach {a : App α σ} {cap : Nat} {s t : St α σ} (h : LoopRun a cap s t) (hr : Reach a cap s) :
    Reach a cap t := by
  induction h with
  | refl => exact hr
  | push s m rest t h1 h2 _ ih => exact ih (.step _ _ hr (.push s m rest h1 h2))
  | pushed s t h1 _ ih => exact ih (.step _ _ hr (.pushed s h1))

/-- Pushing `k` messages while there is room. -/
theorem push_many {a : App α σ} {cap : Nat} : ∀ (ms : List (Msg α)) (rest : List (Msg α)) (s : St α σ),
    s.loop = .push (ms ++ rest) → s.queue.length + ms.length ≤ cap →
    ∃ t, LoopRun a cap s t ∧ t.loop = .push rest ∧ t.queue = s.queue ++ ms := by
  intro ms
  induction ms with
  | nil => intro rest s hl _; exact ⟨s, .refl s, hl, by simp⟩
  | cons m ms ih =>
    intro rest s hl hc
    simp only [List.length_cons] at hc
    obtain ⟨t, h1, h2, h3⟩ := ih rest { enqueue s .loop m with loop := .push (ms ++ rest) } rfl (by
      simp [enqueue]; omega)
    refine ⟨t, .push s m (ms ++ rest) t hl (by omega) h1, h2, ?_⟩
    rw [h3]
    simp [enqueue]

/-- C22, the part that holds: a batch or sequence that fits into the free space of the queue
is re-sent completely by the loop on its own. -/
theorem C22_fits_partial {a : App α σ} {cap : Nat} (s : St α σ) (ms : List (Msg α)) (hl : s.loop = .push ms)
    (hc : s.queue.length + ms.length ≤ cap) :
    ∃ t, LoopRun a cap s t ∧ t.loop = .select ∧ t.queue = s.queue ++ ms := by
  obtain ⟨t, h1, h2, h3⟩ := push_many (a := a) ms [] s (by rw [List.append_nil]; exact hl) hc
  have trans : ∀ {s t u : St α σ}, LoopRun a cap s t → LoopRun a cap t u → LoopRun a cap s u := by
    intro s t u h
    induction h with
    | refl => exact id
    | push s m rest t h1 h2 _ ih => exact fun hu => .push s m rest u h1 h2 (ih hu)
    | pushed s t h1 _ ih => exact fun hu => .pushed s u h1 (ih hu)
  exact ⟨{ t with loop := .select }, trans h1 (.pushed t _ h2 (.refl _)), rfl, h3⟩
example := C22_fits_partial (a := (⟨0, none, fun n _ => (n + 1, none)⟩ : App Nat Nat)) (cap := 3)
  { start (⟨0, none, fun n _ => (n + 1, none)⟩ : App Nat Nat) with loop := .push [.user 1, .user 2], queue := [.user 0] }
  [.user 1, .user 2] rfl (by decide)


theorem returnsAll_replicate (m : Msg α) : ∀ n, ReturnsAll (List.replicate n (.ret [m])) (List.replicate n m)
  | 0 => .nil
  | n + 1 => .cons _ _ _ _ (.ret _ _ (by simp)) (returnsAll_replicate m n)

/-- An application whose Init returns Batch of 101 commands (each returning a message). -/
def manyApp : App Unit Unit :=
  ⟨(), mkBatch (List.replicate 101 (some (.ret [.user ()]))), fun _ _ => ((), none)⟩

/-- C22 is false: a Batch of 101 commands deadlocks the program. -/
theorem C22_refuted : ¬ C22_statement := by
  intro H
  let big : List (Msg Unit) := List.replicate 101 (.user ())
  let c : Cmd Unit := .batch (List.replicate 101 (.ret [.user ()]))
  have hc : mkBatch (List.replicate 101 (some (.ret [.user ()]))) = some c := by
    simp [mkBatch, c]
  -- the command returns
  let s0 : St Unit Unit := start manyApp
  have h0 : Reach manyApp 100 s0 := .start
  have hrun : s0.running = [] ++ c :: [] := by
    show spawn (mkBatch (List.replicate 101 (some (.ret [.user ()])))) [] = _
    rw [hc]; rfl
  have hret : Returns c (.batch big) := .batch _ _ _ (returnsAll_replicate _ 101) (List.Perm.refl _)
  have h1 := Reach.step _ _ h0 (.result s0 c (.batch big) [] [] hrun hret)
  -- its message enters the queue
  have h2 := Reach.step _ _ h1 (.deliver _ (.batch big) [] [] rfl (by decide))
  -- the loop receives it
  have h3 := Reach.step _ _ h2 (.recv _ (.batch big) [] rfl rfl)
  -- and re-sends the first 100 messages
  obtain ⟨s3, k3, l3, q3⟩ : ∃ s3, Reach manyApp 100 s3 ∧ s3.loop = .push big ∧ s3.queue = [] :=
    ⟨_, h3, rfl, rfl⟩
  obtain ⟨t, r1, r2, r3⟩ := push_many (a := manyApp) (cap := 100) (List.replicate 100 (.user ())) [.user ()] s3
    (by rw [l3]; rfl) (by rw [q3]; simp)
  have h4 := loopRun_reach r1 k3
  have := H Unit Unit manyApp t h4 (.user ()) [] r2
  rw [r3, q3] at this
  simp at this

/-! ## C21: Quit always stops the program -/

/-- No step of the program is possible: it waits for something from outside. -/
def Quiescent (a : App α σ) (cap : Nat) (s : St α σ) : Prop := ∀ s', ¬ Step a cap s s'

/-- C21: once Quit has been called, the program cannot come to rest without having ended. -/
def C21_statement : Prop :=
  ∀ (α σ : Type) (a : App α σ) (s : St α σ), Reach a 100 s → 0 < s.quitCalls →
    Quiescent a 100 s → s.loop = .done

/-- An application that does nothing. -/
def idleApp : App Unit Unit := ⟨(), none, fun _ _ => ((), none)⟩

/-- C21 is false: a Quit call made while a message is being handled is lost, and the
program then waits forever. -/
theorem C21_refuted : ¬ C21_statement := by
  intro H
  have h0 : Reach idleApp 100 (start idleApp) := .start
  have h1 := Reach.call _ _ h0 (.send _ (.user ()) (by decide))
  have h2 := Reach.step _ _ h1 (.recv _ (.user ()) [] rfl rfl)
  have h3 := Reach.call _ _ h2 (.quitLost _ (fun h => by cases h.1))
  have h4 := Reach.step _ _ h3 (.update _ (.user ()) rfl)
  have := H Unit Unit idleApp _ h4 (by decide) (by
    intro s' st
    cases st with
    | recv _ _ _ h => cases h
    | update _ h => cases h
    | push _ _ h => cases h
    | pushed h => cases h
    | result c m l r h =>
      have h : ([] : List (Cmd Unit)) = l ++ c :: r := h
      simp at h
    | deliver m l r h =>
      have h : ([] : List (Msg Unit)) = l ++ m :: r := h
      simp at h)
  cases this

/-- C21, the part that holds for Quit: called while the loop waits for a message, it ends the program at once,
whatever commands are running or waiting. -/
theorem C21_quit_partial {cap : Nat} (hcap : 0 < cap) {s s' : St α σ} (hl : s.loop = .select) (he : s.queue = [])
    (c : Call cap s s') (hq : s'.quitCalls = s.quitCalls + 1) : s'.loop = .done := by
  cases c with
  | send => simp [enqueue] at hq
  | quitLoop => rfl
  | quitCmd m l r _ h => rw [he] at h; exact absurd hcap h
  | quitLost h => exact absurd ⟨hl, he⟩ h
example := C21_quit_partial (cap := 100) (by decide) rfl rfl (.quitLoop (start (⟨0, none, fun n _ => (n + 1, none)⟩ : App Nat Nat)) rfl rfl) rfl


/-- C21, the part that holds for Quit: a program at rest has ended, or is in the deadlock of C22, or the next Quit ends
it. -/
theorem C21_at_rest_partial {a : App α σ} {cap : Nat} (hcap : 0 < cap) {s : St α σ} (h : Reach a cap s)
    (hs : Quiescent a cap s) :
    s.loop = .done ∨ Stuck cap s ∨ ∀ s', Call cap s s' → s'.quitCalls = s.quitCalls + 1 → s'.loop = .done := by
  cases hl : s.loop with
  | done => exact Or.inl rfl
  | select =>
    right; right
    cases hq : s.queue with
    | cons m q => exact absurd (Step.recv s m q hl hq) (hs _)
    | nil => exact fun s' c hc => C21_quit_partial hcap hl hq c hc
  | busy m => exact absurd (Step.update s m hl) (hs _)
  | push rest =>
    cases rest with
    | nil => exact absurd (Step.pushed s hl) (hs _)
    | cons m rest =>
      right; left
      refine ⟨⟨m, rest, hl⟩, ?_⟩
      by_cases hq : s.queue.length < cap
      · exact absurd (Step.push s m rest hl hq) (hs _)
      · have := (inv_reach h).room; omega

/-- C21: the hypotheses: the idle program is at rest and a Quit call on it is possible. -/
example : Reach idleApp 100 (start idleApp) ∧ Quiescent idleApp 100 (start idleApp) ∧
    ∃ s', Call 100 (start idleApp) s' ∧ s'.quitCalls = (start idleApp).quitCalls + 1 := by
  refine ⟨.start, ?_, _, .quitLoop _ rfl rfl, rfl⟩
  intro s' st
  cases st with
  | recv _ _ _ h => cases h
  | update _ h => cases h
  | push _ _ h => cases h
  | pushed h => cases h
  | result c m l r h => have h : ([] : List (Cmd Unit)) = l ++ c :: r := h; simp at h
  | deliver m l r h => have h : ([] : List (Msg Unit)) = l ++ m :: r := h; simp at h

/-- C21, the part that holds for the quit message: once a QuitMsg has been accepted by the
queue (sent, or returned by the Quit command), the program cannot come to rest without
having ended, except in the deadlock of C22. -/
theorem C21_quitmsg_partial {a : App α σ} {cap : Nat} {s : St α σ} (h : Reach a cap s)
    (hq : Msg.quit ∈ s.accepted.map (·.2)) (hs : Quiescent a cap s) : s.loop = .done ∨ Stuck cap s := by
  have i := inv_reach h
  cases hl : s.loop with
  | done => exact Or.inl rfl
  | select =>
    exfalso
    cases hqu : s.queue with
    | cons m q => exact hs _ (.recv s m q hl hqu)
    | nil =>
      rw [i.fifo, hqu, List.append_nil] at hq
      have := i.quit hq
      rw [hl] at this
      cases this
  | busy m => exact absurd (.update s m hl) (hs _)
  | push rest =>
    cases rest with
    | nil => exact absurd (.pushed s hl) (hs _)
    | cons m rest =>
      refine Or.inr ⟨⟨m, rest, hl⟩, ?_⟩
      by_cases hc : s.queue.length < cap
      · exact absurd (.push s m rest hl hc) (hs _)
      · omega

/-- The hypotheses are met: a reachable idle state in which a sequence was delivered. -/
example : ∃ s : St Nat Nat, Reach ⟨0, none, fun n m => (n + 1, none)⟩ 100 s ∧ s.loop = .select ∧ s.queue = [] ∧
    s.consumed = [.seq [.user 1, .user 2], .user 1, .user 2] ∧ s.model = 2 := by
  have h0 : Reach (⟨0, none, fun n m => (n + 1, none)⟩ : App Nat Nat) 100 (start _) := .start
  have h1 := Reach.call _ _ h0 (.send _ (.seq [.user 1, .user 2]) (by decide))
  have h2 := Reach.step _ _ h1 (.recv _ _ [] rfl rfl)
  have h3 := Reach.step _ _ h2 (.push _ (.user 1) [.user 2] rfl (by decide))
  have h4 := Reach.step _ _ h3 (.push _ (.user 2) [] rfl (by decide))
  have h5 := Reach.step _ _ h4 (.pushed _ rfl)
  have h6 := Reach.step _ _ h5 (.recv _ (.user 1) [.user 2] rfl rfl)
  have h7 := Reach.step _ _ h6 (.update _ (.user 1) rfl)
  have h8 := Reach.step _ _ h7 (.recv _ (.user 2) [] rfl rfl)
  have h9 := Reach.step _ _ h8 (.update _ (.user 2) rfl)
  exact ⟨_, h9, rfl, rfl, rfl, rfl⟩

end Phoenix.Program
