import Verif.Tea.LifeModel
/-
C86: the input reader goroutine is started and stopped without a crash, and there is never
more than one.
-/
set_option linter.unusedVariables false
set_option linter.unusedSimpArgs false
namespace Phoenix.Life

/-- C86: in no execution does a goroutine panic, and at most one reads the input. -/
def C86_statement : Prop := ∀ s, Reach s → s.panicked = false ∧ s.alive.length ≤ 1

theorem careful_reach {s : St} (h : Careful s) : Reach s := by
  induction h with
  | init => exact .init
  | start s _ _ _ ih => exact .step _ _ ih (.start s)
  | exit1 s g _ hg ih => exact .step _ _ ih (.exit1 s g hg)
  | exit2 s g _ hg ih => exact .step _ _ ih (.exit2 s g hg)
  | stop1 s _ hs ih => exact .step _ _ ih (.stop1 s hs)
  | stop2 s c _ hs _ ih => exact .step _ _ ih (.stop2 s c hs)

/-- C86 is false: Run does not stop the reader when it ends, so a second Run of the same
program starts a second one; when the input ends, both close the same channel and the
program crashes. -/
theorem C86_refuted : ¬ C86_statement := by
  intro h
  have h1 : Reach (start init) := .step _ _ .init (.start _)
  have h2 : Reach (start (start init)) := .step _ _ h1 (.start _)
  have h3 : Reach (exit1 (start (start init)) 1) := .step _ _ h2 (.exit1 _ 1 (by decide))
  have h4 : Reach (exit1 (exit1 (start (start init)) 1) 2) := .step _ _ h3 (.exit1 _ 2 (by decide))
  have := (h _ h4).1
  revert this
  decide

/-- C86, second cause: if the wait in Suspend runs into its timeout, the goroutine closes a
nil channel when it ends, and the program crashes. -/
theorem C86_timeout_refuted : ∃ s, Reach s ∧ s.alive.length ≤ 1 ∧ s.panicked = true := by
  have h1 : Reach (start init) := .step _ _ .init (.start _)
  have h2 : Reach (stop1 (start init)) := .step _ _ h1 (.stop1 _ (by decide))
  have h3 : Reach (stop2 (stop1 (start init))) := .step _ _ h2 (.stop2 _ 0 (by decide))
  have h4 : Reach (exit1 (stop2 (stop1 (start init))) 1) := .step _ _ h3 (.exit1 _ 1 (by decide))
  exact ⟨_, h4, by decide, by decide⟩

structure Inv (s : St) : Prop where
  panicked : s.panicked = false
  fresh : ∀ c ∈ s.closed, c < s.next
  doneLt : ∀ c, s.done = some c → c < s.next
  stopLt : ∀ c, s.stopping = some c → c < s.next
  /-- a reading goroutine is the current one and its channel is open -/
  one : s.alive = [] ∨ (s.alive = [s.gen] ∧ s.running = true ∧ ∃ c, s.done = some c ∧ c ∉ s.closed ∧
          ∀ d, s.stopping = some d → d = c)
  /-- no reading goroutine: the channel, if any, is closed and its goroutine is leaving -/
  idle : s.alive = [] → ∀ c, s.done = some c → c ∈ s.closed
  runs : s.running = true → ∃ c, s.done = some c
  old : ∀ g ∈ s.leaving, g ≤ s.gen
  cur : s.alive ≠ [] → s.gen ∉ s.leaving
  once : s.leaving.Nodup

theorem inv_careful {s : St} (h : Careful s) : Inv s := by
  induction h with
  | init =>
    refine ⟨rfl, ?_, ?_, ?_, Or.inl rfl, ?_, ?_, ?_, ?_, List.nodup_nil⟩ <;> simp [init]
  | start s _ ha hs ih =>
    obtain ⟨i1, i2, i3, i4, i5, i6, i7, i8, i9, i10⟩ := ih
    refine ⟨i1, ?_, ?_, ?_, ?_, ?_, ?_, ?_, ?_, i10⟩
    · intro c hc; have := i2 c hc; show c < s.next + 1; omega
    · intro c hc; simp only [start, Option.some.injEq] at hc; subst hc; show s.next < s.next + 1; omega
    · intro c hc; simp [start, hs] at hc
    · refine Or.inr ⟨by simp [start, ha], rfl, s.next, rfl, ?_, ?_⟩
      · intro hc; exact absurd (i2 _ hc) (by omega)
      · intro d hd; simp [start, hs] at hd
    · intro h; simp [start, ha] at h
    · intro _; exact ⟨s.next, rfl⟩
    · intro g hg; have := i8 g hg; show g ≤ s.gen + 1; omega
    · intro _ hg; have := i8 _ hg; simp only [start] at this; omega
  | exit1 s g _ hg ih =>
    obtain ⟨i1, i2, i3, i4, i5, i6, i7, i8, i9, i10⟩ := ih
    rcases i5 with i5 | ⟨e1, e2, c, e3, e4, e5⟩
    · rw [i5] at hg; simp at hg
    · rw [e1, List.mem_singleton] at hg
      subst hg
      have hc := i3 c e3
      have ex : exit1 s s.gen = { s with closed := c :: s.closed, alive := s.alive.erase s.gen, leaving := s.gen :: s.leaving } := by
        unfold exit1; rw [e3]; simp only; rw [if_neg e4]
      rw [ex]
      have al : s.alive.erase s.gen = [] := by rw [e1]; simp
      refine ⟨i1, ?_, i3, i4, Or.inl al, ?_, i7, ?_, ?_, ?_⟩
      · intro d hd
        simp only [List.mem_cons] at hd
        rcases hd with rfl | hd
        · exact hc
        · exact i2 d hd
      · intro _ d hd
        simp only at hd
        rw [e3, Option.some.injEq] at hd
        simp [hd]
      · intro g hg
        simp only [List.mem_cons] at hg
        rcases hg with rfl | hg
        · exact Nat.le_refl _
        · exact i8 g hg
      · intro h; exact absurd al h
      · exact List.nodup_cons.2 ⟨i9 (by rw [e1]; simp), i10⟩
  | exit2 s g _ hg ih =>
    obtain ⟨i1, i2, i3, i4, i5, i6, i7, i8, i9, i10⟩ := ih
    by_cases hgen : s.gen = g
    · have ha : s.alive = [] := by
        rcases i5 with h | ⟨h, _⟩
        · exact h
        · exact absurd (hgen ▸ hg) (i9 (by rw [h]; simp))
      have ex : exit2 s g = { s with leaving := s.leaving.erase g, running := false, done := none } := by
        unfold exit2; simp only; rw [if_pos hgen]
      rw [ex]
      refine ⟨i1, i2, by simp, i4, Or.inl ha, by simp, by simp, ?_, ?_, i10.erase g⟩
      · intro x hx; exact i8 x (List.mem_of_mem_erase hx)
      · intro h; exact absurd ha h
    · have ex : exit2 s g = { s with leaving := s.leaving.erase g } := by
        unfold exit2; simp only; rw [if_neg hgen]
      rw [ex]
      refine ⟨i1, i2, i3, i4, i5, i6, i7, ?_, ?_, i10.erase g⟩
      · intro x hx; exact i8 x (List.mem_of_mem_erase hx)
      · intro h hm; exact i9 h (List.mem_of_mem_erase hm)
  | stop1 s _ hs ih =>
    obtain ⟨i1, i2, i3, i4, i5, i6, i7, i8, i9, i10⟩ := ih
    unfold stop1
    split
    · refine ⟨i1, i2, i3, i3, ?_, i6, i7, i8, i9, i10⟩
      rcases i5 with h | ⟨e1, e2, c, e3, e4, e5⟩
      · exact Or.inl h
      · refine Or.inr ⟨e1, e2, c, e3, e4, ?_⟩
        intro d hd
        simp only at hd
        rw [e3, Option.some.injEq] at hd
        exact hd.symm
    · exact ⟨i1, i2, i3, i4, i5, i6, i7, i8, i9, i10⟩
  | stop2 s c _ hs hcl ih =>
    obtain ⟨i1, i2, i3, i4, i5, i6, i7, i8, i9, i10⟩ := ih
    have ha : s.alive = [] := by
      rcases i5 with h | ⟨e1, e2, d, e3, e4, e5⟩
      · exact h
      · have := e5 c hs
        subst this
        exact absurd hcl e4
    refine ⟨i1, i2, by simp [stop2], by simp [stop2], Or.inl ha, by simp [stop2], by simp [stop2], ?_, ?_, i10⟩
    · intro g hg; have := i8 g hg; show g ≤ s.gen + 1; omega
    · intro h; exact absurd ha h

/-- C86, the part that holds: if a reader is only started when none is reading or being
stopped, and stopping never runs into its timeout, then in every interleaving no goroutine
panics and at most one goroutine reads the input; it is the current one. -/
theorem C86_careful_partial {s : St} (h : Careful s) :
    s.panicked = false ∧ s.alive.length ≤ 1 ∧ (∀ g ∈ s.alive, g = s.gen ∧ s.running = true) := by
  have i := inv_careful h
  refine ⟨i.panicked, ?_, ?_⟩
  · rcases i.one with h | ⟨h, _⟩ <;> rw [h] <;> simp
  · intro g hg
    rcases i.one with h | ⟨h, hr, _⟩
    · rw [h] at hg; simp at hg
    · rw [h] at hg; simp at hg; exact ⟨hg, hr⟩

/-- A careful execution: start, stop, start again, with the old goroutine's last step after
the restart. -/
example : ∃ s, Careful s ∧ s.alive = [3] ∧ s.leaving = [] ∧ s.running = true := by
  have h1 : Careful (start init) := .start _ .init rfl rfl
  have h2 : Careful (stop1 (start init)) := .stop1 _ h1 rfl
  have h3 : Careful (exit1 (stop1 (start init)) 1) := .exit1 _ 1 h2 (by decide)
  have h4 : Careful (stop2 (exit1 (stop1 (start init)) 1)) := .stop2 _ 0 h3 (by decide) (by decide)
  have h5 : Careful (start (stop2 (exit1 (stop1 (start init)) 1))) := .start _ h4 (by decide) (by decide)
  exact ⟨_, .exit2 _ 1 h5 (by decide), by decide, by decide, by decide⟩

end Phoenix.Life
