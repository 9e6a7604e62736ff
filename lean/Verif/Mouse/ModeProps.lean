import Verif.Mouse.Props
/-
C215: what Enable, Disable and IsEnabled of the mouse say about the terminal.
-/
set_option linter.unusedVariables false
set_option linter.unusedSimpArgs false
namespace Phoenix.Mouse

/-! ### Specification -/

/-- The terminal reports the mouse: button-motion tracking (1002) in the extended format (1006), and nothing else. -/
def Reporting (t : TermMode) : Prop := ∀ m, (terminal t.out).on m = decide (m = 1006 ∨ m = 1002)

/-- The terminal does not report the mouse. -/
def Silent (t : TermMode) : Prop := ∀ m, (terminal t.out).on m = false

/-- C215, full: after any history of Enable and Disable calls, any of whose writes may fail (delivering nothing): a call
that reports success has done what it is called; a call whose writes all succeed reports success; and IsEnabled says
whether the terminal reports the mouse. -/
def C215_statement : Prop :=
  ∀ ops : List MouseOp, (∀ o ∈ ops, o.CleanWrites) →
    (∀ r1 r2 r3, Clean r1 → Clean r2 → Clean r3 → ((TermMode.new.run ops).enableAll r1 r2 r3).1 = true →
      Reporting ((TermMode.new.run ops).enableAll r1 r2 r3).2) ∧
    (∀ r, Clean r → ((TermMode.new.run ops).disableAll r).1 = true → Silent ((TermMode.new.run ops).disableAll r).2) ∧
    ((TermMode.new.run ops).enableAll none none none).1 = true ∧ ((TermMode.new.run ops).disableAll none).1 = true ∧
    ((TermMode.new.run ops).enabled = true → Reporting (TermMode.new.run ops)) ∧
    ((TermMode.new.run ops).enabled = false → Silent (TermMode.new.run ops))

/-! ### Proofs -/

theorem termMode_new_ok : TermMode.new.Ok := ⟨rfl, rfl, fun _ _ => rfl, by intro m h; cases h⟩

theorem write_success {t : TermMode} {r : Option Nat} {s : List Nat} : (t.write r s).1 = true ↔ r = none := by
  cases r <;> simp [TermMode.write]

theorem enableAll_success {t : TermMode} (h : t.Ok) {r1 r2 r3 : Option Nat} (c1 : Clean r1) (c2 : Clean r2)
    (hs : (t.enableAll r1 r2 r3).1 = true) :
    Reporting (t.enableAll r1 r2 r3).2 ∧ (t.enableAll r1 r2 r3).2.enabled = true := by
  have hd : (if t.enabled then t.disable r1 r2 else (true, t)).2.Ok ∧
      ((if t.enabled then t.disable r1 r2 else (true, t)).1 = true →
        (if t.enabled then t.disable r1 r2 else (true, t)).2.enabled = false) := by
    cases he : t.enabled with
    | true => simpa using disable_ok h c1 c2
    | false => simpa using ⟨h, he⟩
  unfold TermMode.enableAll at hs ⊢
  generalize (if t.enabled then t.disable r1 r2 else (true, t)) = d at hd hs ⊢
  obtain ⟨okb, d⟩ := d
  simp only at hd hs ⊢
  obtain ⟨hok, hdis⟩ := hd
  cases okb with
  | false => simp at hs
  | true =>
    simp only [Bool.not_true, Bool.false_eq_true, if_false] at hs ⊢
    cases r3 with
    | some k => simp [TermMode.write] at hs
    | none =>
      simp only [TermMode.write, Bool.not_true, Bool.false_eq_true, if_false]
      have w := write_two (t := d) hok.ground 1006 1002 true true
      refine ⟨?_, trivial⟩
      intro m
      show (terminal (d.out ++ enableAllSeq)).on m = _
      unfold enableAllSeq
      rw [w]
      simp only
      have hoff := hok.off (hdis rfl) m
      by_cases h2 : m = 1002
      · simp [h2]
      · by_cases h6 : m = 1006
        · simp [h6]
        · simp [h2, h6, hoff]

theorem enableAll_fails {t : TermMode} {r1 r2 r3 : Option Nat} (h : (t.enableAll r1 r2 r3).1 = false) :
    r1 ≠ none ∨ r2 ≠ none ∨ r3 ≠ none := by
  cases r1 with
  | some _ => exact .inl (by simp)
  | none =>
    cases r2 with
    | some _ => exact .inr (.inl (by simp))
    | none =>
      cases r3 with
      | some _ => exact .inr (.inr (by simp))
      | none =>
        exfalso
        revert h
        unfold TermMode.enableAll TermMode.disable TermMode.write
        cases t.enabled <;> simp
        split <;> simp

theorem disableAll_fails {t : TermMode} {r : Option Nat} (h : (t.disableAll r).1 = false) : r ≠ none ∧ t.enabled = true := by
  revert h
  unfold TermMode.disableAll TermMode.write
  cases t.enabled <;> cases r <;> simp

/-- C215 (partial; missing: IsEnabled after a re-enabling that failed half-way).  After any history of Enable and Disable
calls, any of whose writes may fail (delivering nothing): Enable and Disable, when they report success, have put the
terminal into the state they name, and IsEnabled says so; they report an error only if a write failed, and always if the
write of their own sequence failed; and IsEnabled = false means that the terminal does not report the mouse. -/
theorem C215_reports_partial (ops : List MouseOp) (hc : ∀ o ∈ ops, o.CleanWrites) :
    let t := TermMode.new.run ops
    (∀ r1 r2 r3, Clean r1 → Clean r2 → Clean r3 →
      ((t.enableAll r1 r2 r3).1 = true → Reporting (t.enableAll r1 r2 r3).2 ∧ (t.enableAll r1 r2 r3).2.enabled = true) ∧
      ((t.enableAll r1 r2 r3).1 = false → r1 ≠ none ∨ r2 ≠ none ∨ r3 ≠ none) ∧
      (r3 ≠ none → (t.enableAll r1 r2 r3).1 = false)) ∧
    (∀ r, Clean r →
      ((t.disableAll r).1 = true → Silent (t.disableAll r).2 ∧ (t.disableAll r).2.enabled = false) ∧
      ((t.disableAll r).1 = false → r ≠ none) ∧ (r ≠ none → t.enabled = true → (t.disableAll r).1 = false)) ∧
    (t.enabled = false → Silent t) := by
  intro t
  have hok : t.Ok := run_mode_ok ops _ termMode_new_ok hc
  refine ⟨?_, ?_, hok.off⟩
  · intro r1 r2 r3 c1 c2 c3
    refine ⟨enableAll_success hok c1 c2, enableAll_fails, ?_⟩
    intro hr
    cases h : (t.enableAll r1 r2 r3).1 with
    | false => rfl
    | true =>
      exfalso
      unfold TermMode.enableAll at h
      generalize (if t.enabled then t.disable r1 r2 else (true, t)) = d at h
      obtain ⟨okb, d⟩ := d
      cases okb with
      | false => simp at h
      | true =>
        cases r3 with
        | none => exact hr rfl
        | some k => simp [TermMode.write] at h
  · intro r c
    have hd := disableAll_ok hok c
    refine ⟨fun h => ⟨hd.1.off (hd.2 h), hd.2 h⟩, fun h => (disableAll_fails h).1, ?_⟩
    intro hr he
    unfold TermMode.disableAll
    rw [he]
    cases r with
    | none => exact absurd rfl hr
    | some k => simp [TermMode.write]

/-- All writes of these calls succeed. -/
def MouseOp.AllWritten : MouseOp → Prop
  | .enable r1 r2 r3 => r1 = none ∧ r2 = none ∧ r3 = none
  | .disable r => r = none

theorem run_snoc (t : TermMode) (ops : List MouseOp) (o : MouseOp) : t.run (ops ++ [o]) = ((t.run ops).apply o).2 := by
  induction ops generalizing t with
  | nil => rfl
  | cons p ps ih => exact ih _

/-- C215 (partial): when all writes succeed, IsEnabled says at every moment whether the terminal reports the mouse: it
does after an Enable and does not after a Disable, however often each is called. -/
theorem C215_isEnabled_partial (ops : List MouseOp) (hw : ∀ o ∈ ops, o.AllWritten) :
    ((TermMode.new.run ops).enabled = true → Reporting (TermMode.new.run ops)) ∧
    ((TermMode.new.run ops).enabled = false → Silent (TermMode.new.run ops)) ∧
    (∀ o rest, ops = rest ++ [o] → ((TermMode.new.run ops).enabled = true ↔ ∃ r1 r2 r3, o = .enable r1 r2 r3)) := by
  have hclean : ∀ ops : List MouseOp, (∀ o ∈ ops, o.AllWritten) → ∀ o ∈ ops, o.CleanWrites := by
    intro ops hw o ho
    have := hw o ho
    cases o with
    | enable r1 r2 r3 => exact ⟨.inl this.1, .inl this.2.1, .inl this.2.2⟩
    | disable r => exact .inl this
  have hok : (TermMode.new.run ops).Ok := run_mode_ok ops _ termMode_new_ok (hclean ops hw)
  rcases List.eq_nil_or_concat ops with rfl | ⟨rest, o, rfl⟩
  · exact ⟨(by intro h; cases h), hok.off, (by intro o rest h; simp at h)⟩
  · rw [List.concat_eq_append] at hw hok ⊢
    have hr : (TermMode.new.run rest).Ok :=
      run_mode_ok rest _ termMode_new_ok (hclean rest fun x hx => hw x (List.mem_append_left _ hx))
    have ho := hw o (by simp)
    rw [run_snoc] at hok ⊢
    cases o with
    | enable r1 r2 r3 =>
      obtain ⟨rfl, rfl, rfl⟩ := ho
      have hs : ((TermMode.new.run rest).enableAll none none none).1 = true := by
        cases h : ((TermMode.new.run rest).enableAll none none none).1 with
        | true => rfl
        | false => have := enableAll_fails h; simp at this
      obtain ⟨a, b⟩ := enableAll_success hr (.inl rfl) (.inl rfl) hs
      refine ⟨fun _ => a, hok.off, ?_⟩
      intro o' rest' e
      have e := (List.append_inj' e rfl).2
      have e : MouseOp.enable none none none = o' := by simpa using e
      exact ⟨fun _ => ⟨none, none, none, e.symm⟩, fun _ => b⟩
    | disable r =>
      have ho : r = none := ho
      subst ho
      have hd := disableAll_ok hr (r := none) (.inl rfl)
      have hs : ((TermMode.new.run rest).disableAll none).1 = true := by
        cases h : ((TermMode.new.run rest).disableAll none).1 with
        | true => rfl
        | false => exact absurd rfl (disableAll_fails h).1
      have hf : ((TermMode.new.run rest).apply (.disable none)).2.enabled = false := hd.2 hs
      refine ⟨(by rw [hf]; intro h; cases h), hok.off, ?_⟩
      intro o' rest' e
      have e := (List.append_inj' e rfl).2
      have e : MouseOp.disable none = o' := by simpa using e
      subst e
      rw [hf]
      constructor
      · intro h; cases h
      · rintro ⟨_, _, _, h⟩; cases h

/-- C215 is false: Enable; Enable again, which first turns tracking off, and the second of the two writes for that fails:
IsEnabled is true but the extended format is off, so the terminal sends the old reports with coordinates above 223
wrapped. -/
theorem C215_refuted : ¬ C215_statement := by
  intro h
  have := (h [.enable none none none, .enable none (some 0) none] (by
    intro o ho
    simp only [List.mem_cons, List.not_mem_nil, or_false] at ho
    rcases ho with rfl | rfl
    · exact ⟨.inl rfl, .inl rfl, .inl rfl⟩
    · exact ⟨.inl rfl, .inr rfl, .inl rfl⟩)).2.2.2.2.1 (by decide) 1006
  revert this
  decide

example := C215_reports_partial [.enable none none none, .enable none (some 0) none, .disable none] (by
  intro o ho
  simp only [List.mem_cons, List.not_mem_nil, or_false] at ho
  rcases ho with rfl | rfl | rfl
  · exact ⟨.inl rfl, .inl rfl, .inl rfl⟩
  · exact ⟨.inl rfl, .inr rfl, .inl rfl⟩
  · exact .inl rfl)

example := C215_isEnabled_partial [.enable none none none, .enable none none none] (by
  intro o ho
  simp only [List.mem_cons, List.not_mem_nil, or_false] at ho
  rcases ho with rfl | rfl <;> exact ⟨rfl, rfl, rfl⟩)

end Phoenix.Mouse
