import Verif.Tea.DialogInst
import Verif.Form.ViewProps
/-
C214: a form in a running program: the data an application finds when SubmitMsg arrives.

The application is the one of components/form/form.go:26-42: keys go to the form's Update, the command it returns is
handed to the program, and when SubmitMsg arrives the application reads the values and quits.

Simplification: the fields' own commands are left out (those of the input components are nil).
-/
set_option linter.unusedVariables false
set_option linter.unusedSimpArgs false
set_option linter.unusedSectionVars false
namespace Phoenix.Dialog
open Phoenix.Program

section
variable {N M' E : Type} [DecidableEq N]

/-- The command of the form as the program sees it. components/form/form.go:199, 213, 341-349. -/
def formOut : Form.Cmd → Out Unit
  | .submit => .answer ()
  | .quit => .quit
  | .none => .none
  | .field => .none

/-- components/form/form.go:156-218: Update on a key. -/
def formComp (I : Form.Iface M') (f : Form.Form N M' E) : Comp (Form.Form N M' E) Unit where
  init := f
  upd := fun f k => ((Form.update I f (.key k)).1, formOut (Form.update I f (.key k)).2)

/-- The form after some keys. Specification. -/
def formAfter (I : Form.Iface M') (f : Form.Form N M' E) (ks : List KeyMsg) : Form.Form N M' E :=
  ks.foldl (fun f k => (Form.update I f (.key k)).1) f

end

/-- C214, full: whenever a program is about to handle the form's SubmitMsg (its Update, called with it, reads the
form's values), the data in the form is valid: every validator of every field accepts that field's value.  (Forms whose
field names are distinct and whose fields all have a value, for the others see C70.) -/
def C214_statement (cap : Nat) : Prop :=
  ∀ (N M' E : Type) [DecidableEq N] (I : Form.Iface M') (f : Form.Form N M' E) (chunks : List (List Nat))
    (s : Typing.St (DMsg Unit) (M (Form.Form N M' E) Unit)),
    (f.fields.map (·.name)).Nodup → (∀ m, I.exposed m ≠ .selected none) →
    Typing.Reach (app (formComp I f)) cap .key chunks s → Alone s →
    s.p.loop = .busy (.user (.answer ())) → Form.AllValid I s.p.model.comp

/-! ### Proofs -/

section
variable {N M' E : Type} [DecidableEq N] {I : Form.Iface M'}

/-- What a form's data is: names, field models, validators. -/
def formData (f : Form.Form N M' E) : List (N × M' × List (Form.Val M' → Option E)) :=
  f.fields.map fun x => (x.name, x.model, x.validators)

theorem modify_map {α β : Type} (g : α → β) (h : α → α) (hg : ∀ x, g (h x) = g x) (l : List α) (i : Nat) :
    (l.modify i h).map g = l.map g := by
  apply List.ext_getElem?
  intro j
  rw [List.getElem?_map, List.getElem?_map, List.getElem?_modify]
  cases l[j]? with
  | none => rfl
  | some x =>
    simp only [Option.map_some, Option.map_eq_map]
    split
    · rw [hg]
    · rfl

theorem touch_data (f : Form.Form N M' E) : (Form.touchFocused f).map (fun x => (x.name, x.model, x.validators)) = formData f := by
  unfold Form.touchFocused
  split
  · exact modify_map _ Form.Field.markTouched (fun x => rfl) _ _
  · rfl

theorem validate_data (f : Form.Form N M' E) (vals : N → Option (Form.Val M')) :
    formData (Form.validateAll f vals) = formData f := by
  unfold formData Form.validateAll
  rw [List.map_map]
  apply List.map_congr_left
  intro x _
  simp only [Function.comp]
  unfold Form.validateOne
  split <;> rfl

/-- The keys a form keeps for itself. -/
def OwnKey (k : KeyMsg) : Prop := k.type = .tab ∨ k.type = .enter ∨ k.type = .esc ∨ k.type = .ctrlC

theorem own_data (f : Form.Form N M' E) {k : KeyMsg} (hk : OwnKey k) : formData (Form.update I f (.key k)).1 = formData f := by
  have hn : Form.getAction k ≠ .none := by
    unfold Form.getAction
    split
    · simp
    · rcases hk with h | h | h | h <;> rw [h] <;> simp
  unfold Form.update
  simp only
  split
  · unfold Form.moveFocusNext; split
    · rfl
    · exact touch_data f
  · unfold Form.moveFocusPrev; split
    · rfl
    · exact touch_data f
  · unfold Form.trySubmit; split
    · exact validate_data f _
    · exact validate_data f _
  · rfl
  · exact absurd ‹_› hn

theorem names_data (f : Form.Form N M' E) : f.fields.map (·.name) = (formData f).map (·.1) := by
  unfold formData; rw [List.map_map]; rfl

theorem key_names (f : Form.Form N M' E) (k : KeyMsg) :
    (Form.update I f (.key k)).1.fields.map (·.name) = f.fields.map (·.name) := (Form.C71_shape_preserved I f _).1

theorem after_names (ks : List KeyMsg) : ∀ f : Form.Form N M' E, (formAfter I f ks).fields.map (·.name) = f.fields.map (·.name) := by
  induction ks with
  | nil => intro f; rfl
  | cons k ks ih => intro f; exact (ih _).trans (key_names f k)

theorem after_own (ks : List KeyMsg) (h : ∀ k ∈ ks, OwnKey k) : ∀ f : Form.Form N M' E, formData (formAfter I f ks) = formData f := by
  induction ks with
  | nil => intro f; rfl
  | cons k ks ih =>
    intro f
    exact (ih (fun x hx => h x (List.mem_cons_of_mem _ hx)) _).trans (own_data f (h k List.mem_cons_self))

theorem valid_data {f g : Form.Form N M' E} (h : formData f = formData g) : Form.AllValid I f → Form.AllValid I g := by
  intro hf x hx v hv
  have : (x.name, x.model, x.validators) ∈ formData g := List.mem_map.2 ⟨x, hx, rfl⟩
  rw [← h] at this
  obtain ⟨y, hy, e⟩ := List.mem_map.1 this
  simp only [Prod.mk.injEq] at e
  rw [← e.2.1]
  exact hf y hy v (by rw [e.2.2]; exact hv)

theorem formOut_answer {c : Form.Cmd} : formOut c = .answer () ↔ c = .submit := by
  cases c <;> simp [formOut]

theorem formOut_quit {c : Form.Cmd} : formOut c = .quit ↔ c = .quit := by
  cases c <;> simp [formOut]

/-- A SubmitMsg stands for an Enter on valid data. -/
theorem form_answer {f : Form.Form N M' E} (hnd : (f.fields.map (·.name)).Nodup) (hs : ∀ m, I.exposed m ≠ .selected none)
    (ks : List KeyMsg) : () ∈ answers (formComp I f) ks ↔
      ∃ (i : Nat) (k : KeyMsg), ks[i]? = some k ∧ k.type = .enter ∧ Form.AllValid I (formAfter I f (ks.take i)) := by
  rw [mem_answers]
  have hn : ∀ i, ((formAfter I f (ks.take i)).fields.map (·.name)).Nodup := fun i => by rw [after_names]; exact hnd
  constructor
  · rintro ⟨i, k, h1, h2⟩
    have h2 : formOut (Form.update I (formAfter I f (ks.take i)) (.key k)).2 = .answer () := h2
    rw [formOut_answer] at h2
    obtain ⟨⟨k', e, hk⟩, _⟩ := Form.C70_submit_only_by_enter I _ _ h2
    have e : k = k' := by injection e
    subst e
    exact ⟨i, k, h1, hk, (Form.C70_submit_iff_valid_partial I _ k hk (hn i) (fun x _ => hs _)).1.1 h2⟩
  · rintro ⟨i, k, h1, hk, hv⟩
    refine ⟨i, k, h1, ?_⟩
    show formOut (Form.update I (formAfter I f (ks.take i)) (.key k)).2 = .answer ()
    rw [formOut_answer]
    exact (Form.C70_submit_iff_valid_partial I _ k hk (hn i) (fun x _ => hs _)).1.2 hv

theorem form_quit (f : Form.Form N M' E) (k : KeyMsg) :
    (Form.update I f (.key k)).2 = .quit ↔ k.type = .esc ∨ k.type = .ctrlC := by
  have hdel : ∀ m, (Form.delegate I f m).2 ≠ .quit := by
    intro m; unfold Form.delegate; split
    · simp
    · split
      · simp
      · split <;> simp
  have hts : (Form.trySubmit I f).2 ≠ .quit := by unfold Form.trySubmit; split <;> simp
  have hg : Form.getAction k = .quit ↔ k.type = .esc ∨ k.type = .ctrlC := by
    unfold Form.getAction
    split
    · rename_i h; rw [h.1]; simp
    · cases ht : k.type <;> simp
  rw [← hg]
  unfold Form.update
  simp only
  cases ha : Form.getAction k <;> simp [hdel, hts]

theorem answers_enter (f : Form.Form N M' E) (ks : List KeyMsg) :
    (answers (formComp I f) ks).length ≤ (ks.filter fun x => x.type == .enter).length := by
  unfold answers outs
  generalize (formComp I f).init = g
  induction ks generalizing g with
  | nil => exact Nat.le_refl _
  | cons k ks ih =>
    have ih := ih ((formComp I f).upd g k).1
    simp only [outsFrom, List.filterMap_cons, List.filter_cons]
    cases ho : ((formComp I f).upd g k).2.answer? with
    | none =>
      simp only [ho]
      split
      · simp only [List.length_cons]; omega
      · exact ih
    | some u =>
      have hk : k.type = .enter := by
        have hu : ((formComp I f).upd g k).2 = .answer () := by
          cases hh : ((formComp I f).upd g k).2 with
          | none => rw [hh] at ho; cases ho
          | quit => rw [hh] at ho; cases ho
          | answer b => cases b; rfl
        have hu : formOut (Form.update I g (.key k)).2 = .answer () := hu
        rw [formOut_answer] at hu
        obtain ⟨⟨k', e, hk⟩, _⟩ := Form.C70_submit_only_by_enter I _ _ hu
        have e : k = k' := by injection e
        rw [e]; exact hk
      simp only [ho, hk, beq_self_eq_true, if_true, List.length_cons]
      omega

variable {f : Form.Form N M' E} {cap : Nat} {chunks : List (List Nat)} {s : Typing.St (DMsg Unit) (M (Form.Form N M' E) Unit)}

/-- C214 (partial; missing: what the user types before SubmitMsg arrives can still change the form).  When a program is
about to handle SubmitMsg, the form is in the state some number `k` of the first keys lead to, and one of these keys is
an Enter pressed when all data was valid.  If since that Enter the form got only keys it keeps for itself (Tab,
Shift+Tab, Enter, Esc, Ctrl+C), the data the application reads is what was validated. -/
theorem C214_submit_partial (hnd : (f.fields.map (·.name)).Nodup) (hs : ∀ m, I.exposed m ≠ .selected none)
    (h : Typing.Reach (app (formComp I f)) cap .key chunks s) (ha : Alone s)
    (hb : s.p.loop = .busy (.user (.answer ()))) :
    ∃ k i key, let ks := (Input.messages chunks).take k
      s.p.model.comp = formAfter I f ks ∧ ks[i]? = some key ∧ key.type = .enter ∧
      Form.AllValid I (formAfter I f (ks.take i)) ∧
      ((∀ x ∈ ks.drop i, OwnKey x) → formData s.p.model.comp = formData (formAfter I f (ks.take i)) ∧
        Form.AllValid I s.p.model.comp) := by
  have h' := Typing.Reach.step _ _ h (.prog _ _ (.update _ _ hb))

  obtain ⟨k, h1, h2, _⟩ := C200_dialog h' ha
  have hm : () ∈ answers (formComp I f) ((Input.messages chunks).take k) := h2 () (by
    show () ∈ s.p.model.answers ++ [()]
    simp)
  obtain ⟨i, key, g1, g2, g3⟩ := (form_answer hnd hs _).1 hm
  have h1 : s.p.model.comp = formAfter I f ((Input.messages chunks).take k) := h1
  refine ⟨k, i, key, h1, g1, g2, g3, ?_⟩
  intro ho
  have hd : formData s.p.model.comp = formData (formAfter I f (((Input.messages chunks).take k).take i)) := by
    rw [h1]
    generalize (Input.messages chunks).take k = ks at ho ⊢
    have e : formAfter I f ks = formAfter I (formAfter I f (ks.take i)) (ks.drop i) := by
      unfold formAfter
      rw [← List.foldl_append, List.take_append_drop]
    rw [e]
    exact after_own _ ho _
  exact ⟨hd, valid_data hd.symm g3⟩

/-- C214 (partial): a program around a form, keys arriving as bytes in any pieces, nobody else sending messages.  For
some number `k` of the first keys: the form is as after these keys; SubmitMsg was handled at most as often as Enter was
pressed on valid data; a program that has ended without a Quit call handled a SubmitMsg or the keys contain Esc or
Ctrl+C; and when nothing more can happen and one of these keys was an Enter on valid data, or Esc or Ctrl+C, the program
has ended.  When the input is read and the program is idle, `k` covers all keys. -/
theorem C214_ends_partial (hnd : (f.fields.map (·.name)).Nodup) (hs : ∀ m, I.exposed m ≠ .selected none)
    (h : Typing.Reach (app (formComp I f)) cap .key chunks s) (ha : Alone s) :
    ∃ k, let ks := (Input.messages chunks).take k
      let entered := ∃ (i : Nat) (x : KeyMsg), ks[i]? = some x ∧ x.type = .enter ∧ Form.AllValid I (formAfter I f (ks.take i))
      let left := ∃ x ∈ ks, x.type = .esc ∨ x.type = .ctrlC
      s.p.model.comp = formAfter I f ks ∧
      (s.p.model.answers ≠ [] → entered) ∧
      s.p.model.answers.length ≤ (ks.filter fun x => x.type == .enter).length ∧
      (s.p.loop = .done → s.p.quitCalls = 0 → s.p.model.answers ≠ [] ∨ left) ∧
      (0 < cap → Quiescent (app (formComp I f)) cap s.p → s.p.quitCalls = 0 → entered ∨ left → s.p.loop = .done) ∧
      (s.stolen = 0 → s.cancelled = false → s.p.loop = .select → s.p.queue = [] → s.ended = true →
        (Input.messages chunks).length ≤ k) := by
  obtain ⟨k, h1, h2, h3, h4, h5, h6⟩ := C200_dialog h ha
  have hq : Out.quit ∈ outs (formComp I f) ((Input.messages chunks).take k) ↔
      ∃ x ∈ (Input.messages chunks).take k, x.type = .esc ∨ x.type = .ctrlC := by
    rw [mem_outs]
    constructor
    · rintro ⟨i, x, e1, e2⟩
      have e2 : formOut (Form.update I (formAfter I f _) (.key x)).2 = .quit := e2
      rw [formOut_quit] at e2
      refine ⟨x, List.mem_of_getElem? e1, ?_⟩
      exact (form_quit _ x).1 e2
    · rintro ⟨x, hx, ht⟩
      obtain ⟨i, hi⟩ := List.mem_iff_getElem?.1 hx
      refine ⟨i, x, hi, ?_⟩
      show formOut (Form.update I (formAfter I f _) (.key x)).2 = .quit
      rw [formOut_quit]
      exact (form_quit _ x).2 ht
  have hans : answers (formComp I f) ((Input.messages chunks).take k) ≠ [] →
      () ∈ answers (formComp I f) ((Input.messages chunks).take k) := by
    intro hne
    obtain ⟨u, hu⟩ := List.exists_mem_of_ne_nil _ hne
    cases u; exact hu
  refine ⟨k, h1, ?_, ?_, ?_, ?_, h6⟩
  · intro hne
    obtain ⟨u, hu⟩ := List.exists_mem_of_ne_nil _ hne
    exact (form_answer hnd hs _).1 (h2 () (by cases u; exact hu))
  · refine Nat.le_trans h3 ?_
    exact answers_enter f _
  · intro a b
    rcases h4 a b with h | h
    · exact .inl h
    · exact .inr (hq.1 h)
  · intro hc hqs h0 he
    refine h5 hc hqs h0 ?_
    rcases he with he | he
    · left
      intro hnil
      have := (form_answer hnd hs _).2 he
      rw [hnil] at this
      cases this
    · exact .inr (hq.2 he)

end

/-! ### Example and refutation -/

/-- One field that holds a text; Backspace removes its last byte; it must not be empty. -/
def demoIface : Form.Iface (List UInt8) :=
  ⟨fun s => .text s, fun s m => match m with
    | .key k => if k.type = .backspace then some s.dropLast else some s
    | .other _ => some s⟩

def demoForm : Form.Form Nat (List UInt8) Nat := Form.addField Form.new 0 [65] [Form.required (fun s => s.isEmpty) 1]

/-- C214 is false: Enter on valid data, then Backspace before the SubmitMsg has gone through the queue: the application
reads an empty required field. -/
theorem C214_refuted (cap : Nat) (hcap : 0 < cap) : ¬ C214_statement cap := by
  intro H
  let c := formComp demoIface demoForm
  let chunks : List (List Nat) := [[13, 127]]
  let enter : KeyMsg := { type := .enter }
  let bs : KeyMsg := { type := .backspace }
  have r : Typing.Reach (app c) cap .key chunks (Typing.start _ chunks) := .start
  have r := Typing.Reach.step _ _ r (.read _ (some enter) ⟨[127], []⟩ rfl rfl rfl)
  have r := Typing.Reach.step _ _ r (.put _ (.key enter) rfl rfl hcap)
  have r := Typing.Reach.step _ _ r (.prog _ _ (.recv _ _ _ rfl rfl))
  have r := Typing.Reach.step _ _ r (.prog _ _ (.update _ _ rfl))
  have r := Typing.Reach.step _ _ r (.read _ (some bs) ⟨[], []⟩ rfl rfl rfl)
  have r := Typing.Reach.step _ _ r (.put _ (.key bs) rfl rfl hcap)
  have r := Typing.Reach.step _ _ r (.prog _ _ (.recv _ _ _ rfl rfl))
  have r := Typing.Reach.step _ _ r (.prog _ _ (.update _ _ rfl))
  have r := Typing.Reach.step _ _ r (.prog _ _ (.result _ (.ret [.user (.answer ())]) _ []
    [] rfl (.ret _ _ (List.mem_singleton.2 rfl))))
  have r := Typing.Reach.step _ _ r (.prog _ _ (.deliver _ _ [] [] rfl hcap))
  have r := Typing.Reach.step _ _ r (.prog _ _ (.recv _ _ _ rfl rfl))
  have := H Nat (List UInt8) Nat demoIface demoForm chunks _ (by simp [demoForm, Form.addField, Form.withFields, Form.new, Form.newField])
    (by intro m; simp [demoIface]) r rfl rfl
  have hf : Form.AllValid demoIface (formAfter demoIface demoForm [enter, bs]) := this
  have hfields : (formAfter demoIface demoForm [enter, bs]).fields.map (fun x => (x.model, x.validators)) =
      [([], [Form.required (fun s => s.isEmpty) 1])] := rfl
  have hm : (([] : List UInt8), [Form.required (M := List UInt8) (fun s => s.isEmpty) 1]) ∈
      (formAfter demoIface demoForm [enter, bs]).fields.map (fun x => (x.model, x.validators)) := by
    rw [hfields]; exact List.mem_singleton.2 rfl
  obtain ⟨x, hx, e⟩ := List.mem_map.1 hm
  simp only [Prod.mk.injEq] at e
  have := hf x hx (Form.required (fun s => s.isEmpty) 1) (by rw [e.2]; exact List.mem_singleton.2 rfl)
  rw [e.1] at this
  simp [Form.currentValue, demoIface, Form.required] at this

/-- The hypotheses of the positive parts: Enter on the valid form, SubmitMsg is about to be handled. -/
example : ∃ s : Typing.St (DMsg Unit) (M (Form.Form Nat (List UInt8) Nat) Unit),
    Typing.Reach (app (formComp demoIface demoForm)) 10 .key [[13]] s ∧ Alone s ∧ s.p.loop = .busy (.user (.answer ())) ∧
    (demoForm.fields.map (·.name)).Nodup ∧ ∀ m, demoIface.exposed m ≠ .selected none := by
  let c := formComp demoIface demoForm
  let enter : KeyMsg := { type := .enter }
  have r : Typing.Reach (app c) 10 .key [[13]] (Typing.start _ [[13]]) := .start
  have r := Typing.Reach.step _ _ r (.read _ (some enter) ⟨[], []⟩ rfl rfl rfl)
  have r := Typing.Reach.step _ _ r (.put _ (.key enter) rfl rfl (by decide))
  have r := Typing.Reach.step _ _ r (.prog _ _ (.recv _ _ _ rfl rfl))
  have r := Typing.Reach.step _ _ r (.prog _ _ (.update _ _ rfl))
  have r := Typing.Reach.step _ _ r (.prog _ _ (.result _ (.ret [.user (.answer ())]) _ []
    [] rfl (.ret _ _ (List.mem_singleton.2 rfl))))
  have r := Typing.Reach.step _ _ r (.prog _ _ (.deliver _ _ [] [] rfl (by decide)))
  have r := Typing.Reach.step _ _ r (.prog _ _ (.recv _ _ _ rfl rfl))
  exact ⟨_, r, rfl, rfl, by simp [demoForm, Form.addField, Form.withFields, Form.new, Form.newField],
    by intro m; simp [demoIface]⟩

end Phoenix.Dialog
