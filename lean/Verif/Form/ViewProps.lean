import Verif.Form.Props
import Verif.Form.ViewModel
import Verif.Util
/-
  C153  the flags of a form and of its fields record exactly what happened
  C154  the form's keys
  C155  what View shows
  C156  the text validators
  further clauses of C70 (Errors, IsValid), C110 (Values)
-/
set_option linter.unusedVariables false
set_option linter.unusedSimpArgs false
set_option linter.unusedSectionVars false
namespace Phoenix.Form

variable {N M E : Type} [DecidableEq N]

/-! ## C153 -/

/-- The operation is a press of Tab or Shift+Tab. -/
def IsTab (o : Op N M E) : Prop := ∃ k : KeyMsg, o = .update (.key k) ∧ k.type = .tab

/-- The operation is a press of Enter. -/
def IsEnter (o : Op N M E) : Prop := ∃ k : KeyMsg, o = .update (.key k) ∧ k.type = .enter

/-- A message the form does not take for itself: anything but Tab, Enter, Ctrl+C and Esc. -/
def Foreign : Msg → Prop
  | .key k => k.type ≠ .tab ∧ k.type ≠ .enter ∧ k.type ≠ .ctrlC ∧ k.type ≠ .esc
  | .other _ => True

/-- In form `f` the operation delivers a message to field `i`: the field has the focus, the
message is not one of the form's own keys and the field's model takes messages. -/
def Delivers (I : Iface M) (f : Form N M E) (o : Op N M E) (i : Nat) : Prop :=
  ∃ msg x, o = .update msg ∧ Foreign msg ∧ (i : Int) = f.focused ∧ f.fields[i]? = some x ∧
    (I.update x.model msg).isSome = true

theorem getAction_eq (k : KeyMsg) :
    getAction k = if k.type = .tab then (if k.shift = true then .prev else .next)
      else if k.type = .enter then .submit
      else if k.type = .ctrlC ∨ k.type = .esc then .quit else .none := by
  unfold getAction
  cases k with
  | mk t r a c s => cases t <;> cases s <;> simp

theorem foreign_update (I : Iface M) (f : Form N M E) (msg : Msg) (h : Foreign msg) :
    update I f msg = delegate I f msg := by
  cases msg with
  | other n => rfl
  | key k =>
    obtain ⟨h1, h2, h3, h4⟩ := h
    simp [update, getAction_eq, h1, h2, h3, h4]

theorem delegate_eq (I : Iface M) (f : Form N M E) (hf : FocusOk f) (msg : Msg) (i : Nat) (x : Field N M E)
    (hx : f.fields[i]? = some x) :
    (delegate I f msg).1.fields[i]? = some
      (if (i : Int) = f.focused then
        (match I.update x.model msg with | some m => { x with model := m, dirty := true } | none => x)
       else x) := by
  have h1 := hf.1
  have hil : i < f.fields.length := (List.getElem?_eq_some_iff.1 hx).1
  have hne : f.fields ≠ [] := by intro e; rw [e] at hil; cases hil
  have h3 := hf.2.2 hne
  unfold delegate
  rw [if_neg (by omega)]
  have hg : f.fields[f.focused.toNat]? = some (f.fields[f.focused.toNat]'(by omega)) :=
    List.getElem?_eq_getElem _
  rw [hg]
  simp only []
  by_cases e : (i : Int) = f.focused
  · have e' : f.focused.toNat = i := by omega
    have hxx : f.fields[f.focused.toNat]'(by omega) = x := by
      have := hg; simp only [e'] at this ⊢; rw [hx] at this; exact (Option.some.inj this).symm
    rw [hxx, if_pos e]
    cases hu : I.update x.model msg with
    | none => simp [hx]
    | some m =>
      simp only [updateField, List.getElem?_modify, hx, e']
      simp [Field.withModelDirty]
  · rw [if_neg e]
    have e' : f.focused.toNat ≠ i := by omega
    split
    · simp only [updateField, List.getElem?_modify, hx]
      simp [e']
    · exact hx

theorem validateOne_flags (vals : N → Option (Val M)) (x : Field N M E) :
    (validateOne vals x).touched = x.touched ∧ (validateOne vals x).dirty = x.dirty ∧
    (validateOne vals x).model = x.model ∧ (validateOne vals x).name = x.name ∧
    (validateOne vals x).validators = x.validators := by
  unfold validateOne; split <;> exact ⟨rfl, rfl, rfl, rfl, rfl⟩

/-- What one operation does to a field that already exists. -/
theorem apply_field (I : Iface M) (f : Form N M E) (hr : Reachable I f) (o : Op N M E) (i : Nat)
    (x : Field N M E) (hx : f.fields[i]? = some x) :
    ∃ y, (apply I f o).fields[i]? = some y ∧
      (y.touched = true ↔ x.touched = true ∨ (IsTab o ∧ (i : Int) = f.focused)) ∧
      (y.dirty = true ↔ x.dirty = true ∨ Delivers I f o i) ∧
      (¬ IsEnter o → y.errors = x.errors) ∧
      (¬ Delivers I f o i → y.model = x.model) := by
  have ok := C71_focus_valid I f hr
  have hil : i < f.fields.length := (List.getElem?_eq_some_iff.1 hx).1
  have hne : f.fields ≠ [] := by intro e; rw [e] at hil; cases hil
  cases o with
  | field n m vs =>
    refine ⟨x, ?_, ?_, ?_, fun _ => rfl, fun _ => rfl⟩
    · simp only [apply, addField, withFields]
      rw [List.getElem?_append_left hil]; exact hx
    · simp [IsTab]
    · simp [Delivers]
  | update msg =>
    cases msg with
    | other n =>
      have e := delegate_eq I f ok (.other n) i x hx
      have hnt : ¬ IsTab (.update (.other n) : Op N M E) := by simp [IsTab]
      refine ⟨_, e, ?_, ?_, ?_, ?_⟩
      · simp only [hnt, false_and, or_false]; split <;> (try split) <;> simp
      · have : Delivers I f (.update (.other n) : Op N M E) i ↔ (i : Int) = f.focused ∧ (I.update x.model (.other n)).isSome = true := by
          constructor
          · rintro ⟨msg, x', h1, _, h3, h4, h5⟩
            cases h1; rw [hx] at h4; cases h4; exact ⟨h3, h5⟩
          · rintro ⟨h3, h5⟩; exact ⟨_, x, rfl, trivial, h3, hx, h5⟩
        rw [this]
        by_cases hf : (i : Int) = f.focused
        · rw [if_pos hf]; cases hu : I.update x.model (.other n) <;> simp [hf]
        · rw [if_neg hf]; simp [hf]
      · intro _; split <;> (try split) <;> rfl
      · intro hnd
        by_cases hf : (i : Int) = f.focused
        · rw [if_pos hf]
          cases hu : I.update x.model (.other n) with
          | none => rfl
          | some m => exact absurd ⟨_, x, rfl, trivial, hf, hx, by rw [hu]; rfl⟩ hnd
        · rw [if_neg hf]
    | key k =>
      by_cases ht : k.type = .tab
      · have e := (C71_tab I f hr hne k ht).2.1 i x hx
        have hit : IsTab (.update (.key k) : Op N M E) := ⟨k, rfl, ht⟩
        have hnd : ¬ Delivers I f (.update (.key k) : Op N M E) i := by
          rintro ⟨msg, x', h1, h2, _⟩
          cases h1; exact h2.1 ht
        refine ⟨_, e, ?_, ?_, ?_, ?_⟩
        · by_cases hf : (i : Int) = f.focused <;> simp [hf, hit]
        · simp only [hnd, or_false]; split <;> simp
        · intro _; split <;> rfl
        · intro _; split <;> rfl
      · have hnt : ¬ IsTab (.update (.key k) : Op N M E) := by
          rintro ⟨k', h1, h2⟩; cases h1; exact ht h2
        by_cases he : k.type = .enter
        · have hnd : ¬ Delivers I f (.update (.key k) : Op N M E) i := by
            rintro ⟨msg, x', h1, h2, _⟩
            cases h1; exact h2.2.1 he
          have eu : (apply I f (.update (.key k))).fields
              = (validateAll f (extractFieldValues I f.fields)).fields := by
            simp only [apply, update, getAction_eq, he]
            simp only [reduceCtorEq, if_false, if_true, trySubmit]
            split <;> rfl
          obtain ⟨v1, v2, v3, _⟩ := validateOne_flags (extractFieldValues I f.fields) x
          refine ⟨validateOne (extractFieldValues I f.fields) x, ?_, ?_, ?_, ?_, ?_⟩
          · rw [eu]; simp [validateAll, hx]
          · simp [v1, hnt]
          · simp [v2, hnd]
          · intro hn; exact absurd ⟨k, rfl, he⟩ hn
          · intro _; exact v3
        · by_cases hq : k.type = .ctrlC ∨ k.type = .esc
          · have eu : apply I f (.update (.key k)) = f := by
              simp [apply, update, getAction_eq, ht, he, hq]
            have hnd : ¬ Delivers I f (.update (.key k) : Op N M E) i := by
              rintro ⟨msg, x', h1, h2, _⟩
              cases h1; rcases hq with h | h
              · exact h2.2.2.1 h
              · exact h2.2.2.2 h
            rw [eu]
            exact ⟨x, hx, by simp [hnt], by simp [hnd], fun _ => rfl, fun _ => rfl⟩
          · have hfor : Foreign (.key k) := ⟨ht, he, fun h => hq (Or.inl h), fun h => hq (Or.inr h)⟩
            have e := delegate_eq I f ok (.key k) i x hx
            have eu : (apply I f (.update (.key k))).fields[i]? = (delegate I f (.key k)).1.fields[i]? := by
              simp only [apply, foreign_update I f _ hfor]
            refine ⟨_, eu.trans e, ?_, ?_, ?_, ?_⟩
            · simp only [hnt, false_and, or_false]; split <;> (try split) <;> simp
            · have : Delivers I f (.update (.key k) : Op N M E) i ↔ (i : Int) = f.focused ∧ (I.update x.model (.key k)).isSome = true := by
                constructor
                · rintro ⟨msg, x', h1, _, h3, h4, h5⟩
                  cases h1; rw [hx] at h4; cases h4; exact ⟨h3, h5⟩
                · rintro ⟨h3, h5⟩; exact ⟨_, x, rfl, hfor, h3, hx, h5⟩
              rw [this]
              by_cases hf : (i : Int) = f.focused
              · rw [if_pos hf]; cases hu : I.update x.model (.key k) <;> simp [hf]
              · rw [if_neg hf]; simp [hf]
            · intro _; split <;> (try split) <;> rfl
            · intro hnd
              by_cases hf : (i : Int) = f.focused
              · rw [if_pos hf]
                cases hu : I.update x.model (.key k) with
                | none => rfl
                | some m => exact absurd ⟨_, x, rfl, hfor, hf, hx, by rw [hu]; rfl⟩ hnd
              · rw [if_neg hf]

/-- The form after a history of operations on a new one. -/
def after (I : Iface M) (ops : List (Op N M E)) : Form N M E := ops.foldl (apply I) new

theorem after_snoc (I : Iface M) (ops : List (Op N M E)) (o : Op N M E) :
    after I (ops ++ [o]) = apply I (after I ops) o := by
  simp [after, List.foldl_append]

theorem after_reachable (I : Iface M) (ops : List (Op N M E)) : Reachable I (after I ops) := ⟨ops, rfl⟩

/-- Something happened at some point of a history: an operation `o` with `P` of the form before
it and `o`. -/
def Happened (I : Iface M) (ops : List (Op N M E)) (P : Form N M E → Op N M E → Prop) : Prop :=
  ∃ before o rest, ops = before ++ o :: rest ∧ P (after I before) o

theorem happened_nil (I : Iface M) (P : Form N M E → Op N M E → Prop) : ¬ Happened I [] P := by
  rintro ⟨b, o, r, h, _⟩; cases b <;> cases h

theorem happened_snoc (I : Iface M) (ops : List (Op N M E)) (o : Op N M E) (P : Form N M E → Op N M E → Prop) :
    Happened I (ops ++ [o]) P ↔ Happened I ops P ∨ P (after I ops) o := by
  constructor
  · rintro ⟨b, o', r, h, hp⟩
    rcases List.eq_nil_or_concat r with rfl | ⟨r', z, rfl⟩
    · have := List.append_inj' h rfl
      obtain ⟨rfl, h2⟩ := this
      cases h2
      exact Or.inr hp
    · rw [List.concat_eq_append, ← List.cons_append, ← List.append_assoc] at h
      have := List.append_inj' h rfl
      exact Or.inl ⟨b, o', r', this.1, hp⟩
  · rintro (⟨b, o', r, rfl, hp⟩ | hp)
    · exact ⟨b, o', r ++ [o], by simp, hp⟩
    · exact ⟨ops, o, [], rfl, hp⟩

theorem apply_length (I : Iface M) (f : Form N M E) (o : Op N M E) :
    (apply I f o).fields.length = f.fields.length + (match o with | .field _ _ _ => 1 | .update _ => 0) := by
  cases o with
  | field n m vs => simp [apply, addField, withFields]
  | update msg =>
    have := congrArg List.length (C71_shape_preserved I f msg).1
    simp only [List.length_map] at this
    simpa [apply] using this

/-- C153, one field: after any history of adding fields and sending messages, a field is touched
exactly if Tab or Shift+Tab was pressed while it had the focus, and dirty exactly if a message
was delivered to it. -/
theorem C153_field_flags (I : Iface M) (ops : List (Op N M E)) (i : Nat) (x : Field N M E)
    (hx : (after I ops).fields[i]? = some x) :
    (x.touched = true ↔ Happened I ops (fun f o => IsTab o ∧ (i : Int) = f.focused ∧ i < f.fields.length)) ∧
    (x.dirty = true ↔ Happened I ops (fun f o => Delivers I f o i)) := by
  induction ops using snocInd generalizing x with
  | nil => simp [after, new] at hx
  | append_singleton ops o ih =>
    rw [happened_snoc, happened_snoc]
    rw [after_snoc] at hx
    by_cases hi : i < (after I ops).fields.length
    · have hx0 : (after I ops).fields[i]? = some ((after I ops).fields[i]) := List.getElem?_eq_getElem hi
      obtain ⟨y, hy, h1, h2, _⟩ := apply_field I (after I ops) (after_reachable I ops) o i _ hx0
      rw [hy] at hx
      cases hx
      obtain ⟨i1, i2⟩ := ih _ hx0
      rw [h1, h2, i1, i2]
      simp [hi]
    · have hlen := apply_length I (after I ops) o
      have hi2 : i < (apply I (after I ops) o).fields.length := (List.getElem?_eq_some_iff.1 hx).1
      cases o with
      | update msg => simp only [Nat.add_zero] at hlen; omega
      | field n m vs =>
        simp only [] at hlen
        have hin : i = (after I ops).fields.length := by omega
        have hnew : x = newField n m vs := by
          simp only [apply, addField, withFields, hin] at hx
          simpa using hx.symm
        have nt : ∀ j : Nat, j ≤ i → ¬ Happened I ops (fun f o => IsTab o ∧ (i : Int) = f.focused ∧ i < f.fields.length) ∧
            ¬ Happened I ops (fun f o => Delivers I f o i) := by
          -- earlier forms had at most as many fields, so field i did not exist
          have mono : ∀ (b r : List (Op N M E)), (after I b).fields.length ≤ (after I (b ++ r)).fields.length := by
            intro b r
            induction r using snocInd with
            | nil => simp
            | append_singleton r o ih =>
              rw [← List.append_assoc, after_snoc, apply_length]
              cases o <;> simp only [] <;> omega
          intro _ _
          constructor
          · rintro ⟨b, o, r, rfl, _, _, hlt⟩
            have := mono b (o :: r)
            omega
          · rintro ⟨b, o, r, rfl, msg, y, _, _, _, hy, _⟩
            have := mono b (o :: r)
            have := (List.getElem?_eq_some_iff.1 hy).1
            omega
        obtain ⟨n1, n2⟩ := nt i (Nat.le_refl _)
        rw [hnew]
        refine ⟨⟨fun h => (by cases h), ?_⟩, ⟨fun h => (by cases h), ?_⟩⟩
        · rintro (h | ⟨⟨k, h, _⟩, _⟩)
          · exact absurd h n1
          · cases h
        · rintro (h | ⟨msg, _, h, _⟩)
          · exact absurd h n2
          · cases h

/-- C153, the whole form: IsDirty holds exactly if some message was delivered to some field, and
the form is submitted exactly if Enter once produced the submit message. -/
theorem C153_form_flags (I : Iface M) (ops : List (Op N M E)) :
    (isDirty (after I ops) = true ↔ Happened I ops (fun f o => ∃ i, Delivers I f o i)) ∧
    ((after I ops).submitted = true ↔
      Happened I ops (fun f o => ∃ msg, o = .update msg ∧ (update I f msg).2 = .submit)) := by
  constructor
  · unfold isDirty
    rw [List.any_eq_true]
    constructor
    · rintro ⟨x, hx, hd⟩
      obtain ⟨i, hi, rfl⟩ := List.getElem_of_mem hx
      obtain ⟨b, o, r, h1, h2⟩ := (C153_field_flags I ops i _ (List.getElem?_eq_getElem hi)).2.1 hd
      exact ⟨b, o, r, h1, i, h2⟩
    · rintro ⟨b, o, r, h1, i, h2⟩
      have h2' := h2
      obtain ⟨msg, y, _, _, _, hy, _⟩ := h2'
      have hi : i < (after I ops).fields.length := by
        have : ∀ (b r : List (Op N M E)), (after I b).fields.length ≤ (after I (b ++ r)).fields.length := by
          intro b r
          induction r using snocInd with
          | nil => simp
          | append_singleton r o ih =>
            rw [← List.append_assoc, after_snoc, apply_length]
            cases o <;> simp only [] <;> omega
        have := this b (o :: r)
        have := (List.getElem?_eq_some_iff.1 hy).1
        rw [h1]; omega
      exact ⟨_, List.getElem_mem hi,
        (C153_field_flags I ops i _ (List.getElem?_eq_getElem hi)).2.2 ⟨b, o, r, h1, h2⟩⟩
  · induction ops using snocInd with
    | nil => simp [after, new, happened_nil]
    | append_singleton ops o ih =>
      rw [happened_snoc, after_snoc, ← ih]
      generalize after I ops = f
      cases o with
      | field n m vs => simp [apply, addField, withFields]
      | update msg =>
        have hd : ∀ msg, (delegate I f msg).2 ≠ .submit := by
          intro m; unfold delegate; split
          · simp
          · split
            · simp
            · split <;> simp
        have hs : ∀ msg, (delegate I f msg).1.submitted = f.submitted := fun m => (delegate_shape I f m).2.2.1
        simp only [apply, Op.update.injEq, exists_eq_left']
        cases msg with
        | other n => simp [update, hd, hs]
        | key k =>
          simp only [update]
          split
          · simp only [moveFocusNext]; split <;> simp
          · simp only [moveFocusPrev]; split <;> simp
          · unfold trySubmit; split <;> simp [submit, validateAll]
          · simp
          · simp [hd, hs]

/-- C153: between two presses of Enter the errors shown for a field do not change. -/
theorem C153_errors_only_by_enter (I : Iface M) (f : Form N M E) (hr : Reachable I f) (o : Op N M E)
    (ho : ¬ IsEnter o) (i : Nat) (x : Field N M E) (hx : f.fields[i]? = some x) :
    ((apply I f o).fields[i]?).map (·.errors) = some x.errors := by
  obtain ⟨y, hy, _, _, h, _⟩ := apply_field I f hr o i x hx
  rw [hy]; simp [h ho]

-- two fields, Tab, then a key: the first is touched, the second dirty
example :
    let I : Iface Nat := ⟨fun _ => .neither, fun m _ => some (m + 1)⟩
    let f : Form Nat Nat Nat := after I [.field 0 7 [], .field 1 8 [], .update (.key { type := .tab }),
      .update (.key { type := .rune, rune := 'a' })]
    f.fields.map (fun x => (x.touched, x.dirty, x.model)) = [(true, false, 7), (false, true, 9)] ∧
      isDirty f = true := by
  decide

/-! ## C154: the keys -/

/-- C154.  Tab moves on, Shift+Tab back, Enter tries to submit, Ctrl+C and Esc quit leaving the
form as it is, whatever the modifiers; every other message goes to the focused field and nothing
else: it never quits, submits, moves the focus or adds fields. -/
theorem C154_keys (I : Iface M) (f : Form N M E) (hr : Reachable I f) (msg : Msg) :
    ((update I f msg).2 = .quit ↔ ∃ k : KeyMsg, msg = .key k ∧ (k.type = .ctrlC ∨ k.type = .esc)) ∧
    ((update I f msg).2 = .quit → (update I f msg).1 = f) ∧
    ((update I f msg).2 = .submit → ∃ k : KeyMsg, msg = .key k ∧ k.type = .enter) ∧
    ((update I f msg).1.focused ≠ f.focused → ∃ k : KeyMsg, msg = .key k ∧ k.type = .tab) ∧
    (Foreign msg → ∀ (i : Nat) (x : Field N M E), f.fields[i]? = some x →
      (update I f msg).1.fields[i]? = some
        (if (i : Int) = f.focused then
          (match I.update x.model msg with | some m => { x with model := m, dirty := true } | none => x)
         else x)) := by
  have hd : ∀ msg, (delegate I f msg).2 ≠ .quit ∧ (delegate I f msg).2 ≠ .submit := by
    intro m; unfold delegate; split
    · simp
    · split
      · simp
      · split <;> simp
  have hs : ∀ msg, (delegate I f msg).1.focused = f.focused := fun m => (delegate_shape I f m).2.1
  have hts : (trySubmit I f).1.focused = f.focused ∧ (trySubmit I f).2 ≠ .quit := by
    unfold trySubmit; split <;> simp [submit, validateAll]
  refine ⟨?_, ?_, ?_, ?_, ?_⟩
  · cases msg with
    | other n => simp [update, hd]
    | key k =>
      simp only [update, getAction_eq, Msg.key.injEq, exists_eq_left']
      by_cases h1 : k.type = .tab
      · by_cases hsh : k.shift = true <;> simp [h1, hsh]
      · by_cases h2 : k.type = .enter
        · simp [h1, h2, hts.2]
        · by_cases h3 : k.type = .ctrlC ∨ k.type = .esc
          · simp [h1, h2, h3]
          · simp [h1, h2, h3, hd]
  · intro h
    cases msg with
    | other n => exact absurd h (hd _).1
    | key k =>
      simp only [update, getAction_eq] at h ⊢
      by_cases h1 : k.type = .tab
      · by_cases hsh : k.shift = true <;> simp [h1, hsh] at h
      · by_cases h2 : k.type = .enter
        · simp [h1, h2, hts.2] at h
        · by_cases h3 : k.type = .ctrlC ∨ k.type = .esc
          · simp [h1, h2, h3]
          · simp [h1, h2, h3, hd] at h
  · intro h; exact (C70_submit_only_by_enter I f msg h).1
  · intro h
    cases msg with
    | other n => exact absurd (hs _) h
    | key k =>
      refine ⟨k, rfl, ?_⟩
      apply Classical.byContradiction
      intro h1
      apply h
      simp only [update, getAction_eq]
      by_cases h2 : k.type = .enter
      · simp [h1, h2, hts.1]
      · by_cases h3 : k.type = .ctrlC ∨ k.type = .esc
        · simp [h1, h2, h3]
        · simp [h1, h2, h3, hs]
  · intro hf i x hx
    rw [foreign_update I f msg hf]
    exact delegate_eq I f (C71_focus_valid I f hr) msg i x hx

/-! ## Values, Errors, IsValid -/

theorem values_nodup (xs : List (Field N M E)) (hd : (xs.map (·.name)).Nodup) :
    (∀ x ∈ xs, values xs x.name = some x.model) ∧ (∀ n, (∀ x ∈ xs, x.name ≠ n) → values xs n = none) := by
  induction xs with
  | nil => exact ⟨fun x hx => (by cases hx), fun _ _ => rfl⟩
  | cons y ys ih =>
    simp only [List.map_cons, List.nodup_cons] at hd
    obtain ⟨i1, i2⟩ := ih hd.2
    constructor
    · intro x hx
      rcases List.mem_cons.1 hx with rfl | hx
      · have : values ys x.name = none := i2 _ (fun z hz e => hd.1 (List.mem_map.2 ⟨z, hz, e⟩))
        simp [values, this]
      · simp [values, i1 x hx]
    · intro n hn
      have := i2 n (fun x hx => hn x (List.mem_cons_of_mem _ hx))
      simp [values, this, hn y (List.mem_cons_self)]

/-- C110: with distinct names the map returned by Values and the method Value agree on every
name: the current model of the field of that name, and nothing for other names. -/
theorem C110_values_map (I : Iface M) (f : Form N M E) (h : Reachable I f)
    (hd : (f.fields.map (·.name)).Nodup) (n : N) :
    values f.fields n = value f n ∧ (∀ x ∈ f.fields, x.name = n → values f.fields n = some x.model) := by
  obtain ⟨a, b⟩ := C110_value_by_name I f h hd
  obtain ⟨c, d⟩ := values_nodup f.fields hd
  constructor
  · by_cases hn : ∃ x ∈ f.fields, x.name = n
    · obtain ⟨x, hx, rfl⟩ := hn
      rw [a x hx, c x hx]
    · have hn' : ∀ x ∈ f.fields, x.name ≠ n := fun x hx e => hn ⟨x, hx, e⟩
      rw [b n hn', d n hn']
  · rintro x hx rfl; exact c x hx

theorem errors_nodup (xs : List (Field N M E)) (hd : (xs.map (·.name)).Nodup) :
    (∀ x ∈ xs, errors xs x.name = if x.errors = [] then none else some x.errors) ∧
    (∀ n, (∀ x ∈ xs, x.name ≠ n) → errors xs n = none) := by
  induction xs with
  | nil => exact ⟨fun x hx => (by cases hx), fun _ _ => rfl⟩
  | cons y ys ih =>
    simp only [List.map_cons, List.nodup_cons] at hd
    obtain ⟨i1, i2⟩ := ih hd.2
    constructor
    · intro x hx
      rcases List.mem_cons.1 hx with rfl | hx
      · have : errors ys x.name = none := i2 _ (fun z hz e => hd.1 (List.mem_map.2 ⟨z, hz, e⟩))
        simp only [errors, this]
        cases x.errors <;> simp
      · have hne : y.name ≠ x.name := fun e => hd.1 (List.mem_map.2 ⟨x, hx, e.symm⟩)
        simp only [errors, i1 x hx]
        by_cases hxe : x.errors = [] <;> simp [hxe, hne]
    · intro n hn
      have := i2 n (fun x hx => hn x (List.mem_cons_of_mem _ hx))
      simp [errors, this, hn y (List.mem_cons_self)]

theorem isValid_iff (f : Form N M E) : isValid f = true ↔ ∀ x ∈ f.fields, x.errors = [] := by
  simp [isValid, Field.isValid]

/-- C70: after Enter, with distinct names and every field exposing a value, Errors reports
exactly the fields with a rejecting validator, each with its failures in order, and IsValid says
whether there are none. -/
theorem C70_errors_map_partial (I : Iface M) (f : Form N M E) (k : KeyMsg) (hk : k.type = .enter)
    (hd : (f.fields.map (·.name)).Nodup) (he : ∀ x ∈ f.fields, I.exposed x.model ≠ .selected none) :
    (∀ x ∈ f.fields, errors (update I f (.key k)).1.fields x.name =
      if (∀ v ∈ x.validators, v (currentValue I x.model) = none) then none
      else some (x.validators.filterMap (· (currentValue I x.model)))) ∧
    (isValid (update I f (.key k)).1 = true ↔ AllValid I f) := by
  obtain ⟨h1, h2, _⟩ := C70_submit_iff_valid_partial I f k hk hd he
  have hnil : ∀ x : Field N M E, (x.validators.filterMap (· (currentValue I x.model))) = [] ↔
      ∀ v ∈ x.validators, v (currentValue I x.model) = none := fun x => runValidators_nil _ _
  constructor
  · intro x hx
    have hnod : ((update I f (.key k)).1.fields.map (·.name)).Nodup := by
      rw [(C71_shape_preserved I f _).1]; exact hd
    have hm : ({ x with errors := x.validators.filterMap (· (currentValue I x.model)) } : Field N M E) ∈
        (update I f (.key k)).1.fields := by
      rw [h2]; exact List.mem_map.2 ⟨x, hx, rfl⟩
    have := (errors_nodup _ hnod).1 _ hm
    simp only [] at this
    rw [this]
    by_cases h : ∀ v ∈ x.validators, v (currentValue I x.model) = none
    · rw [if_pos ((hnil x).2 h), if_pos h]
    · rw [if_neg (fun e => h ((hnil x).1 e)), if_neg h]
  · rw [isValid_iff, h2]
    unfold AllValid
    constructor
    · intro h x hx
      exact (hnil x).1 (h _ (List.mem_map.2 ⟨x, hx, rfl⟩))
    · intro h y hy
      obtain ⟨x, hx, rfl⟩ := List.mem_map.1 hy
      exact (hnil x).2 (h x hx)

/-- C153: Init runs the Init command of every field that has one, in field order, once, and
none exactly when no field has one. -/
theorem C153_init {C : Type} (initCmd : M → Option C) (f : Form N M E) :
    (initCmds initCmd f).getD [] = f.fields.filterMap (fun x => initCmd x.model) ∧
    (initCmds initCmd f = none ↔ ∀ x ∈ f.fields, initCmd x.model = none) := by
  unfold initCmds
  simp only []
  constructor
  · split
    · next h => rw [List.length_eq_zero_iff.1 h]; rfl
    · rfl
  · constructor
    · intro h
      split at h
      · next h2 =>
        intro x hx
        have := List.length_eq_zero_iff.1 h2
        exact List.filterMap_eq_nil_iff.1 this x hx
      · cases h
    · intro h
      rw [if_pos]
      rw [List.length_eq_zero_iff, List.filterMap_eq_nil_iff]
      exact h

/-- C153: the domain's Reset gives back the form as built from the current models: no field
touched, dirty or with errors, focus on the first, not submitted. -/
theorem C153_reset (f : Form N M E) :
    (reset f).fields.map (fun x => (x.name, x.model, x.touched, x.dirty))
      = f.fields.map (fun x => (x.name, x.model, false, false)) ∧
    (∀ x ∈ (reset f).fields, x.errors = []) ∧ (reset f).focused = 0 ∧ (reset f).submitted = false ∧
    isValid (reset f) = true ∧ isDirty (reset f) = false := by
  refine ⟨?_, ?_, rfl, rfl, ?_, ?_⟩
  · simp [reset, newField, Function.comp_def]
  · intro x hx
    obtain ⟨y, _, rfl⟩ := List.mem_map.1 hx; rfl
  · rw [isValid_iff]
    intro x hx
    obtain ⟨y, _, rfl⟩ := List.mem_map.1 hx; rfl
  · simp [isDirty, reset, newField]

/-! ## C155: View -/

/-- What a form shows, line by line; `join` puts line feeds between the lines. -/
def joinLines : List Text → Text
  | [] => []
  | [l] => l
  | l :: ls => l ++ '\n' :: joinLines ls

/-- The lines of one field. -/
def specField (show_ : M → Text) (msg : E → Text) (label : Text) (focused : Bool) (x : Field N M E) : List Text :=
  [label ++ (if focused then ": ← focused".toList else ":".toList), show_ x.model] ++
    (if x.errors ≠ [] then [(x.errors.map (fun e => "✗ ".toList ++ msg e)).flatten]
     else if x.touched then ["✓ Valid".toList] else [])

/-- The lines of a form: title and underline, the fields separated by blank lines, the foot. -/
def specView (show_ : M → Text) (msg : E → Text) (title : Text) (under : Nat) (labels : Nat → Text)
    (f : Form N M E) : List Text :=
  (if title = [] then [] else [title, List.replicate under '─', []]) ++
    (if f.fields = [] then [[]]
     else ((f.fields.zipIdx.map (fun p => specField show_ msg (labels p.2) (decide ((p.2 : Int) = f.focused)) p.1)).intersperse
       [[]]).flatten) ++
    [List.replicate 40 '─', "Tab: next field  Shift+Tab: prev  Enter: submit".toList]

theorem joinLines_cons (l : Text) (ls : List Text) (h : ls ≠ []) : joinLines (l :: ls) = l ++ '\n' :: joinLines ls := by
  cases ls with
  | nil => exact absurd rfl h
  | cons a t => rfl

theorem joinLines_append (a b : List Text) (ha : a ≠ []) (hb : b ≠ []) :
    joinLines (a ++ b) = joinLines a ++ '\n' :: joinLines b := by
  induction a with
  | nil => exact absurd rfl ha
  | cons x t ih =>
    cases t with
    | nil => simp [joinLines_cons x b hb, joinLines]
    | cons y t =>
      rw [List.cons_append, joinLines_cons _ _ (by simp), ih (by simp), joinLines_cons x (y :: t) (by simp)]
      simp

theorem renderField_spec (show_ : M → Text) (msg : E → Text) (label : Text) (x : Field N M E) (b : Bool) :
    renderField show_ msg label x b = joinLines (specField show_ msg label b x) := by
  unfold renderField verdictText specField verdict Field.isValid
  cases x with
  | mk n m vs t d es =>
    cases es with
    | nil => cases t <;> cases b <;> simp [joinLines]
    | cons e es => cases b <;> simp [joinLines]

theorem renderFields_spec (show_ : M → Text) (msg : E → Text) (labels : Nat → Text) (foc : Int)
    (xs : List (Field N M E)) : ∀ i, xs ≠ [] →
    renderFields show_ msg labels foc i xs = (if i > 0 then ['\n', '\n'] else []) ++
      joinLines ((((xs.zipIdx i).map (fun p => specField show_ msg (labels p.2) (decide ((p.2 : Int) = foc)) p.1)).intersperse
        [[]]).flatten) := by
  induction xs with
  | nil => intro i h; exact absurd rfl h
  | cons x t ih =>
    intro i _
    have hne : specField show_ msg (labels i) (decide ((i : Int) = foc)) x ≠ [] := List.cons_ne_nil _ _
    cases t with
    | nil =>
      simp only [renderFields, renderField_spec, List.zipIdx_cons, List.zipIdx_nil, List.map_cons, List.map_nil,
        List.intersperse, List.flatten_cons, List.flatten_nil, List.append_nil]
    | cons y t =>
      rw [renderFields, ih (i + 1) (by simp), renderField_spec, if_pos (show i + 1 > 0 by omega)]
      rw [show (x :: y :: t).zipIdx i = (x, i) :: (y :: t).zipIdx (i + 1) from List.zipIdx_cons, List.map_cons]
      generalize hq : (y :: t).zipIdx (i + 1) = q
      cases q with
      | nil => simp [List.zipIdx_cons] at hq
      | cons p q =>
        rw [show ∀ (a : List Text) (g : Field N M E × Nat → List Text), ((a :: List.map g (p :: q)).intersperse [[]]).flatten
            = a ++ ([[]] ++ ((List.map g (p :: q)).intersperse [[]]).flatten) from fun a g => by
              rw [List.map_cons, List.intersperse_cons₂, List.flatten_cons, List.flatten_cons]]
        generalize hr : ((List.map (fun p => specField show_ msg (labels p.2) (decide ((p.2 : Int) = foc)) p.1) (p :: q)).intersperse
          [[]]).flatten = r
        have hrne : r ≠ [] := by
          rw [← hr]
          intro e
          have hmem : specField show_ msg (labels p.2) (decide ((p.2 : Int) = foc)) p.1 = [] := by
            cases q <;> simp only [List.map_cons, List.map_nil, List.intersperse_cons₂, List.intersperse_singleton,
              List.flatten_cons, List.append_eq_nil_iff] at e <;> exact e.1
          exact List.cons_ne_nil _ _ hmem
        rw [joinLines_append _ _ hne (by simp), joinLines_append [[]] r (by simp) hrne]
        simp [joinLines]

theorem view_spec (show_ : M → Text) (msg : E → Text) (title : Text) (labels : Nat → Text) (f : Form N M E) :
    view show_ msg title labels f = joinLines (specView show_ msg title (byteLen title) labels f) := by
  unfold view specView
  generalize hfoot : ([List.replicate 40 '─', "Tab: next field  Shift+Tab: prev  Enter: submit".toList] : List Text) = foot
  have hfn : foot ≠ [] := by rw [← hfoot]; simp
  have hjf : joinLines foot = rule 40 ++ ['\n'] ++ "Tab: next field  Shift+Tab: prev  Enter: submit".toList := by
    rw [← hfoot]; simp only [joinLines, rule, List.append_assoc, List.cons_append, List.nil_append]
  have hbody : ∃ body : List Text, body ≠ [] ∧ (if f.fields = [] then [[]]
     else ((f.fields.zipIdx.map (fun p => specField show_ msg (labels p.2) (decide ((p.2 : Int) = f.focused)) p.1)).intersperse
       [[]]).flatten) = body ∧ renderFields show_ msg labels f.focused 0 f.fields = joinLines body := by
    refine ⟨_, ?_, rfl, ?_⟩
    · split
      · simp
      · next h =>
        cases hf : f.fields with
        | nil => exact absurd hf h
        | cons x t =>
          intro e
          have hmem : specField show_ msg (labels 0) (decide (((0 : Nat) : Int) = f.focused)) x = [] := by
            cases t <;> simp only [List.zipIdx_cons, List.zipIdx_nil, List.map_cons, List.map_nil,
              List.intersperse_cons₂, List.intersperse_singleton,
              List.flatten_cons, List.append_eq_nil_iff] at e <;> exact e.1
          exact List.cons_ne_nil _ _ hmem
    · by_cases h : f.fields = []
      · rw [if_pos h, h]; rfl
      · rw [if_neg h, renderFields_spec _ _ _ _ _ 0 h]; rfl
  obtain ⟨body, hb1, hb2, hb3⟩ := hbody
  rw [hb2, hb3]
  by_cases ht : title = []
  · rw [if_neg (by simp [ht]), if_pos ht, List.nil_append, List.nil_append,
      joinLines_append body foot hb1 hfn, hjf]
    simp only [List.append_assoc, List.cons_append, List.nil_append]
  · rw [if_pos ht, if_neg ht, List.append_assoc [title, List.replicate (byteLen title) '─', []],
      joinLines_append [title, List.replicate (byteLen title) '─', []] (body ++ foot) (by simp) (by simp [hb1]),
      joinLines_append body foot hb1 hfn, hjf]
    simp only [joinLines, rule, List.append_assoc, List.cons_append, List.nil_append]

/-- C155, full claim: View is the title underlined over its whole width, the fields with their
labels, views and verdicts, and the foot line. -/
def C155_statement : Prop :=
  ∀ (M E N : Type) (show_ : M → Text) (msg : E → Text) (title : Text) (labels : Nat → Text)
    (f : Form N M E), view show_ msg title labels f = joinLines (specView show_ msg title title.length labels f)

/-- C155 for titles of one-byte characters.  Missing: with other titles the underline is longer
than the title (one dash per byte), see `C155_refuted`. -/
theorem C155_view_partial (show_ : M → Text) (msg : E → Text) (title : Text) (labels : Nat → Text)
    (f : Form N M E) (ht : ∀ c ∈ title, c.toNat < 128) :
    view show_ msg title labels f = joinLines (specView show_ msg title title.length labels f) := by
  rw [view_spec]
  have : byteLen title = title.length := by
    unfold byteLen
    induction title with
    | nil => rfl
    | cons c t ih =>
      have h1 := ht c (List.mem_cons_self)
      have h2 : c.utf8Size = 1 := by
        unfold Char.utf8Size
        rw [if_pos]
        rw [UInt32.le_iff_toNat_le]
        have : c.val.toNat < 128 := h1
        show c.val.toNat ≤ 127
        omega
      rw [List.map_cons, List.sum_cons, ih (fun c hc => ht c (List.mem_cons_of_mem _ hc)), h2, List.length_cons]
      omega
  rw [this]

/-- C155 is false: the title "é" is underlined by two dashes. -/
theorem C155_refuted : ¬ C155_statement := by
  intro h
  have := h Unit Unit Unit (fun _ => []) (fun _ => []) ['é'] (fun _ => []) new
  have := congrArg List.length this
  revert this
  decide

/-- C155: whatever happened before, exactly one field is marked as focused if there are fields,
and it is the one that gets the keys. -/
theorem C155_one_focus (I : Iface M) (f : Form N M E) (h : Reachable I f) (hne : f.fields ≠ []) :
    ∃ i < f.fields.length, ∀ j < f.fields.length, (decide ((j : Int) = f.focused) = true ↔ j = i) := by
  have ok := C71_focus_valid I f h
  have h1 := ok.1
  have h2 := ok.2.2 hne
  exact ⟨f.focused.toNat, by omega, fun j _ => by simp only [decide_eq_true_eq]; omega⟩

example : view (fun n : Nat => [Char.ofNat (n + 48)]) (fun _ : Nat => "bad".toList) "Hi".toList
    (fun i => [Char.ofNat (i + 65)])
    (after ⟨fun _ => .neither, fun _ _ => none⟩ [.field 0 7 [], .field 1 8 [], .update (.key { type := .tab })] : Form Nat Nat Nat)
    = joinLines (["Hi", "──", "", "A:", "7", "✓ Valid", "", "B: ← focused", "8",
        "────────────────────────────────────────", "Tab: next field  Shift+Tab: prev  Enter: submit"].map String.toList) := by
  decide +kernel

/-! ## C156: validators on text -/

theorem span_spec (p : UInt8 → Bool) (s : List UInt8) :
    s = (spanClass p s).1 ++ (spanClass p s).2 ∧ (∀ c ∈ (spanClass p s).1, p c = true) ∧
    (∀ c, (spanClass p s).2.head? = some c → p c = false) := by
  induction s with
  | nil => simp [spanClass]
  | cons c t ih =>
    unfold spanClass
    by_cases h : p c = true
    · rw [if_pos h]
      simp only [List.cons_append, List.cons.injEq, true_and]
      refine ⟨ih.1, ?_, ih.2.2⟩
      intro d hd
      rcases List.mem_cons.1 hd with rfl | hd
      · exact h
      · exact ih.2.1 d hd
    · rw [if_neg h]
      refine ⟨rfl, by simp, ?_⟩
      intro d hd
      simp only [List.head?_cons, Option.some.injEq] at hd
      subst hd; simpa using h

theorem span_unique (p : UInt8 → Bool) (a b : List UInt8) (ha : ∀ c ∈ a, p c = true)
    (hb : ∀ c, b.head? = some c → p c = false) : spanClass p (a ++ b) = (a, b) := by
  induction a with
  | nil =>
    cases b with
    | nil => rfl
    | cons c t => simp [spanClass, hb c rfl]
  | cons c t ih =>
    have := ih (fun d hd => ha d (List.mem_cons_of_mem _ hd))
    simp [spanClass, ha c (List.mem_cons_self), this]

/-- The alphabets of an address, written out. -/
def Letter (c : UInt8) : Prop := 97 ≤ c.toNat ∧ c.toNat ≤ 122 ∨ 65 ≤ c.toNat ∧ c.toNat ≤ 90
def DomainChar (c : UInt8) : Prop := Letter c ∨ 48 ≤ c.toNat ∧ c.toNat ≤ 57 ∨ c.toNat = 46 ∨ c.toNat = 45
def LocalChar (c : UInt8) : Prop := DomainChar c ∨ c.toNat = 95 ∨ c.toNat = 37 ∨ c.toNat = 43

theorem alpha_iff (c : UInt8) : isAlpha c = true ↔ Letter c := by
  simp only [isAlpha, Letter, Bool.or_eq_true, Bool.and_eq_true, decide_eq_true_eq, UInt8.le_iff_toNat_le]
  exact Iff.rfl

theorem domain_iff (c : UInt8) : isDomainByte c = true ↔ DomainChar c := by
  simp only [isDomainByte, DomainChar, Bool.or_eq_true, Bool.and_eq_true, decide_eq_true_eq, UInt8.le_iff_toNat_le,
    alpha_iff, beq_iff_eq, ← UInt8.toNat_inj, or_assoc]
  exact Iff.rfl

theorem local_iff (c : UInt8) : isLocalByte c = true ↔ LocalChar c := by
  simp only [isLocalByte, LocalChar, Bool.or_eq_true, domain_iff, beq_iff_eq, ← UInt8.toNat_inj, or_assoc]
  exact Iff.rfl

/-- An address as the validator understands it: local part, `@`, domain, `.`, top-level domain of
at least two letters. -/
def IsEmail (s : List UInt8) : Prop :=
  ∃ loc dom tld, s = loc ++ [64] ++ dom ++ [46] ++ tld ∧ loc ≠ [] ∧ dom ≠ [] ∧ 2 ≤ tld.length ∧
    (∀ c ∈ loc, LocalChar c) ∧ (∀ c ∈ dom, DomainChar c) ∧ (∀ c ∈ tld, Letter c)

theorem matchDomain_iff (d : List UInt8) :
    matchDomain d = true ↔ ∃ dom tld, d = dom ++ [46] ++ tld ∧ dom ≠ [] ∧ 2 ≤ tld.length ∧
      (∀ c ∈ dom, isDomainByte c = true) ∧ (∀ c ∈ tld, isAlpha c = true) := by
  unfold matchDomain
  obtain ⟨h1, h2, h3⟩ := span_spec isAlpha d.reverse
  simp only [Bool.and_eq_true, decide_eq_true_eq]
  constructor
  · rintro ⟨hl, hm⟩
    generalize hr : spanClass isAlpha d.reverse = r at *
    obtain ⟨a, b⟩ := r
    cases b with
    | nil => simp at hm
    | cons c rest =>
      simp only [Bool.and_eq_true, decide_eq_true_eq, beq_iff_eq, List.all_eq_true] at hm
      obtain ⟨⟨rfl, hm2⟩, hm3⟩ := hm
      refine ⟨rest.reverse, a.reverse, ?_, ?_, by simpa using hl, by simpa using hm3, by simpa using h2⟩
      · have := congrArg List.reverse h1
        simpa using this
      · intro e
        have := congrArg List.length e
        simp at this
        rw [this] at hm2; simp at hm2
  · rintro ⟨dom, tld, rfl, e1, e2, e3, e4⟩
    have : spanClass isAlpha (dom ++ [46] ++ tld).reverse = (tld.reverse, 46 :: dom.reverse) := by
      rw [List.reverse_append, List.reverse_append]
      exact span_unique _ _ _ (by simpa using e4) (by simp; decide)
    rw [this]
    have hdl := List.length_pos_iff.2 e1
    refine ⟨by simpa using e2, ?_⟩
    simp only [Bool.and_eq_true, decide_eq_true_eq, beq_iff_eq, List.all_eq_true, List.length_reverse]
    exact ⟨⟨trivial, by omega⟩, by simpa using e3⟩

theorem matchEmail_iff (s : List UInt8) : matchEmail s = true ↔ IsEmail s := by
  unfold matchEmail IsEmail
  simp only [← local_iff, ← domain_iff, ← alpha_iff]
  obtain ⟨h1, h2, h3⟩ := span_spec isLocalByte s
  simp only [Bool.and_eq_true, decide_eq_true_eq]
  constructor
  · rintro ⟨hl, hm⟩
    generalize hr : spanClass isLocalByte s = r at *
    obtain ⟨a, b⟩ := r
    simp only at hl hm h1 h2 h3
    have hb : ∃ d, b = 64 :: d ∧ matchDomain d = true := by
      split at hm
      · exact ⟨_, rfl, hm⟩
      · cases hm
    obtain ⟨d, rfl, hd⟩ := hb
    obtain ⟨dom, tld, rfl, e1, e2, e3, e4⟩ := (matchDomain_iff d).1 hd
    refine ⟨a, dom, tld, by rw [h1]; simp, ?_, e1, e2, h2, e3, e4⟩
    intro e; rw [e] at hl; simp at hl
  · rintro ⟨loc, dom, tld, rfl, e0, e1, e2, e5, e3, e4⟩
    have : spanClass isLocalByte (loc ++ [64] ++ dom ++ [46] ++ tld) = (loc, 64 :: (dom ++ [46] ++ tld)) := by
      rw [show loc ++ [64] ++ dom ++ [46] ++ tld = loc ++ (64 :: (dom ++ [46] ++ tld)) by simp]
      exact span_unique _ _ _ e5 (by simp; decide)
    rw [this]
    have := List.length_pos_iff.2 e0
    exact ⟨this, (matchDomain_iff _).2 ⟨dom, tld, rfl, e1, e2, e3, e4⟩⟩

/-- C156: Email accepts exactly the texts of the form local@domain.tld over its alphabets, and
rejects everything that is not text. -/
theorem C156_email (t e : E) (v : Val M) :
    email t e v = none ↔ ∃ s, v = .str s ∧ IsEmail s := by
  cases v with
  | str s =>
    simp only [email, pattern, Val.str.injEq, exists_eq_left', ← matchEmail_iff]
    cases matchEmail s <;> simp
  | nil => simp [email, pattern]
  | model m => simp [email, pattern]
  | other n => simp [email, pattern]

/-- C156: an accepted address has exactly one `@`, and no blank, control or non-ASCII byte. -/
theorem C156_email_bytes (s : List UInt8) (h : IsEmail s) :
    s.count 64 = 1 ∧ ∀ c ∈ s, 32 < c.toNat ∧ c.toNat < 127 := by
  obtain ⟨loc, dom, tld, rfl, _, _, _, h1, h2, h3⟩ := h
  simp only [← local_iff, ← domain_iff, ← alpha_iff] at h1 h2 h3
  have a1 : ∀ c : UInt8, isAlpha c = true → 65 ≤ c.toNat ∧ c.toNat ≤ 122 := by
    intro c hc
    simp only [isAlpha, Bool.or_eq_true, Bool.and_eq_true, decide_eq_true_eq, UInt8.le_iff_toNat_le] at hc
    have e1 : (97 : UInt8).toNat = 97 := rfl
    have e2 : (122 : UInt8).toNat = 122 := rfl
    have e3 : (65 : UInt8).toNat = 65 := rfl
    have e4 : (90 : UInt8).toNat = 90 := rfl
    omega
  have a2 : ∀ c : UInt8, isDomainByte c = true → 45 ≤ c.toNat ∧ c.toNat ≤ 122 ∧ c.toNat ≠ 64 := by
    intro c hc
    simp only [isDomainByte, isAlpha, Bool.or_eq_true, Bool.and_eq_true, decide_eq_true_eq, UInt8.le_iff_toNat_le,
      beq_iff_eq, ← UInt8.toNat_inj] at hc
    have e1 : (97 : UInt8).toNat = 97 := rfl
    have e2 : (122 : UInt8).toNat = 122 := rfl
    have e3 : (65 : UInt8).toNat = 65 := rfl
    have e4 : (90 : UInt8).toNat = 90 := rfl
    have e5 : (48 : UInt8).toNat = 48 := rfl
    have e6 : (57 : UInt8).toNat = 57 := rfl
    have e7 : (46 : UInt8).toNat = 46 := rfl
    have e8 : (45 : UInt8).toNat = 45 := rfl
    omega
  have a3 : ∀ c : UInt8, isLocalByte c = true → 37 ≤ c.toNat ∧ c.toNat ≤ 122 ∧ c.toNat ≠ 64 := by
    intro c hc
    simp only [isLocalByte, Bool.or_eq_true] at hc
    rcases hc with ((hc | hc) | hc) | hc
    · have := a2 c hc; omega
    · rw [eq_of_beq hc]; decide
    · rw [eq_of_beq hc]; decide
    · rw [eq_of_beq hc]; decide
  have z : ∀ l : List UInt8, (∀ c ∈ l, c.toNat ≠ 64) → l.count 64 = 0 := by
    intro l hl
    rw [List.count_eq_zero]
    intro hm
    exact hl _ hm rfl
  constructor
  · simp only [List.count_append]
    rw [z loc (fun c hc => (a3 c (h1 c hc)).2.2), z dom (fun c hc => (a2 c (h2 c hc)).2.2),
      z tld (fun c hc => by have := a1 c (h3 c hc); intro e; omega)]
    decide
  · intro c hc
    simp only [List.mem_append, List.mem_singleton] at hc
    rcases hc with (((hc | rfl) | hc) | rfl) | hc
    · have := a3 c (h1 c hc); omega
    · decide
    · have := a2 c (h2 c hc); omega
    · decide
    · have := a1 c (h3 c hc); omega

-- "a@b.co" is an address
example : IsEmail [97, 64, 98, 46, 99, 111] := (matchEmail_iff _).1 (by decide)

/-- C156: Pattern accepts exactly the texts its expression matches and rejects what is not text. -/
theorem C156_pattern (re : List UInt8 → Bool) (t e : E) (v : Val M) :
    pattern re t e v = none ↔ ∃ s, v = .str s ∧ re s = true := by
  cases v with
  | str s => simp only [pattern, Val.str.injEq, exists_eq_left']; cases re s <;> simp
  | nil => simp [pattern]
  | model m => simp [pattern]
  | other n => simp [pattern]

/-- C156, full claim for lengths (the message says "characters"): MinLength n accepts a text of
at least n characters.  The bytes given to the validator are the UTF-8 encoding of the text. -/
def C156_characters_statement : Prop :=
  ∀ (n : Nat) (text : String),
    (minLength (M := Unit) n 0 (1 : Nat) (.str text.toUTF8.toList) = none ↔ n ≤ text.length)

/-- C156: refuted: "é" passes MinLength 2. -/
theorem C156_characters_refuted : ¬ C156_characters_statement := by
  intro h
  have := (h 2 "é").1 (by decide +kernel)
  revert this
  decide

end Phoenix.Form
