import Verif.Tea.DialogProps
import Verif.Confirm.Props
import Verif.Choice.Props
/-
C200, C201: the Confirm, Select and MultiSelect components in a running program.
-/
set_option linter.unusedVariables false
set_option linter.unusedSimpArgs false
namespace Phoenix.Dialog
open Phoenix.Program

variable {σ β : Type}

/-! ### The components -/

/-- components/confirm/confirm.go:152-194: Update on a key; a result is sent with ConfirmResultMsg (259-263). -/
def confirmComp (d : Confirm.Confirm) : Comp Confirm.Confirm Confirm.Result where
  init := d
  upd := fun c k => ((Confirm.update c (.key k)).1, match (Confirm.update c (.key k)).2 with
    | some r => .answer r
    | Option.none => .none)

section
variable {P V : Type} [DecidableEq P]

/-- components/select/select.go:136-175, 273-278: the answer is the value with its OK flag. -/
def selectComp (deref : P → Choice.Opt V) (d : Choice.CS P) : Comp (Choice.CS P) (Option V) where
  init := d
  upd := fun c k => ((c.handleKey deref k).1, match (c.handleKey deref k).2 with
    | .confirm v => .answer v
    | .quit => .quit
    | .none => .none)

/-- components/multiselect/multiselect.go:200-249, 368-373. -/
def multiComp (deref : P → Choice.Opt V) (d : Choice.CM P) : Comp (Choice.CM P) (List V) where
  init := d
  upd := fun c k => ((c.handleKey deref k).1, match (c.handleKey deref k).2 with
    | .confirm vs => .answer vs
    | .quit => .quit
    | .none => .none)

end

/-! ### Reading off the answers -/

theorem outsFrom_get (c : Comp σ β) (ks : List KeyMsg) (s : σ) (i : Nat) :
    (outsFrom c s ks)[i]? = (ks[i]?).map fun k => (c.upd ((ks.take i).foldl (fun s k => (c.upd s k).1) s) k).2 := by
  induction ks generalizing s i with
  | nil => rfl
  | cons k ks ih =>
    cases i with
    | zero => rfl
    | succ i => exact ih _ i

theorem mem_outs {c : Comp σ β} {ks : List KeyMsg} {o : Out β} :
    o ∈ outs c ks ↔ ∃ (i : Nat) (k : KeyMsg), ks[i]? = some k ∧ (c.upd (after c (ks.take i)) k).2 = o := by
  rw [List.mem_iff_getElem?]
  constructor
  · rintro ⟨i, hi⟩
    rw [outs, outsFrom_get] at hi
    cases hk : ks[i]? with
    | none => rw [hk] at hi; cases hi
    | some k => rw [hk] at hi; exact ⟨i, k, hk, Option.some.inj hi⟩
  · rintro ⟨i, k, hk, h⟩
    refine ⟨i, ?_⟩
    rw [outs, outsFrom_get, hk]
    exact congrArg some h

theorem mem_answers {c : Comp σ β} {ks : List KeyMsg} {b : β} :
    b ∈ answers c ks ↔ ∃ (i : Nat) (k : KeyMsg), ks[i]? = some k ∧ (c.upd (after c (ks.take i)) k).2 = .answer b := by
  rw [← mem_outs]
  unfold answers
  rw [List.mem_filterMap]
  constructor
  · rintro ⟨o, ho, hb⟩
    cases o with
    | none => cases hb
    | quit => cases hb
    | answer b' => cases hb; exact ho
  · intro h; exact ⟨_, h, rfl⟩

theorem outsFrom_append (c : Comp σ β) (s : σ) (a b : List KeyMsg) :
    outsFrom c s (a ++ b) = outsFrom c s a ++ outsFrom c (a.foldl (fun s k => (c.upd s k).1) s) b := by
  induction a generalizing s with
  | nil => rfl
  | cons k a ih => exact congrArg _ (ih _)

theorem answers_prefix (c : Comp σ β) (ks : List KeyMsg) (n : Nat) : answers c (ks.take n) <+: answers c ks := by
  refine ⟨(outsFrom c (after c (ks.take n)) (ks.drop n)).filterMap Out.answer?, ?_⟩
  unfold answers outs
  rw [← List.filterMap_append]
  unfold after
  rw [← outsFrom_append, List.take_append_drop]

/-- At rest the loop has ended, or waits with nothing in its queue. -/
theorem rest {c : Comp σ β} {cap : Nat} {chunks : List (List Nat)} {s : Typing.St (DMsg β) (M σ β)}
    (h : Typing.Reach (app c) cap .key chunks s) (ha : Alone s) (hq : Quiescent (app c) cap s.p) :
    s.p.loop = .done ∨ (s.p.loop = .select ∧ s.p.queue = []) := by
  have hplain := Typing.all_plain (simple c) h (by
    intro m hm
    rw [ha] at hm
    obtain ⟨k, rfl⟩ := typed_key h m hm
    exact .inl rfl)
  cases hl : s.p.loop with
  | done => exact .inl rfl
  | busy m => exact absurd (Step.update _ _ hl) (hq _)
  | push ms => exact absurd hl (hplain.2.2 ms)
  | select =>
    right
    refine ⟨rfl, ?_⟩
    cases hqq : s.p.queue with
    | nil => rfl
    | cons m q => exact absurd (Step.recv _ _ _ hl hqq) (hq _)

/-! ### Confirm -/

/-- The dialog after some keys. -/
def confirmed (d : Confirm.Confirm) (ks : List KeyMsg) : Confirm.Confirm :=
  ks.foldl (fun c k => (Confirm.update c (.key k)).1) d

theorem confirmed_ops (d : Confirm.Confirm) (ks : List KeyMsg) :
    confirmed d ks = (ks.map fun k => Confirm.Op.update (.key k)).foldl Confirm.apply d := by
  unfold confirmed
  rw [List.foldl_map]
  rfl

theorem confirmed_reachable {d : Confirm.Confirm} (h : Confirm.Reachable d) (ks : List KeyMsg) :
    Confirm.Reachable (confirmed d ks) := by
  obtain ⟨ops, rfl⟩ := h
  exact ⟨ops ++ ks.map fun k => Confirm.Op.update (.key k), by rw [List.foldl_append, confirmed_ops]⟩

theorem confirmed_done {d : Confirm.Confirm} (h : d.done = true) (ks : List KeyMsg) :
    (confirmed d ks).result = d.result ∧ (confirmed d ks).done = true := by
  rw [confirmed_ops]
  have := Confirm.C69_result_final d h (ks.map fun k => Confirm.Op.update (.key k))
  exact ⟨this.1, this.2.1⟩

/-- The answers of a dialog: none as long as it is not decided, then exactly one. -/
theorem confirm_answers {d : Confirm.Confirm} (h : Confirm.Reachable d) (h0 : d.done = false) (ks : List KeyMsg) :
    answers (confirmComp d) ks = if (confirmed d ks).done = true then [(confirmed d ks).result] else [] := by
  suffices H : ∀ (ks : List KeyMsg) (d' : Confirm.Confirm), Confirm.Reachable d' →
      (d'.done = true → (outsFrom (confirmComp d) d' ks).filterMap Out.answer? = []) ∧
      (d'.done = false → (outsFrom (confirmComp d) d' ks).filterMap Out.answer? =
        if (confirmed d' ks).done = true then [(confirmed d' ks).result] else []) from (H ks d h).2 h0
  intro ks
  induction ks with
  | nil =>
    intro d' _
    refine ⟨fun _ => rfl, fun h1 => ?_⟩
    have : (confirmed d' []).done = false := h1
    rw [if_neg (by simp [this])]
    rfl
  | cons k ks ih =>
    intro d' hd'
    have hn : Confirm.Reachable (Confirm.update d' (.key k)).1 := confirmed_reachable hd' [k]
    have ihn := ih _ hn
    have hout : outsFrom (confirmComp d) d' (k :: ks) =
      ((confirmComp d).upd d' k).2 :: outsFrom (confirmComp d) (Confirm.update d' (.key k)).1 ks := rfl
    have hcons : confirmed d' (k :: ks) = confirmed (Confirm.update d' (.key k)).1 ks := rfl
    rw [hout, List.filterMap_cons]
    cases hr : (Confirm.update d' (.key k)).2 with
    | none =>
      have hu : ((confirmComp d).upd d' k).2 = .none := by simp only [confirmComp, hr]
      rw [hu, hcons]
      have hsame : (Confirm.update d' (.key k)).1.done = d'.done := by
        cases hdd : d'.done with
        | true => exact (confirmed_done hdd [k]).2
        | false =>
          cases hd2 : (Confirm.update d' (.key k)).1.done with
          | false => rfl
          | true =>
            have := (Confirm.C69_command_is_result d' hd' (.key k) _).2 ⟨hdd, hd2, rfl⟩
            rw [hr] at this; cases this
      rw [hsame] at ihn
      exact ihn
    | some r =>
      obtain ⟨e1, e2, e3⟩ := (Confirm.C69_command_is_result d' hd' (.key k) r).1 hr
      have hu : ((confirmComp d).upd d' k).2 = .answer r := by simp only [confirmComp, hr]
      rw [hu, hcons]
      refine ⟨fun h1 => (by rw [e1] at h1; cases h1), fun _ => ?_⟩
      have hdone := confirmed_done e2 ks
      rw [if_pos hdone.2, hdone.1, e3]
      show r :: (outsFrom (confirmComp d) (Confirm.update d' (.key k)).1 ks).filterMap Out.answer? = _
      rw [ihn.1 e2]

theorem confirm_no_quit (d : Confirm.Confirm) (ks : List KeyMsg) : Out.quit ∉ outs (confirmComp d) ks := by
  intro h
  obtain ⟨i, k, _, e⟩ := mem_outs.1 h
  have e : (match (Confirm.update (after (confirmComp d) (ks.take i)) (.key k)).2 with
    | some r => Out.answer r
    | Option.none => Out.none) = .quit := e
  split at e <;> cases e

/-- C200.  A program that shows a Confirm dialog (in any configuration, undecided), stores the answer it gets and then
quits; the keys arrive as bytes, in any pieces, nobody else sends messages.  In every execution:
 * the program gets at most one answer, and it is the answer the typed keys give (as if they had been given to the dialog
   one after the other), never another one;
 * a program that has ended without a Quit call has got that answer;
 * when the input is read, nothing more can happen and the keys decide the dialog, the program has ended and got the
   answer;
 * as long as the keys do not decide it the program does not end by itself and gets no answer. -/
theorem C200_confirm {d : Confirm.Confirm} (hd : Confirm.Reachable d) (h0 : d.done = false) {cap : Nat}
    {chunks : List (List Nat)} {s : Typing.St (DMsg Confirm.Result) (M Confirm.Confirm Confirm.Result)}
    (h : Typing.Reach (app (confirmComp d)) cap .key chunks s) (ha : Alone s) :
    let final := confirmed d (Input.messages chunks)
    (s.p.model.answers = [] ∨ (final.done = true ∧ s.p.model.answers = [final.result])) ∧
    (s.p.loop = .done → s.p.quitCalls = 0 → final.done = true ∧ s.p.model.answers = [final.result]) ∧
    (0 < cap → Quiescent (app (confirmComp d)) cap s.p → s.stolen = 0 → s.cancelled = false → s.ended = true →
      s.p.quitCalls = 0 → final.done = true → s.p.loop = .done ∧ s.p.model.answers = [final.result]) := by
  intro final
  obtain ⟨k, h1, h2, h3, h4, h5, h6⟩ := C200_dialog h ha
  have hfin : final.done = true → ∀ n, (confirmed d ((Input.messages chunks).take n)).done = true →
      (confirmed d ((Input.messages chunks).take n)).result = final.result := by
    intro _ n hn
    have := (confirmed_done hn ((Input.messages chunks).drop n)).1
    rw [← this]
    show (confirmed (confirmed d _) _).result = (confirmed d (Input.messages chunks)).result
    unfold confirmed
    rw [← List.foldl_append, List.take_append_drop]
  have hfd : ∀ n, (confirmed d ((Input.messages chunks).take n)).done = true → final.done = true := by
    intro n hn
    have := (confirmed_done hn ((Input.messages chunks).drop n)).2
    unfold confirmed at this
    rw [← List.foldl_append, List.take_append_drop] at this
    exact this
  rw [confirm_answers hd h0] at h2 h3 h5
  have g1 : s.p.model.answers = [] ∨ (final.done = true ∧ s.p.model.answers = [final.result]) := by
    cases ham : s.p.model.answers with
    | nil => exact .inl rfl
    | cons b bs =>
      right
      rw [ham] at h2 h3
      have hb := h2 b List.mem_cons_self
      split at hb
      · rename_i hdn
        rw [if_pos hdn] at h3
        have hbs : bs = [] := List.eq_nil_of_length_eq_zero (by simp only [List.length_cons, List.length_nil] at h3; omega)
        rw [List.mem_singleton] at hb
        rw [hbs, hb, hfin (hfd _ hdn) _ hdn]
        exact ⟨hfd _ hdn, rfl⟩
      · cases hb
  have g2 : s.p.loop = .done → s.p.quitCalls = 0 → final.done = true ∧ s.p.model.answers = [final.result] := by
    intro hl hq
    rcases h4 hl hq with h' | h'
    · rcases g1 with g | g
      · exact absurd g h'
      · exact g
    · exact absurd h' (confirm_no_quit _ _)
  refine ⟨g1, g2, ?_⟩
  intro hcap hqs hst hca hen hqc hfd'
  suffices hl : s.p.loop = .done from ⟨hl, (g2 hl hqc).2⟩
  rcases rest h ha hqs with hl | ⟨hl, hqu⟩
  · exact hl
  · have hk := h6 hst hca hl hqu hen
    rw [List.take_of_length_le hk] at h5
    refine h5 hcap hqs hqc (.inl ?_)
    have hfd' : (confirmed d (Input.messages chunks)).done = true := hfd'
    rw [if_pos hfd']
    simp

/-- The hypotheses are met: the bytes `x` and `y` are typed; the program ends with the answer "yes". -/
example : ∃ s : Typing.St (DMsg Confirm.Result) (M Confirm.Confirm Confirm.Result),
    Typing.Reach (app (confirmComp Confirm.new)) 100 .key [[120, 121]] s ∧ Alone s ∧ s.p.quitCalls = 0 ∧
    s.p.loop = .done ∧ s.ended = true ∧ s.stolen = 0 ∧ s.cancelled = false ∧ s.p.model.answers = [.yes] := by
  let chunks : List (List Nat) := [[120, 121]]
  have r : Typing.Reach (app (confirmComp Confirm.new)) 100 .key chunks (Typing.start _ chunks) := .start
  have r := Typing.Reach.step _ _ r (.read _ (some { type := .rune, rune := 'x' }) ⟨[121], []⟩ rfl rfl rfl)
  have r := Typing.Reach.step _ _ r (.put _ (.key { type := .rune, rune := 'x' }) rfl rfl (by decide))
  have r := Typing.Reach.step _ _ r (.read _ (some { type := .rune, rune := 'y' }) ⟨[], []⟩ rfl rfl rfl)
  have r := Typing.Reach.step _ _ r (.put _ (.key { type := .rune, rune := 'y' }) rfl rfl (by decide))
  have r := Typing.Reach.step _ _ r (.eof _ rfl rfl rfl)
  have r := Typing.Reach.step _ _ r (.prog _ _ (.recv _ _ _ rfl rfl))
  have r := Typing.Reach.step _ _ r (.prog _ _ (.update _ _ rfl))
  have r := Typing.Reach.step _ _ r (.prog _ _ (.recv _ _ _ rfl rfl))
  have r := Typing.Reach.step _ _ r (.prog _ _ (.update _ _ rfl))
  have r := Typing.Reach.step _ _ r (.prog _ _ (.result _ (.ret [.user (.answer .yes)]) _ [] [] rfl
    (.ret _ _ (List.mem_singleton.2 rfl))))
  have r := Typing.Reach.step _ _ r (.prog _ _ (.deliver _ _ [] [] rfl (by decide)))
  have r := Typing.Reach.step _ _ r (.prog _ _ (.recv _ _ _ rfl rfl))
  have r := Typing.Reach.step _ _ r (.prog _ _ (.update _ _ rfl))
  have r := Typing.Reach.step _ _ r (.prog _ _ (.result _ (.ret [.quit]) _ [] [] rfl
    (.ret _ _ (List.mem_singleton.2 rfl))))
  have r := Typing.Reach.step _ _ r (.prog _ _ (.deliver _ _ [] [] rfl (by decide)))
  have r := Typing.Reach.step _ _ r (.prog _ _ (.recv _ _ _ rfl rfl))
  exact ⟨_, r, rfl, rfl, rfl, rfl, rfl, rfl, rfl⟩

/-! ### Select and MultiSelect -/

section
variable {P V : Type} [DecidableEq P] (dflt : P → Choice.Bytes → Bool) (deref : P → Choice.Opt V)

/-- The Select list after some keys. -/
def selectAfter (d : Choice.CS P) (ks : List KeyMsg) : Choice.CS P :=
  ks.foldl (fun c k => (c.handleKey deref k).1) d

/-- The MultiSelect list after some keys. -/
def multiAfter (d : Choice.CM P) (ks : List KeyMsg) : Choice.CM P :=
  ks.foldl (fun c k => (c.handleKey deref k).1) d

/-- Enter was pressed as key number `i`. -/
def EnterAt (ks : List KeyMsg) (i : Nat) : Prop := ∃ k, ks[i]? = some k ∧ k.type = .enter

theorem sKeymap_quit {k : KeyMsg} (h : Choice.sKeymap k = .quit) : k.type = .ctrlC := by
  obtain ⟨t, r, _, _, _⟩ := k
  cases t <;> simp [Choice.sKeymap] at h ⊢
  (repeat' split at h) <;> simp at h

theorem sKeymap_confirm {k : KeyMsg} (h : Choice.sKeymap k = .confirm) : k.type = .enter := by
  obtain ⟨t, r, _, _, _⟩ := k
  cases t <;> simp [Choice.sKeymap] at h ⊢
  (repeat' split at h) <;> simp at h

theorem msKeymap_quit {k : KeyMsg} (h : Choice.msKeymap k = .quit) : k.type = .ctrlC := by
  obtain ⟨t, r, _, _, _⟩ := k
  cases t <;> simp [Choice.msKeymap] at h ⊢
  (repeat' split at h) <;> simp at h

theorem msKeymap_confirm {k : KeyMsg} (h : Choice.msKeymap k = .confirm) : k.type = .enter := by
  obtain ⟨t, r, _, _, _⟩ := k
  cases t <;> simp [Choice.msKeymap] at h ⊢
  (repeat' split at h) <;> simp at h

theorem select_out (d c : Choice.CS P) (k : KeyMsg) :
    ((selectComp deref d).upd c k).2 =
      if k.type = .enter then .answer (c.d.select.selectedValue deref) else if k.type = .ctrlC then .quit else .none := by
  by_cases h1 : k.type = .enter
  · rw [if_pos h1]
    simp [selectComp, Choice.CS.handleKey, show Choice.sKeymap k = .confirm by simp [Choice.sKeymap, h1]]
  · rw [if_neg h1]
    by_cases h2 : k.type = .ctrlC
    · rw [if_pos h2]
      simp [selectComp, Choice.CS.handleKey, show Choice.sKeymap k = .quit by simp [Choice.sKeymap, h2]]
    · rw [if_neg h2]
      have n1 := mt sKeymap_confirm h1
      have n2 := mt sKeymap_quit h2
      have e : (c.handleKey deref k).2 = Choice.SCmd.none := by
        simp only [Choice.CS.handleKey]
        split <;> try rfl
        · rename_i e; exact absurd e n1
        · rename_i e; exact absurd e n2
        · split <;> rfl
      simp only [selectComp, e]

theorem multi_out (d c : Choice.CM P) (k : KeyMsg) :
    ((multiComp deref d).upd c k).2 =
      if k.type = .enter then (if c.d.sel.canConfirm then .answer (c.d.selectedValues deref) else .none)
      else if k.type = .ctrlC then .quit else .none := by
  by_cases h1 : k.type = .enter
  · rw [if_pos h1]
    simp only [multiComp, Choice.CM.handleKey, show Choice.msKeymap k = .confirm by simp [Choice.msKeymap, h1]]
    by_cases h : c.d.sel.canConfirm = true
    · rw [if_pos h, if_pos h]
    · rw [if_neg h, if_neg h]
  · rw [if_neg h1]
    by_cases h2 : k.type = .ctrlC
    · rw [if_pos h2]
      simp [multiComp, Choice.CM.handleKey, show Choice.msKeymap k = .quit by simp [Choice.msKeymap, h2]]
    · rw [if_neg h2]
      have n1 := mt msKeymap_confirm h1
      have n2 := mt msKeymap_quit h2
      have e : (c.handleKey deref k).2 = Choice.Cmd.none := by
        simp only [Choice.CM.handleKey]
        split <;> try rfl
        · rename_i e; exact absurd e n1
        · rename_i e; exact absurd e n2
        · split <;> rfl
      simp only [multiComp, e]

theorem selectAfter_run (ops : List (Choice.SOp P)) (ks : List KeyMsg) :
    selectAfter deref (Choice.CS.run dflt deref (Choice.CS.new dflt) ops) ks =
      Choice.CS.run dflt deref (Choice.CS.new dflt) (ops ++ ks.map .key) := by
  unfold selectAfter Choice.CS.run
  rw [List.foldl_append, List.foldl_map]
  rfl

/-- What Enter answers: the value of the option under the cursor; with nothing displayed, what is selected. -/
def EnterValue (c : Choice.CS P) (v : Option V) : Prop :=
  (∀ p, c.d.filtered[c.d.cursor.toNat]? = some p → v = some (deref p).value) ∧
  (c.d.filtered = [] → v = c.d.selectedValue deref)

theorem enterValue (ops : List (Choice.SOp P)) (ks : List KeyMsg) :
    let c := selectAfter deref (Choice.CS.run dflt deref (Choice.CS.new dflt) ops) ks
    EnterValue deref c (c.d.select.selectedValue deref) := by
  intro c
  have h := Choice.C59_enter_selects_focused dflt deref (ops ++ ks.map .key) { type := .enter } rfl
  rw [← selectAfter_run] at h
  have e : (c.handleKey deref { type := .enter }).2 = .confirm (c.d.select.selectedValue deref) := rfl
  obtain ⟨h1, h2⟩ := h
  constructor
  · intro p hp
    have := (h1 p hp).1
    have := e.symm.trans this
    injection this
  · intro he
    have := (h2 he).2
    have := e.symm.trans this
    injection this

/-- C201, part.  A program around a Select list (after any history of public operations) that stores the answer it gets
and then quits; keys as bytes, nobody else sending.  In every execution:
 * every answer the program gets is what some Enter answered: the value of the option that was under the cursor when the
   keys before that Enter had been given to the list, in order; no more answers than Enters;
 * a program that has ended without a Quit call has got an answer, or Ctrl+C was typed;
 * when the input is read, nothing more can happen and Enter or Ctrl+C was typed, the program has ended. -/
theorem C201_select_partial (ops : List (Choice.SOp P)) {cap : Nat} {chunks : List (List Nat)}
    {s : Typing.St (DMsg (Option V)) (M (Choice.CS P) (Option V))} :
    let d := Choice.CS.run dflt deref (Choice.CS.new dflt) ops
    let keys := Input.messages chunks
    Typing.Reach (app (selectComp deref d)) cap .key chunks s → Alone s →
    (∀ v ∈ s.p.model.answers, ∃ i, EnterAt keys i ∧ EnterValue deref (selectAfter deref d (keys.take i)) v) ∧
    s.p.model.answers.length ≤ (keys.filter fun k => k.type = .enter).length ∧
    (s.p.loop = .done → s.p.quitCalls = 0 → s.p.model.answers ≠ [] ∨ ∃ k ∈ keys, k.type = .ctrlC) ∧
    (0 < cap → Quiescent (app (selectComp deref d)) cap s.p → s.stolen = 0 → s.cancelled = false → s.ended = true →
      s.p.quitCalls = 0 → (∃ k ∈ keys, k.type = .enter ∨ k.type = .ctrlC) → s.p.loop = .done) := by
  intro d keys h ha
  obtain ⟨k, h1, h2, h3, h4, h5, h6⟩ := C200_dialog h ha
  have hlen : ∀ (ks : List KeyMsg) (c : Choice.CS P), ((outsFrom (selectComp deref d) c ks).filterMap Out.answer?).length =
      (ks.filter fun k => k.type = .enter).length := by
    intro ks
    induction ks with
    | nil => intro c; rfl
    | cons x xs ih =>
      intro c
      have e : outsFrom (selectComp deref d) c (x :: xs) =
        ((selectComp deref d).upd c x).2 :: outsFrom (selectComp deref d) ((selectComp deref d).upd c x).1 xs := rfl
      rw [e, select_out, List.filterMap_cons, List.filter_cons]
      by_cases hx : x.type = .enter
      · rw [if_pos hx, if_pos (by simp [hx])]
        show _ + 1 = _ + 1
        rw [ih]
      · rw [if_neg (show ¬ decide (x.type = .enter) = true by simp [hx]), if_neg hx]
        by_cases hx2 : x.type = .ctrlC
        · rw [if_pos hx2]; exact ih _
        · rw [if_neg hx2]; exact ih _
  refine ⟨?_, ?_, ?_, ?_⟩
  · intro v hv
    have hv := (answers_prefix _ keys k).subset (h2 v hv)
    obtain ⟨i, x, hx, ho⟩ := mem_answers.1 hv
    rw [select_out] at ho
    split at ho
    · rename_i hent
      injection ho with ho
      refine ⟨i, ⟨x, hx, hent⟩, ?_⟩
      rw [← ho]
      exact enterValue dflt deref ops (keys.take i)
    · split at ho <;> cases ho
  · refine Nat.le_trans h3 (Nat.le_trans (answers_prefix _ keys k).length_le ?_)
    exact Nat.le_of_eq (hlen keys d)
  · intro hl hq
    rcases h4 hl hq with h' | h'
    · exact .inl h'
    · right
      obtain ⟨i, x, hx, ho⟩ := mem_outs.1 h'
      have hmem : x ∈ keys := List.mem_of_mem_take (List.mem_of_getElem? hx)
      rw [select_out] at ho
      split at ho
      · cases ho
      · split at ho
        · rename_i e; exact ⟨x, hmem, e⟩
        · cases ho
  · intro hcap hqs hst hca hen hqc ⟨x, hx, hxt⟩
    rcases rest h ha hqs with hl | ⟨hl, hqu⟩
    · exact hl
    · have hk := h6 hst hca hl hqu hen
      rw [List.take_of_length_le hk] at h5
      refine h5 hcap hqs hqc ?_
      obtain ⟨i, hi⟩ := List.mem_iff_getElem?.1 hx
      rcases hxt with e | e
      · left
        have : (selectAfter deref d (keys.take i)).d.select.selectedValue deref ∈ answers (selectComp deref d) keys := by
          refine mem_answers.2 ⟨i, x, hi, ?_⟩
          rw [select_out, if_pos e]
          rfl
        exact List.ne_nil_of_mem this
      · right
        refine mem_outs.2 ⟨i, x, hi, ?_⟩
        rw [select_out, if_neg (by rw [e]; decide), if_pos e]

/-- C201, part: with a single Enter and no Ctrl+C, a program that ended by itself has got exactly one answer: what the
option under the cursor was worth when Enter was typed. -/
theorem C201_one_enter_partial (ops : List (Choice.SOp P)) {cap : Nat} {chunks : List (List Nat)}
    {s : Typing.St (DMsg (Option V)) (M (Choice.CS P) (Option V))} :
    let d := Choice.CS.run dflt deref (Choice.CS.new dflt) ops
    let keys := Input.messages chunks
    Typing.Reach (app (selectComp deref d)) cap .key chunks s → Alone s →
    s.p.loop = .done → s.p.quitCalls = 0 → (∀ k ∈ keys, k.type ≠ .ctrlC) →
    (∀ i j, EnterAt keys i → EnterAt keys j → i = j) →
    ∃ (v : Option V) (i : Nat), s.p.model.answers = [v] ∧ EnterAt keys i ∧
      EnterValue deref (selectAfter deref d (keys.take i)) v := by
  intro d keys h ha hl hq hc hone
  obtain ⟨h1, h2, h3, _⟩ := C201_select_partial dflt deref ops h ha
  have h3 := h3 hl hq
  rcases h3 with h3 | ⟨k, hk, hkc⟩
  · have hle : (keys.filter fun k => decide (k.type = .enter)).length ≤ 1 := by
      clear h1 h2 h3
      have : ∀ ks : List KeyMsg, (∀ i j, EnterAt ks i → EnterAt ks j → i = j) →
          (ks.filter fun k => decide (k.type = .enter)).length ≤ 1 := by
        intro ks
        induction ks with
        | nil => intro _; exact Nat.zero_le _
        | cons x xs ih =>
          intro H
          rw [List.filter_cons]
          by_cases hx : x.type = .enter
          · rw [if_pos (by simp [hx])]
            have : xs.filter (fun k => decide (k.type = .enter)) = [] := by
              rw [List.filter_eq_nil_iff]
              intro y hy hye
              obtain ⟨j, hj⟩ := List.mem_iff_getElem?.1 hy
              have := H 0 (j + 1) ⟨x, rfl, hx⟩ ⟨y, by rw [List.getElem?_cons_succ]; exact hj, by simpa using hye⟩
              omega
            rw [this]; simp
          · rw [if_neg (by simp [hx])]
            refine ih fun i j ⟨a, ha1, ha2⟩ ⟨b, hb1, hb2⟩ => ?_
            have := H (i + 1) (j + 1) ⟨a, by rw [List.getElem?_cons_succ]; exact ha1, ha2⟩
              ⟨b, by rw [List.getElem?_cons_succ]; exact hb1, hb2⟩
            omega
      exact this keys hone
    cases hm : s.p.model.answers with
    | nil => exact absurd hm h3
    | cons v vs =>
      rw [hm] at h1 h2
      simp only [List.length_cons] at h2
      have h2 := Nat.le_trans h2 hle
      have : vs = [] := List.eq_nil_of_length_eq_zero (by omega)
      obtain ⟨i, hi, hv⟩ := h1 v List.mem_cons_self
      exact ⟨v, i, by rw [this], hi, hv⟩
  · exact absurd hkc (hc k hk)

/-- C201, part, MultiSelect: every answer is the list of the selected values (C54) at the moment of some Enter typed when
enough was selected; ending by itself needs an answer or Ctrl+C; at rest with such an Enter or Ctrl+C typed the program
has ended. -/
theorem C201_multiselect_partial (d : Choice.CM P) {cap : Nat} {chunks : List (List Nat)}
    {s : Typing.St (DMsg (List V)) (M (Choice.CM P) (List V))} :
    let keys := Input.messages chunks
    let at' := fun i => (multiAfter deref d (keys.take i)).d
    Typing.Reach (app (multiComp deref d)) cap .key chunks s → Alone s →
    (∀ v ∈ s.p.model.answers, ∃ i, EnterAt keys i ∧ (at' i).sel.canConfirm = true ∧ v = (at' i).selectedValues deref) ∧
    (s.p.loop = .done → s.p.quitCalls = 0 → s.p.model.answers ≠ [] ∨ ∃ k ∈ keys, k.type = .ctrlC) ∧
    (0 < cap → Quiescent (app (multiComp deref d)) cap s.p → s.stolen = 0 → s.cancelled = false → s.ended = true →
      s.p.quitCalls = 0 →
      ((∃ i, EnterAt keys i ∧ (at' i).sel.canConfirm = true) ∨ ∃ k ∈ keys, k.type = .ctrlC) → s.p.loop = .done) := by
  intro keys at' h ha
  obtain ⟨k, h1, h2, h3, h4, h5, h6⟩ := C200_dialog h ha
  refine ⟨?_, ?_, ?_⟩
  · intro v hv
    have hv := (answers_prefix _ keys k).subset (h2 v hv)
    obtain ⟨i, x, hx, ho⟩ := mem_answers.1 hv
    rw [multi_out] at ho
    split at ho
    · rename_i hent
      split at ho
      · rename_i hcc
        injection ho with ho
        exact ⟨i, ⟨x, hx, hent⟩, hcc, ho.symm⟩
      · cases ho
    · split at ho <;> cases ho
  · intro hl hq
    rcases h4 hl hq with h' | h'
    · exact .inl h'
    · right
      obtain ⟨i, x, hx, ho⟩ := mem_outs.1 h'
      have hmem : x ∈ keys := List.mem_of_mem_take (List.mem_of_getElem? hx)
      rw [multi_out] at ho
      split at ho
      · split at ho <;> cases ho
      · split at ho
        · rename_i e; exact ⟨x, hmem, e⟩
        · cases ho
  · intro hcap hqs hst hca hen hqc hw
    rcases rest h ha hqs with hl | ⟨hl, hqu⟩
    · exact hl
    · have hk := h6 hst hca hl hqu hen
      rw [List.take_of_length_le hk] at h5
      refine h5 hcap hqs hqc ?_
      rcases hw with ⟨i, ⟨x, hi, hx⟩, hcc⟩ | ⟨x, hx, e⟩
      · left
        have : (at' i).selectedValues deref ∈ answers (multiComp deref d) keys := by
          refine mem_answers.2 ⟨i, x, hi, ?_⟩
          rw [multi_out, if_pos hx]
          exact if_pos hcc
        exact List.ne_nil_of_mem this
      · right
        obtain ⟨i, hi⟩ := List.mem_iff_getElem?.1 hx
        refine mem_outs.2 ⟨i, x, hi, ?_⟩
        rw [multi_out, if_neg (by rw [e]; decide), if_pos e]

end

/-- C201, full, Select: the first answer the program gets is what the first Enter answered. -/
def C201_statement (cap : Nat) : Prop :=
  ∀ (P V : Type) [DecidableEq P] (deref : P → Choice.Opt V) (d : Choice.CS P) (chunks : List (List Nat))
    (s : Typing.St (DMsg (Option V)) (M (Choice.CS P) (Option V))),
    Typing.Reach (app (selectComp deref d)) cap .key chunks s → Alone s →
    ∀ (v : Option V) (rest : List (Option V)) (i : Nat), s.p.model.answers = v :: rest →
      EnterAt (Input.messages chunks) i → (∀ j, EnterAt (Input.messages chunks) j → i ≤ j) →
      v = (selectAfter deref d ((Input.messages chunks).take i)).d.select.selectedValue deref

/-- It does not hold, whatever the capacity of the message channel: Enter, `j` (down), Enter typed in one go; both
commands run, the second one's message gets into the channel first and the program ends with the option the user did not
choose first. -/
theorem C201_first_enter_refuted (cap : Nat) (hcap : 0 < cap) : ¬ C201_statement cap := by
  intro H
  let d : Choice.CS Nat := Choice.CS.run (V := Nat) (fun _ _ => true) (fun p => ⟨[], p, [], false⟩)
    (Choice.CS.new fun _ _ => true) [.options [10, 20]]
  let c := selectComp (V := Nat) (fun p : Nat => ⟨[], p, [], false⟩) d
  let chunks : List (List Nat) := [[13, 106, 13]]
  let enter : KeyMsg := { type := .enter }
  let j : KeyMsg := { type := .rune, rune := 'j' }
  have r : Typing.Reach (app c) cap .key chunks (Typing.start _ chunks) := .start
  have r := Typing.Reach.step _ _ r (.read _ (some enter) ⟨[106, 13], []⟩ rfl rfl rfl)
  have r := Typing.Reach.step _ _ r (.put _ (.key enter) rfl rfl hcap)
  have r := Typing.Reach.step _ _ r (.prog _ _ (.recv _ _ _ rfl rfl))
  have r := Typing.Reach.step _ _ r (.prog _ _ (.update _ _ rfl))
  have r := Typing.Reach.step _ _ r (.read _ (some j) ⟨[13], []⟩ rfl rfl rfl)
  have r := Typing.Reach.step _ _ r (.put _ (.key j) rfl rfl hcap)
  have r := Typing.Reach.step _ _ r (.prog _ _ (.recv _ _ _ rfl rfl))
  have r := Typing.Reach.step _ _ r (.prog _ _ (.update _ _ rfl))
  have r := Typing.Reach.step _ _ r (.read _ (some enter) ⟨[], []⟩ rfl rfl rfl)
  have r := Typing.Reach.step _ _ r (.put _ (.key enter) rfl rfl hcap)
  have r := Typing.Reach.step _ _ r (.prog _ _ (.recv _ _ _ rfl rfl))
  have r := Typing.Reach.step _ _ r (.prog _ _ (.update _ _ rfl))
  have r := Typing.Reach.step _ _ r (.prog _ _ (.result _ (.ret [.user (.answer (some 20))]) _ []
    [.ret [.user (.answer (some 10))]] rfl (.ret _ _ (List.mem_singleton.2 rfl))))
  have r := Typing.Reach.step _ _ r (.prog _ _ (.deliver _ _ [] [] rfl hcap))
  have r := Typing.Reach.step _ _ r (.prog _ _ (.recv _ _ _ rfl rfl))
  have r := Typing.Reach.step _ _ r (.prog _ _ (.update _ _ rfl))
  have := H Nat Nat (fun p => ⟨[], p, [], false⟩) d chunks _ r rfl (some 20) [] 0 rfl ⟨enter, rfl, rfl⟩
    (fun j _ => Nat.zero_le j)
  have : (some 20 : Option Nat) = some 10 := this
  cases this

/-- The hypotheses of the positive parts are met: `j` and Enter are typed, the program ends with the second option. -/
example : ∃ s : Typing.St (DMsg (Option Nat)) (M (Choice.CS Nat) (Option Nat)),
    Typing.Reach (app (selectComp (V := Nat) (fun p : Nat => ⟨[], p, [], false⟩)
      (Choice.CS.run (V := Nat) (fun _ _ => true) (fun p => ⟨[], p, [], false⟩) (Choice.CS.new fun _ _ => true)
        [.options [10, 20]]))) 100 .key [[106], [13]] s ∧ Alone s ∧ s.p.quitCalls = 0 ∧ s.p.loop = .done ∧
    s.p.model.answers = [some 20] := by
  let d : Choice.CS Nat := Choice.CS.run (V := Nat) (fun _ _ => true) (fun p => ⟨[], p, [], false⟩)
    (Choice.CS.new fun _ _ => true) [.options [10, 20]]
  let c := selectComp (V := Nat) (fun p : Nat => ⟨[], p, [], false⟩) d
  let chunks : List (List Nat) := [[106], [13]]
  have r : Typing.Reach (app c) 100 .key chunks (Typing.start _ chunks) := .start
  have r := Typing.Reach.step _ _ r (.read _ (some { type := .rune, rune := 'j' }) ⟨[], [[13]]⟩ rfl rfl rfl)
  have r := Typing.Reach.step _ _ r (.put _ (.key { type := .rune, rune := 'j' }) rfl rfl (by decide))
  have r := Typing.Reach.step _ _ r (.read _ (some { type := .enter }) ⟨[], []⟩ rfl rfl rfl)
  have r := Typing.Reach.step _ _ r (.put _ (.key { type := .enter }) rfl rfl (by decide))
  have r := Typing.Reach.step _ _ r (.prog _ _ (.recv _ _ _ rfl rfl))
  have r := Typing.Reach.step _ _ r (.prog _ _ (.update _ _ rfl))
  have r := Typing.Reach.step _ _ r (.prog _ _ (.recv _ _ _ rfl rfl))
  have r := Typing.Reach.step _ _ r (.prog _ _ (.update _ _ rfl))
  have r := Typing.Reach.step _ _ r (.prog _ _ (.result _ (.ret [.user (.answer (some 20))]) _ [] [] rfl
    (.ret _ _ (List.mem_singleton.2 rfl))))
  have r := Typing.Reach.step _ _ r (.prog _ _ (.deliver _ _ [] [] rfl (by decide)))
  have r := Typing.Reach.step _ _ r (.prog _ _ (.recv _ _ _ rfl rfl))
  have r := Typing.Reach.step _ _ r (.prog _ _ (.update _ _ rfl))
  have r := Typing.Reach.step _ _ r (.prog _ _ (.result _ (.ret [.quit]) _ [] [] rfl
    (.ret _ _ (List.mem_singleton.2 rfl))))
  have r := Typing.Reach.step _ _ r (.prog _ _ (.deliver _ _ [] [] rfl (by decide)))
  have r := Typing.Reach.step _ _ r (.prog _ _ (.recv _ _ _ rfl rfl))
  exact ⟨_, r, rfl, rfl, rfl, rfl⟩

end Phoenix.Dialog
