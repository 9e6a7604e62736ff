import Verif.Tea.DialogInst
import Verif.Tea.AreaScreen
import Verif.Choice.ViewProps
import Verif.Confirm.ViewProps
/-
C202: what Select and MultiSelect show in a running program, from the bytes of the keyboard to the cells of the terminal.
All parts are the models of the parts: Tea/KeyScreenModel.lean (decoder, goroutine, loop, inline renderer, terminal),
Tea/DialogModel.lean (the program around the component), Choice/Model.lean, Choice/ViewModel.lean.
-/
set_option linter.unusedVariables false
set_option linter.unusedSimpArgs false
namespace Phoenix.Dialog
open Phoenix.Program Phoenix.Inline Phoenix.Picture Phoenix.Editor

variable {σ β Pen : Type}

/-! ### Specification -/

/-- A printable ASCII byte. -/
def Print (b : UInt8) : Prop := 32 ≤ b.toNat ∧ b.toNat < 127

/-- Cell `j` of a terminal row that shows the bytes `l` in the normal pen and nothing else. -/
def textCell (p0 : Pen) (l : List UInt8) (j : Nat) : Cell Pen :=
  ((l[j]?).map fun b => (⟨[Char.ofNat b.toNat], p0, false⟩ : Cell Pen)).getD (Cell.blank p0)

/-- The terminal shows exactly these lines from the row on where the program was started; all rows above are as they were,
all rows below are empty. -/
structure ShowsLines (d : Dev Pen) (t0 t : TT Pen) (lines : List (List UInt8)) : Prop where
  rows : ∀ i l, lines[i]? = some l → ∀ j, t.rows (t0.row + i) j = textCell d.p0 l j
  above : ∀ i, i < t0.row → t.rows i = t0.rows i
  below : ∀ i, t0.row + lines.length ≤ i → ∀ j, t.rows i j = Cell.blank d.p0

/-! ### Bytes and characters -/

theorem newline_byte {b : UInt8} : Char.ofNat b.toNat = '\n' ↔ b = 10 := by
  constructor
  · intro h
    by_cases hb : b.toNat < 128
    · have := congrArg Char.toNat h
      rw [ofNat_toNat _ hb] at this
      exact UInt8.toNat_inj.1 this
    · have hlt : b.toNat < 256 := UInt8.toNat_lt b
      have := congrArg Char.toNat h
      have hv : b.toNat.isValidChar := Or.inl (by omega)
      rw [show (Char.ofNat b.toNat).toNat = b.toNat from by
        unfold Char.ofNat; rw [dif_pos hv]; rfl] at this
      exact UInt8.toNat_inj.1 this
  · rintro rfl; rfl

theorem splitLines_ascii (b : List UInt8) : splitLines (ascii b) = (Choice.screenLines b).map ascii := by
  induction b with
  | nil => rfl
  | cons x xs ih =>
    show (if Char.ofNat x.toNat = '\n' then [] :: splitLines (ascii xs) else _) = _
    unfold Choice.screenLines
    by_cases hx : x = 10
    · rw [if_pos (newline_byte.2 hx), if_pos hx, List.map_cons, ih]
      rfl
    · have ih : splitLines (List.map (fun x : UInt8 => Char.ofNat x.toNat) xs) = _ := ih
      rw [if_neg (fun e => hx (newline_byte.1 e)), if_neg hx, ih]
      cases hs : Choice.screenLines xs with
      | nil => exact absurd hs (Choice.screenLines_ne xs)
      | cons l ls => rfl

theorem print_narrow {d : Dev Pen} (hd : ∀ c, Ascii c → d.tw c = 1) {b : UInt8} (h : Print b) :
    Narrow d (Char.ofNat b.toNat) := by
  have e := ofNat_toNat b.toNat (by have := h.2; omega)
  have ha : Ascii (Char.ofNat b.toNat) := ⟨by rw [e]; exact h.1, by rw [e]; exact h.2⟩
  refine ⟨?_, ?_, hd _ ha⟩
  · intro hc
    have := congrArg Char.toNat hc
    rw [e] at this
    have h1 := h.1
    rw [this] at h1
    exact absurd h1 (by decide)
  · have h1 := ha.1
    have h2 := ha.2
    unfold isCtl
    simp; omega

theorem paint_bytes {d : Dev Pen} (hd : ∀ c, Ascii c → d.tw c = 1) (l : List UInt8) (h : ∀ b ∈ l, Print b) :
    Paint d (ascii l) (textCell d.p0 l) l.length := by
  have := paint_line d d.p0 (ascii l) (by
    intro c hc
    obtain ⟨b, hb, rfl⟩ := List.mem_map.1 hc
    exact print_narrow hd (h b hb))
  rw [show (ascii l).length = l.length from List.length_map _] at this
  have e : pic d.p0 d.p0 (TextArea.plain (ascii l)) = textCell d.p0 l := by
    funext j
    unfold pic textCell TextArea.plain ascii
    rw [List.map_map, List.getElem?_map]
    cases l[j]? <;> rfl
  rw [e] at this
  exact this

theorem ascii_inj {a b : List UInt8} (h : ascii a = ascii b) (ha : ∀ x ∈ a, Print x) (hb : ∀ x ∈ b, Print x) : a = b := by
  induction a generalizing b with
  | nil => cases b with
    | nil => rfl
    | cons => cases h
  | cons x xs ih => cases b with
    | nil => cases h
    | cons y ys =>
      injection h with h1 h2
      have e := congrArg Char.toNat h1
      rw [ofNat_toNat _ (by have := (ha x List.mem_cons_self).2; omega),
        ofNat_toNat _ (by have := (hb y List.mem_cons_self).2; omega)] at e
      rw [UInt8.toNat_inj.1 e, ih h2 (fun z hz => ha z (List.mem_cons_of_mem _ hz)) (fun z hz => hb z (List.mem_cons_of_mem _ hz))]

/-! ### Any component -/

section
variable {c : Comp σ β} {cap : Nat} {chunks : List (List Nat)} {d : Dev Pen} {t0 : TT Pen}

/-- At every moment the terminal shows the component after some of the first keys. -/
theorem dialog_screen {view : σ → Str} {f : KeyScreen.St (DMsg β) (M σ β) Pen}
    (h : KeyScreen.Reach (app c) (fun m => view m.comp) (fun _ => none) cap .key d t0 chunks f)
    (ha : Alone f.s) (hW : 0 < d.W) (h0 : Ready d t0)
    (hview : ∀ i, (splitLines (view (after c ((Input.messages chunks).take i)))).length ≤ d.H ∧
      ∀ l ∈ splitLines (view (after c ((Input.messages chunks).take i))), GoodLine d l)
    (hkept : ∀ i, Kept (view (after c ((Input.messages chunks).take i))) (view (after c ((Input.messages chunks).take (i + 1))))) :
    ∃ k, f.s.p.model.comp = after c ((Input.messages chunks).take k) ∧
      Screen.Displayed d t0 f.scr.2 (splitLines (view (after c ((Input.messages chunks).take k)))) ∧
      (f.s.stolen = 0 → f.s.cancelled = false → f.s.p.loop = .select → f.s.p.queue = [] → f.s.ended = true →
        (Input.messages chunks).length ≤ k) := by
  obtain ⟨hr, hs⟩ := KeyScreen.reach_inv h
  obtain ⟨k, hk, hall⟩ := delivered_first hr ha
  have hcomp : ∀ ys, (Screen.modelAfter (app c) ys).comp = after c (ys.filterMap keyOf) :=
    fun ys => (fold_model c ys (app c).init).1
  have hpre : ∀ ys, ys <+: f.s.p.delivered → ∃ i, ys.filterMap keyOf = (Input.messages chunks).take i ∧
      i = (ys.filterMap keyOf).length := by
    intro ys hy
    have hp : ys.filterMap keyOf <+: Input.messages chunks := by
      refine (List.IsPrefix.filterMap keyOf hy).trans ?_
      rw [hk]; exact List.take_prefix _ _
    exact ⟨_, (List.prefix_iff_eq_take.1 hp), rfl⟩
  have hmod : f.s.p.model = Screen.modelAfter (app c) f.s.p.delivered := (Typing.tinv hr).prog.model
  refine ⟨k, ?_, ?_, hall⟩
  · rw [hmod, hcomp, hk]
  · rw [← hk, ← hcomp, hs]
    refine displayed_along hW h0 _ ?_ ?_
    · intro ys hy
      obtain ⟨i, hi, _⟩ := hpre ys hy
      rw [hcomp, hi]
      exact hview i
    · intro ys x hy
      obtain ⟨i, hi, hil⟩ := hpre ys ((List.prefix_append ys [x]).trans hy)
      obtain ⟨j, hj, hjl⟩ := hpre (ys ++ [x]) hy
      rw [hcomp, hcomp, hi, hj]
      rw [List.filterMap_append] at hjl
      cases hx : keyOf x with
      | none =>
        have : [x].filterMap keyOf = [] := by rw [List.filterMap_cons, hx]; rfl
        rw [this, List.append_nil, ← hil] at hjl
        rw [hjl]
        intro hlt
        exact absurd hlt (Nat.lt_irrefl _)
      | some q =>
        have : [x].filterMap keyOf = [q] := by rw [List.filterMap_cons, hx]; rfl
        rw [this, List.length_append, ← hil] at hjl
        have : j = i + 1 := hjl
        rw [this]
        exact hkept i

/-- The same with the view as lines of bytes. -/
theorem dialog_lines {bv : σ → List UInt8} {f : KeyScreen.St (DMsg β) (M σ β) Pen}
    (h : KeyScreen.Reach (app c) (fun m => ascii (bv m.comp)) (fun _ => none) cap .key d t0 chunks f)
    (ha : Alone f.s) (hd : ∀ c, Ascii c → d.tw c = 1) (hW : 0 < d.W) (h0 : Ready d t0) (L : Nat → List (List UInt8))
    (hL : ∀ i, Choice.screenLines (bv (after c ((Input.messages chunks).take i))) = L i)
    (hview : ∀ i, (L i).length ≤ d.H ∧ ∀ l ∈ L i, l.length < d.W ∧ ∀ b ∈ l, Print b)
    (hkept : ∀ i, (L (i + 1)).length < (L i).length → (L i)[(L (i + 1)).length - 1]? ≠ (L (i + 1)).getLast?) :
    ∃ k, f.s.p.model.comp = after c ((Input.messages chunks).take k) ∧ ShowsLines d t0 f.scr.2 (L k) ∧
      (f.s.stolen = 0 → f.s.cancelled = false → f.s.p.loop = .select → f.s.p.queue = [] → f.s.ended = true →
        (Input.messages chunks).length ≤ k) := by
  have hsl : ∀ i, splitLines (ascii (bv (after c ((Input.messages chunks).take i)))) = (L i).map ascii := by
    intro i; rw [splitLines_ascii, hL]
  obtain ⟨k, h1, h2, h3⟩ := dialog_screen (view := fun m => ascii (bv m)) h ha hW h0 (by
    intro i
    rw [hsl i, List.length_map]
    refine ⟨(hview i).1, ?_⟩
    intro l hl
    obtain ⟨b, hb, rfl⟩ := List.mem_map.1 hl
    exact ⟨_, _, paint_bytes hd b ((hview i).2 b hb).2, ((hview i).2 b hb).1⟩) (by
    intro i hlt
    rw [hsl i, hsl (i + 1), List.length_map, List.length_map] at hlt
    rw [hsl i, hsl (i + 1), List.length_map, List.getElem?_map, List.getLast?_map]
    intro e
    refine hkept i hlt ?_
    cases e1 : (L i)[(L (i + 1)).length - 1]? with
    | none =>
      rw [e1] at e
      cases e2 : (L (i + 1)).getLast? with
      | none => rfl
      | some y => rw [e2] at e; cases e
    | some x =>
      rw [e1] at e
      cases e2 : (L (i + 1)).getLast? with
      | none => rw [e2] at e; cases e
      | some y =>
        rw [e2] at e
        rw [ascii_inj (Option.some.inj e) ((hview i).2 x (List.mem_of_getElem? e1)).2
          ((hview (i + 1)).2 y (List.mem_of_getLast? e2)).2])
  rw [hsl k] at h2
  refine ⟨k, h1, ⟨?_, h2.above, ?_⟩, h3⟩
  · intro i l hl j
    obtain ⟨n, hp⟩ := h2.shown i (ascii l) (by rw [List.getElem?_map, hl]; rfl)
    have := paint_unique d hp (paint_bytes hd l ((hview k).2 l (List.mem_of_getElem? hl)).2)
    exact congrFun this j
  · intro i hi j
    exact h2.below i (by rw [List.length_map]; exact hi) j

end

/-! ### Select -/

/-- A frame with the parts `T` (title), `O` (options), `F` (prompt, help) that gets fewer options does not end with a line
that stood there before, if the last line of `F'` is none of the option lines and none of the inner lines of `F`. -/
theorem kept_parts {T O F T' O' F' : List (List UInt8)} (hT : T'.length = T.length) (hF : F'.length = F.length)
    (hlt : O'.length < O.length) (x : List UInt8) (hx : F'.getLast? = some x) (hO : x ∉ O) (hD : x ∉ F.dropLast) :
    (T ++ O ++ F)[(T' ++ O' ++ F').length - 1]? ≠ (T' ++ O' ++ F').getLast? := by
  have hne : F' ≠ [] := by rintro rfl; cases hx
  have hpos : 0 < F'.length := List.length_pos_iff.2 hne
  rw [List.getLast?_append, hx]
  show _ ≠ some x
  rw [List.length_append, List.length_append]
  intro he
  have hn : T'.length + O'.length + F'.length - 1 ≥ T.length := by omega
  rw [List.append_assoc, List.getElem?_append_right hn] at he
  by_cases h2 : T'.length + O'.length + F'.length - 1 - T.length < O.length
  · rw [List.getElem?_append_left h2] at he
    exact hO (List.mem_of_getElem? he)
  · rw [List.getElem?_append_right (by omega)] at he
    refine hD ?_
    rw [List.mem_iff_getElem?]
    refine ⟨T'.length + O'.length + F'.length - 1 - T.length - O.length, ?_⟩
    rw [List.dropLast_eq_take, List.getElem?_take, if_pos (by omega)]
    exact he

theorem print_app {a b : List UInt8} (ha : ∀ x ∈ a, Print x) (hb : ∀ x ∈ b, Print x) : ∀ x ∈ a ++ b, Print x := by
  intro x hx
  rcases List.mem_append.1 hx with h | h
  · exact ha x h
  · exact hb x h

instance (b : UInt8) : Decidable (Print b) := inferInstanceAs (Decidable (_ ∧ _))

theorem print_lit : ∀ s ∈ ["> ", "  ", "[x] ", "[ ] ", " (disabled)", " - ", "(no options)", "(no matches)",
    "Type to filter...", "Filter: ", " (", " of ", " selected)", "  a: all  n: none  Space: toggle  Enter: confirm"],
    ∀ x ∈ Choice.lit s, Print x := by decide +kernel

theorem print_utf8 {s : List Char} (h : ∀ c ∈ s, Ascii c) : ∀ x ∈ Choice.utf8 s, Print x := by
  intro x hx
  unfold Choice.utf8 at hx
  obtain ⟨c, hc, hx⟩ := List.mem_flatMap.1 hx
  have hl := ascii_lt (h c hc)
  have ha := h c hc
  have h1 : c.val.toNat < 128 := Nat.lt_trans ha.2 (by decide)
  have hle : c.val.toNat ≤ 127 := by omega
  unfold String.utf8EncodeChar at hx
  simp only at hx
  rw [if_pos hle, List.mem_singleton] at hx
  rw [hx]
  have e : (UInt8.ofNat c.val.toNat).toNat = c.toNat := by
    rw [UInt8.toNat_ofNat']
    exact Nat.mod_eq_of_lt (by omega)
  exact ⟨by show 32 ≤ (UInt8.ofNat c.val.toNat).toNat; rw [e]; exact ha.1,
    by show (UInt8.ofNat c.val.toNat).toNat < 127; rw [e]; exact ha.2⟩

theorem print_no10 {l : List UInt8} (h : ∀ x ∈ l, Print x) : (10 : UInt8) ∉ l := fun hm => absurd (h _ hm).1 (by decide)

section
variable {P V : Type} [DecidableEq P] (dflt : P → Choice.Bytes → Bool) (deref : P → Choice.Opt V)

/-- An option with printable ASCII texts. -/
def AsciiOpt (o : Choice.Opt V) : Prop := (∀ c ∈ o.label, Ascii c) ∧ ∀ c ∈ o.description, Ascii c

theorem selectText_print {o : Choice.Opt V} (h : AsciiOpt o) (f : Bool) : ∀ x ∈ Choice.selectText o f, Print x := by
  unfold Choice.selectText
  refine print_app (print_app (print_app ?_ (print_utf8 h.1)) ?_) ?_
  · split <;> exact print_lit _ (by simp)
  · split
    · exact print_lit _ (by simp)
    · simp
  · split
    · simp
    · exact print_app (print_lit _ (by simp)) (print_utf8 h.2)

theorem multiText_print {o : Choice.Opt V} (h : AsciiOpt o) (f b : Bool) : ∀ x ∈ Choice.multiText o f b, Print x := by
  unfold Choice.multiText
  refine print_app (print_app (print_app (print_app ?_ ?_) (print_utf8 h.1)) ?_) ?_
  · split <;> exact print_lit _ (by simp)
  · split <;> exact print_lit _ (by simp)
  · split
    · simp
    · exact print_app (print_lit _ (by simp)) (print_utf8 h.2)
  · split
    · exact print_lit _ (by simp)
    · simp

/-- Model of select.go:203-222 in a program whose View is the View of its list (default rendering). -/
def selectView (title : Choice.Bytes) (c : Choice.CS P) : List UInt8 :=
  ((Choice.SV.mk title c fun p _ f => Choice.sDefaultRender (deref p) f).view).getD []

/-- What a key leaves alone, and how it can change the display. -/
theorem select_key (c : Choice.CS P) (k : KeyMsg) (hk : k.type = .rune → Ascii k.rune) (hq : ∀ b ∈ c.d.query, Print b) :
    let c' := (c.handleKey deref k).1
    c'.d.options = c.d.options ∧ c'.d.height = c.d.height ∧ c'.filterable = c.filterable ∧ c'.d.filterFunc = c.d.filterFunc ∧
    (∀ b ∈ c'.d.query, Print b) ∧
    (c'.d.filtered = c.d.filtered ∨ c'.d.filtered = c.d.options.filter (fun o => c.d.filterFunc o []) ∨ c.filterable = true) := by
  unfold Choice.CS.handleKey
  split
  · exact ⟨rfl, rfl, rfl, rfl, hq, .inl rfl⟩
  · exact ⟨rfl, rfl, rfl, rfl, hq, .inl rfl⟩
  · exact ⟨rfl, rfl, rfl, rfl, hq, .inl rfl⟩
  · exact ⟨rfl, rfl, rfl, rfl, hq, .inl rfl⟩
  · have hsel : c.d.select = c.d ∨ ∃ i, c.d.select = { c.d with selected := i } := by
      unfold Choice.S.select
      split
      · exact .inr ⟨_, rfl⟩
      · exact .inl rfl
    rcases hsel with e | ⟨i, e⟩ <;> rw [e] <;> exact ⟨rfl, rfl, rfl, rfl, hq, .inl rfl⟩
  · exact ⟨rfl, rfl, rfl, rfl, fun b hb => (by cases hb), .inr (.inl rfl)⟩
  · exact ⟨rfl, rfl, rfl, rfl, hq, .inl rfl⟩
  · by_cases hf : c.filterable = true
    · unfold Choice.filterInput
      refine ⟨?_, ?_, ?_, ?_, ?_, .inr (.inr hf)⟩
      · split <;> rfl
      · split <;> rfl
      · split <;> rfl
      · split <;> rfl
      · simp only [hf]
        split
        · rename_i q he
          split at he
          · cases he
          · split at he
            · split at he
              · cases he
              · rename_i ht _
                cases he
                refine print_app hq ?_
                have := print_utf8 (s := [k.rune]) (by simpa using hk ht)
                simpa [Choice.utf8, Choice.runeBytes] using this
            · split at he
              · split at he
                · cases he
                  exact fun b hb => hq b (List.dropLast_subset _ hb)
                · cases he
              · cases he
        · exact hq
    · have hf : c.filterable = false := by simpa using hf
      have e : Choice.filterInput c.filterable .none c.d.query k = none := by simp [Choice.filterInput, hf]
      rw [e]
      exact ⟨rfl, rfl, rfl, rfl, hq, .inl rfl⟩

/-- The lines of a Select list: title, options, prompt (C166). -/
theorem select_lines (title : Choice.Bytes) (ops : List (Choice.SOp P)) :
    let c := Choice.CS.run dflt deref (Choice.CS.new dflt) ops
    (∀ p ∈ c.d.options, AsciiOpt (deref p)) →
    ∃ start rows, Choice.screenLines (selectView deref title c) =
        Choice.titleLines title [] ++ Choice.optionLines c.d.filtered c.d.query rows ++ Choice.filterLines c.filterable c.d.query ∧
      Choice.ShowsOptions c.d.filtered c.d.cursor c.d.height
        (fun i p => Choice.selectText (deref p) (decide ((i : Int) = c.d.cursor))) start rows := by
  intro c hp
  have hnl : ∀ s : List Char, (∀ c ∈ s, Ascii c) → '\n' ∉ s := fun s hs hm => absurd (hs _ hm).1 (by decide)
  have hrun : ∀ (ops : List (Choice.SOp P)) (s : Choice.SV P), (Choice.SV.run dflt deref s (ops.map .op)).c =
      Choice.CS.run dflt deref s.c ops := by
    intro ops
    induction ops with
    | nil => intro s; rfl
    | cons op ops ih =>
      intro s
      have := ih (Choice.SV.step dflt deref s (.op op))
      rw [List.map_cons]
      refine this.trans ?_
      cases op <;> rfl
  have hc' : (Choice.SV.run dflt deref (Choice.SV.new dflt deref title) (ops.map .op)).c = c := hrun ops _
  have h := Choice.C166_select_default dflt deref title ops
  simp only [hc'] at h
  obtain ⟨_, text, start, rows, hv, hl, hs⟩ := h (fun p hpm => ⟨hnl _ (hp p hpm).1, hnl _ (hp p hpm).2⟩)
  refine ⟨start, rows, ?_, hs⟩
  have hren : (Choice.SV.run dflt deref (Choice.SV.new dflt deref title) (ops.map .op)).render =
      fun p _ f => Choice.sDefaultRender (deref p) f := by
    have : ∀ (ops : List (Choice.SOp P)) (s : Choice.SV P), s.render = (fun p _ f => Choice.sDefaultRender (deref p) f) →
        (Choice.SV.run dflt deref s (ops.map .op)).render = fun p _ f => Choice.sDefaultRender (deref p) f := by
      intro ops
      induction ops with
      | nil => intro s h; exact h
      | cons op ops ih =>
        intro s h
        exact ih (Choice.SV.step dflt deref s (.op op)) (by cases op <;> first | exact h | rfl)
    exact this ops _ rfl
  have heq : Choice.SV.run dflt deref (Choice.SV.new dflt deref title) (ops.map .op) =
      ⟨title, c, fun p _ f => Choice.sDefaultRender (deref p) f⟩ := by
    have ht := (Choice.sv_ok dflt deref title (ops.map .op)).2
    generalize Choice.SV.run dflt deref (Choice.SV.new dflt deref title) (ops.map .op) = s at hc' ht hren
    cases s
    simp only at hc' ht hren
    rw [hc', ht, hren]
  rw [heq] at hv
  unfold selectView
  rw [hv]
  exact hl

/-- The filter prompt. -/
def promptText (query : Choice.Bytes) : List UInt8 :=
  if query = [] then Choice.lit "Type to filter..." else Choice.lit "Filter: " ++ query

/-- The blank line and the prompt under the options, if the filter is on. -/
def promptLines (on : Bool) (query : Choice.Bytes) : List (List UInt8) := if on then [[], promptText query] else []

theorem promptText_head (q : Choice.Bytes) : (promptText q).head? = some 84 ∨ (promptText q).head? = some 70 := by
  unfold promptText
  split
  · left; decide +kernel
  · right; rfl

theorem filterLines_print {q : Choice.Bytes} (h : ∀ b ∈ q, Print b) (on : Bool) :
    Choice.filterLines on q = promptLines on q := by
  unfold Choice.filterLines promptLines promptText
  cases on with
  | false => rfl
  | true =>
    simp only [if_true]
    rw [Choice.screenLines_one]
    split
    · exact print_no10 (print_lit _ (by simp))
    · exact print_no10 (print_app (print_lit _ (by simp)) h)

/-- The title and a blank line, if there is a title. -/
def headLines (title : Choice.Bytes) : List (List UInt8) := if title = [] then [] else [title, []]

theorem titleLines_print {t r : Choice.Bytes} (h : ∀ b ∈ t ++ r, Print b) :
    Choice.titleLines t r = if t = [] then [] else [t ++ r, []] := by
  unfold Choice.titleLines
  rw [Choice.screenLines_one (print_no10 h)]
  rfl

/-- The list fits the terminal: printable texts, every line narrower than the terminal, title, options and prompt not
higher than it. -/
structure SelectFits (d : Dev Pen) (title : Choice.Bytes) (c : Choice.CS P) : Prop where
  title : (∀ b ∈ title, Print b) ∧ title.length < d.W
  opts : ∀ p ∈ c.d.options, AsciiOpt (deref p) ∧ ∀ b, (Choice.selectText (deref p) b).length < d.W
  prompt : 17 < d.W
  height : c.d.height + 4 ≤ d.H
  query : ∀ b ∈ c.d.query, Print b

theorem option_len {shown : List P} {cursor height : Int} {text : Nat → P → Choice.Bytes} {start : Nat}
    {rows : List Choice.Bytes} (q : Choice.Bytes) (hh : 1 ≤ height)
    (hs : Choice.ShowsOptions shown cursor height text start rows) :
    ((Choice.optionLines shown q rows).length : Int) = max 1 (min height shown.length) := by
  unfold Choice.optionLines
  split
  · rename_i h; rw [h]; simp; omega
  · rename_i h
    have := List.length_pos_iff.2 h
    have := hs.count
    omega

theorem option_mem {shown : List P} {cursor height : Int} {text : Nat → P → Choice.Bytes} {start : Nat}
    {rows : List Choice.Bytes} {q : Choice.Bytes}
    (hs : Choice.ShowsOptions shown cursor height text start rows) {x : List UInt8}
    (hx : x ∈ Choice.optionLines shown q rows) :
    x = Choice.lit "(no options)" ∨ x = Choice.lit "(no matches)" ∨ ∃ i p, p ∈ shown ∧ x = text i p := by
  unfold Choice.optionLines at hx
  split at hx
  · rw [List.mem_singleton] at hx
    split at hx
    · exact .inl hx
    · exact .inr (.inl hx)
  · obtain ⟨k, hk⟩ := List.mem_iff_getElem?.1 hx
    obtain ⟨p, h1, h2⟩ := hs.each k (List.getElem?_eq_some_iff.1 hk).1
    rw [h2] at hk
    exact .inr (.inr ⟨_, p, List.mem_of_getElem? h1, (Option.some.inj hk).symm⟩)

theorem select_sublist (ops : List (Choice.SOp P)) :
    (Choice.CS.run dflt deref (Choice.CS.new dflt) ops).d.filtered.Sublist
      (Choice.CS.run dflt deref (Choice.CS.new dflt) ops).d.options := by
  induction ops using snocInd with
  | nil => exact List.Sublist.refl _
  | append_singleton ops op ih =>
    unfold Choice.CS.run at ih ⊢
    rw [List.foldl_append, List.foldl_cons, List.foldl_nil]
    generalize List.foldl _ _ ops = c at ih ⊢
    cases op with
    | options l => exact List.Sublist.refl _
    | height n => exact ih
    | filterable b => exact ih
    | filterFunc f => exact ih
    | withDefault p => exact ih
    | key k =>
      show (c.handleKey deref k).1.d.filtered.Sublist (c.handleKey deref k).1.d.options
      unfold Choice.CS.handleKey
      split <;> try exact ih
      · have hsel : c.d.select = c.d ∨ ∃ i, c.d.select = { c.d with selected := i } := by
          unfold Choice.S.select
          split
          · exact .inr ⟨_, rfl⟩
          · exact .inl rfl
        rcases hsel with e | ⟨i, e⟩ <;> rw [e] <;> exact ih
      · exact List.filter_sublist
      · split
        · exact List.filter_sublist
        · exact ih

/-- C202.  A program around a Select list (default rendering, any history of public calls before it starts) that stores
the answer and quits, running inline in a terminal the list fits; keys as bytes in any pieces, printable ASCII characters
and any other keys, nobody else sending messages; the filter switched on, or a filter function that accepts everything
for the empty query.  In every execution, at every moment, for some number `k` of the first keys: from the row on where
the program was started the terminal shows, cell by cell, exactly the title and a blank line, one line per visible option
of the list after these `k` keys - consecutive displayed options, the one under the cursor among them, "> " in front of it
and of no other - or a note that there is none, and, if the filter is on, a blank line and the query typed so far; rows
above are as they were, rows below are empty.  When the input is read and the program is idle `k` covers all keys. -/
theorem C202_select_screen {d : Dev Pen} (hd : ∀ c, Ascii c → d.tw c = 1) {t0 : TT Pen} (h0 : Ready d t0) {cap : Nat}
    (title : Choice.Bytes) (ops : List (Choice.SOp P)) {chunks : List (List Nat)}
    {f : KeyScreen.St (DMsg (Option V)) (M (Choice.CS P) (Option V)) Pen} :
    let c0 := Choice.CS.run dflt deref (Choice.CS.new dflt) ops
    let keys := Input.messages chunks
    SelectFits deref d title c0 →
    (c0.filterable = true ∨ ∀ p, c0.d.filterFunc p [] = true) →
    (∀ k ∈ keys, k.type = .rune → Ascii k.rune) →
    (∀ i, (selectAfter deref c0 (keys.take i)).d.query.length + 8 < d.W) →
    KeyScreen.Reach (app (selectComp deref c0)) (fun m => ascii (selectView deref title m.comp)) (fun _ => none) cap .key d t0
      chunks f → Alone f.s →
    ∃ k start rows, let c := selectAfter deref c0 (keys.take k)
      f.s.p.model.comp = c ∧
      ShowsLines d t0 f.scr.2
        (headLines title ++ Choice.optionLines c.d.filtered c.d.query rows ++ promptLines c.filterable c.d.query) ∧
      Choice.ShowsOptions c.d.filtered c.d.cursor c.d.height
        (fun i p => Choice.selectText (deref p) (decide ((i : Int) = c.d.cursor))) start rows ∧
      (f.s.stolen = 0 → f.s.cancelled = false → f.s.p.loop = .select → f.s.p.queue = [] → f.s.ended = true →
        keys.length ≤ k) := by
  intro c0 keys hfit hfil hrune hqw h ha
  -- along the keys
  have hinv : ∀ i, let c := selectAfter deref c0 (keys.take i)
      c.d.options = c0.d.options ∧ c.d.height = c0.d.height ∧ c.filterable = c0.filterable ∧
      c.d.filterFunc = c0.d.filterFunc ∧ ∀ b ∈ c.d.query, Print b := by
    have : ∀ (ks : List KeyMsg) (c1 : Choice.CS P), (∀ k ∈ ks, k.type = .rune → Ascii k.rune) → (∀ b ∈ c1.d.query, Print b) →
        let c := selectAfter deref c1 ks
        c.d.options = c1.d.options ∧ c.d.height = c1.d.height ∧ c.filterable = c1.filterable ∧
        c.d.filterFunc = c1.d.filterFunc ∧ ∀ b ∈ c.d.query, Print b := by
      intro ks
      induction ks with
      | nil => intro c1 _ hq; exact ⟨rfl, rfl, rfl, rfl, hq⟩
      | cons k ks ih =>
        intro c1 hr hq
        obtain ⟨e1, e2, e3, e4, e5, _⟩ := select_key deref c1 k (hr k List.mem_cons_self) hq
        obtain ⟨g1, g2, g3, g4, g5⟩ := ih _ (fun x hx => hr x (List.mem_cons_of_mem _ hx)) e5
        exact ⟨g1.trans e1, g2.trans e2, g3.trans e3, g4.trans e4, g5⟩
    intro i
    exact this _ _ (fun k hk => hrune k (List.mem_of_mem_take hk)) hfit.query
  have hrun : ∀ i, selectAfter deref c0 (keys.take i) =
      Choice.CS.run dflt deref (Choice.CS.new dflt) (ops ++ (keys.take i).map .key) :=
    fun i => selectAfter_run dflt deref ops _
  have hstep : ∀ i, selectAfter deref c0 (keys.take (i + 1)) = selectAfter deref c0 (keys.take i) ∨
      ∃ k ∈ keys, selectAfter deref c0 (keys.take (i + 1)) = ((selectAfter deref c0 (keys.take i)).handleKey deref k).1 := by
    intro i
    by_cases hi : i < keys.length
    · right
      refine ⟨keys[i], List.getElem_mem hi, ?_⟩
      rw [List.take_succ_eq_append_getElem hi]
      unfold selectAfter
      rw [List.foldl_append]
      rfl
    · left
      rw [List.take_of_length_le (by omega), List.take_of_length_le (by omega)]
  have hlines : ∀ i, ∃ start rows, let c := selectAfter deref c0 (keys.take i)
      Choice.screenLines (selectView deref title c) =
        headLines title ++ Choice.optionLines c.d.filtered c.d.query rows ++ promptLines c.filterable c.d.query ∧
      Choice.ShowsOptions c.d.filtered c.d.cursor c.d.height
        (fun i p => Choice.selectText (deref p) (decide ((i : Int) = c.d.cursor))) start rows := by
    intro i
    obtain ⟨e1, e2, e3, e4, e5⟩ := hinv i
    have := select_lines dflt deref title (ops ++ (keys.take i).map .key)
    rw [← hrun i] at this
    obtain ⟨start, rows, h1, h2⟩ := this (by rw [e1]; exact fun p hp => (hfit.opts p hp).1)
    refine ⟨start, rows, ?_, h2⟩
    rw [h1, filterLines_print e5, titleLines_print (by rw [List.append_nil]; exact hfit.title.1), List.append_nil]
    rfl
  have hok : ∀ i, (selectAfter deref c0 (keys.take i)).Ok := by
    intro i; rw [hrun i]; exact Choice.cs_ok_run dflt deref _
  have hsub : ∀ i, (selectAfter deref c0 (keys.take i)).d.filtered.Sublist c0.d.options := by
    intro i
    rw [← (hinv i).1, hrun i]
    exact select_sublist dflt deref _
  have hprompt : ∀ on (q : Choice.Bytes), (promptLines on q).length = if on then 2 else 0 := by
    intro on q; cases on <;> rfl
  have hhead : (headLines title).length ≤ 2 := by unfold headLines; split <;> simp
  obtain ⟨k, g1, g2, g3⟩ := dialog_lines (bv := selectView deref title) h ha hd (by have := hfit.prompt; omega) h0
    (fun i => Choice.screenLines (selectView deref title (selectAfter deref c0 (keys.take i)))) (fun i => rfl) (by
    intro i
    obtain ⟨start, rows, h1, h2⟩ := hlines i
    obtain ⟨e1, e2, e3, e4, e5⟩ := hinv i
    rw [h1]
    constructor
    · have := option_len (selectAfter deref c0 (keys.take i)).d.query (hok i).height h2
      rw [List.length_append, List.length_append, hprompt]
      have := hfit.height
      have := (hok i).height
      rw [e2] at *
      split <;> omega
    · intro l hl
      rcases List.mem_append.1 hl with hl | hl
      · rcases List.mem_append.1 hl with hl | hl
        · unfold headLines at hl
          split at hl
          · cases hl
          · rcases List.mem_cons.1 hl with rfl | hl
            · exact ⟨hfit.title.2, hfit.title.1⟩
            · rw [List.mem_singleton.1 hl]
              exact ⟨by have := hfit.prompt; simp; omega, fun b hb => (by cases hb)⟩
        · have hw := hfit.prompt
          rcases option_mem h2 hl with rfl | rfl | ⟨n, p, hp, rfl⟩
          · exact ⟨Nat.lt_trans (by decide : _ < 17) hw, print_lit _ (by simp)⟩
          · exact ⟨Nat.lt_trans (by decide : _ < 17) hw, print_lit _ (by simp)⟩
          · have hp := (hsub i).subset hp
            exact ⟨(hfit.opts p hp).2 _, selectText_print (hfit.opts p hp).1 _⟩
      · unfold promptLines at hl
        split at hl
        · rcases List.mem_cons.1 hl with rfl | hl
          · exact ⟨by have := hfit.prompt; simp; omega, fun b hb => (by cases hb)⟩
          · rw [List.mem_singleton.1 hl]
            unfold promptText
            split
            · exact ⟨hfit.prompt, print_lit _ (by simp)⟩
            · refine ⟨?_, print_app (print_lit _ (by simp)) e5⟩
              rw [List.length_append]
              have := hqw i
              have e : (Choice.lit "Filter: ").length = 8 := by decide +kernel
              omega
        · cases hl) (by
    intro i
    obtain ⟨start, rows, h1, h2⟩ := hlines i
    obtain ⟨start', rows', h1', h2'⟩ := hlines (i + 1)
    obtain ⟨e1, e2, e3, e4, e5⟩ := hinv i
    obtain ⟨e1', e2', e3', e4', e5'⟩ := hinv (i + 1)
    rw [h1, h1', e3, e3']
    intro hlt
    have l1 := option_len (selectAfter deref c0 (keys.take i)).d.query (hok i).height h2
    have l2 := option_len (selectAfter deref c0 (keys.take (i + 1))).d.query (hok (i + 1)).height h2'
    rw [e2] at l1
    rw [e2'] at l2
    simp only [List.length_append, hprompt] at hlt
    have hlt : (Choice.optionLines (selectAfter deref c0 (keys.take (i + 1))).d.filtered
        (selectAfter deref c0 (keys.take (i + 1))).d.query rows').length <
        (Choice.optionLines (selectAfter deref c0 (keys.take i)).d.filtered
        (selectAfter deref c0 (keys.take i)).d.query rows).length := by omega
    have hon : c0.filterable = true := by
      rcases hfil with hf | hf
      · exact hf
      · have hge : (selectAfter deref c0 (keys.take i)).d.filtered.length ≤
            (selectAfter deref c0 (keys.take (i + 1))).d.filtered.length ∨ c0.filterable = true := by
          rcases hstep i with e | ⟨k, hk, e⟩
          · rw [e]; exact .inl (Nat.le_refl _)
          · rcases (select_key deref _ k (hrune k hk) e5).2.2.2.2.2 with e' | e' | e'
            · rw [← e] at e'; rw [e']; exact .inl (Nat.le_refl _)
            · left
              rw [← e] at e'
              rw [e', e4, e1, List.filter_eq_self.2 (fun p _ => hf p)]
              exact (hsub i).length_le
            · right; rw [← e3]; exact e'
        rcases hge with hge | hon
        · omega
        · exact hon
    rw [hon]
    have hhd := promptText_head (selectAfter deref c0 (keys.take (i + 1))).d.query
    refine kept_parts rfl (by rw [hprompt, hprompt]) hlt (promptText _) rfl ?_ ?_
    · intro hx
      rcases option_mem h2 hx with e | e | ⟨n, p, _, e⟩
      · rw [e] at hhd; revert hhd; decide +kernel
      · rw [e] at hhd; revert hhd; decide +kernel
      · rw [e, Choice.C166_select_marker] at hhd
        revert hhd
        cases decide ((n : Int) = (selectAfter deref c0 (keys.take i)).d.cursor) <;> decide
    · show _ ∉ [[]]
      rw [List.mem_singleton]
      intro e
      rw [e] at hhd
      rcases hhd with e | e <;> cases e)
  obtain ⟨start, rows, h1, h2⟩ := hlines k
  refine ⟨k, start, rows, g1, ?_, h2, g3⟩
  rw [← h1]
  exact g2

/-! ### MultiSelect -/

/-- Model of multiselect.go:283-310 in a program whose View is the View of its list (default rendering). -/
def multiView (title : Choice.Bytes) (c : Choice.CM P) : List UInt8 :=
  ((Choice.MV.mk title c fun p _ f b => Choice.msDefaultRender (deref p) f b).view).getD []

/-- What a key leaves alone. -/
theorem multi_key (c : Choice.CM P) (k : KeyMsg) (hk : k.type = .rune → Ascii k.rune) (hq : ∀ b ∈ c.d.query, Print b) :
    let c' := (c.handleKey deref k).1
    c'.d.options = c.d.options ∧ c'.d.height = c.d.height ∧ c'.filterable = c.filterable ∧
    (∀ b ∈ c'.d.query, Print b) := by
  unfold Choice.CM.handleKey
  split
  · exact ⟨rfl, rfl, rfl, hq⟩
  · exact ⟨rfl, rfl, rfl, hq⟩
  · exact ⟨rfl, rfl, rfl, hq⟩
  · exact ⟨rfl, rfl, rfl, hq⟩
  · have hsel : c.d.toggle = c.d ∨ ∃ i, c.d.toggle = { c.d with sel := i } := by
      unfold Choice.MS.toggle
      split
      · exact .inr ⟨_, rfl⟩
      · exact .inl rfl
    rcases hsel with e | ⟨i, e⟩ <;> rw [e] <;> exact ⟨rfl, rfl, rfl, hq⟩
  · exact ⟨rfl, rfl, rfl, hq⟩
  · exact ⟨rfl, rfl, rfl, hq⟩
  · split <;> exact ⟨rfl, rfl, rfl, hq⟩
  · exact ⟨rfl, rfl, rfl, fun b hb => (by cases hb)⟩
  · exact ⟨rfl, rfl, rfl, hq⟩
  · cases hfi : Choice.filterInput c.filterable .none c.d.query k with
    | none => exact ⟨rfl, rfl, rfl, hq⟩
    | some q =>
      refine ⟨rfl, rfl, rfl, ?_⟩
      show ∀ b ∈ q, Print b
      unfold Choice.filterInput at hfi
      split at hfi
      · cases hfi
      · split at hfi
        · split at hfi
          · cases hfi
          · rename_i ht _
            cases hfi
            refine print_app hq ?_
            have := print_utf8 (s := [k.rune]) (by simpa using hk ht)
            simpa [Choice.utf8, Choice.runeBytes] using this
        · split at hfi
          · split at hfi
            · cases hfi
              exact fun b hb => hq b (List.dropLast_subset _ hb)
            · cases hfi
          · cases hfi

theorem multiAfter_run (ops : List (Choice.MOp P)) (ks : List KeyMsg) :
    multiAfter deref (Choice.CM.run dflt deref (Choice.CM.new dflt) ops) ks =
      Choice.CM.run dflt deref (Choice.CM.new dflt) (ops ++ ks.map .key) := by
  unfold multiAfter Choice.CM.run
  rw [List.foldl_append, List.foldl_map]
  rfl

/-- The help line. -/
def helpText : List UInt8 := Choice.lit "  a: all  n: none  Space: toggle  Enter: confirm"

/-- The lines of a MultiSelect list (C167). -/
theorem multi_lines (title : Choice.Bytes) (ops : List (Choice.MOp P)) :
    let c := Choice.CM.run dflt deref (Choice.CM.new dflt) ops
    c.d.options.Nodup → (∀ p ∈ c.d.options, AsciiOpt (deref p)) →
    ∃ start rows, ∃ sel : P → Bool, (∀ p ∈ c.d.options, sel p = true ↔ Choice.IsSelected c p) ∧
      Choice.screenLines (multiView deref title c) =
        Choice.titleLines title (Choice.counterText c) ++ Choice.optionLines c.d.filtered c.d.query rows ++
        Choice.filterLines c.filterable c.d.query ++ [[], helpText] ∧
      Choice.ShowsOptions c.d.filtered c.d.cursor c.d.height
        (fun i p => Choice.multiText (deref p) (decide ((i : Int) = c.d.cursor)) (sel p)) start rows := by
  intro c hnd hp
  have hnl : ∀ s : List Char, (∀ c ∈ s, Ascii c) → '\n' ∉ s := fun s hs hm => absurd (hs _ hm).1 (by decide)
  have hrun : ∀ (ops : List (Choice.MOp P)) (s : Choice.MV P), (Choice.MV.run dflt deref s (ops.map .op)).c =
      Choice.CM.run dflt deref s.c ops := by
    intro ops
    induction ops with
    | nil => intro s; rfl
    | cons op ops ih =>
      intro s
      have := ih (Choice.MV.step dflt deref s (.op op))
      rw [List.map_cons]
      refine this.trans ?_
      cases op <;> rfl
  have hc' : (Choice.MV.run dflt deref (Choice.MV.new dflt deref title) (ops.map .op)).c = c := hrun ops _
  have h := Choice.C167_multiselect_default dflt deref title ops
  simp only [hc'] at h
  obtain ⟨_, text, start, rows, sel, hv, hsel, hl, hs⟩ := h hnd (fun p hpm => ⟨hnl _ (hp p hpm).1, hnl _ (hp p hpm).2⟩)
  refine ⟨start, rows, sel, hsel, ?_, hs⟩
  have hren : (Choice.MV.run dflt deref (Choice.MV.new dflt deref title) (ops.map .op)).render =
      fun p _ f b => Choice.msDefaultRender (deref p) f b := by
    have : ∀ (ops : List (Choice.MOp P)) (s : Choice.MV P), s.render = (fun p _ f b => Choice.msDefaultRender (deref p) f b) →
        (Choice.MV.run dflt deref s (ops.map .op)).render = fun p _ f b => Choice.msDefaultRender (deref p) f b := by
      intro ops
      induction ops with
      | nil => intro s h; exact h
      | cons op ops ih =>
        intro s h
        exact ih (Choice.MV.step dflt deref s (.op op)) (by cases op <;> first | exact h | rfl)
    exact this ops _ rfl
  have heq : Choice.MV.run dflt deref (Choice.MV.new dflt deref title) (ops.map .op) =
      ⟨title, c, fun p _ f b => Choice.msDefaultRender (deref p) f b⟩ := by
    have ht := (Choice.mv_ok dflt deref title (ops.map .op)).2
    generalize Choice.MV.run dflt deref (Choice.MV.new dflt deref title) (ops.map .op) = s at hc' ht hren
    cases s
    simp only at hc' ht hren
    rw [hc', ht, hren]
  rw [heq] at hv
  unfold multiView
  rw [hv]
  exact hl

theorem print_decimal (n : Nat) : ∀ b ∈ Choice.decimal n, Print b := by
  intro b hb
  obtain ⟨x, hx, rfl⟩ := List.mem_map.1 hb
  have := Dec.nat_digits n x hx
  simp only [Dec.isDigit, Bool.and_eq_true, decide_eq_true_eq] at this
  have e : (UInt8.ofNat x).toNat = x := by
    rw [UInt8.toNat_ofNat']; exact Nat.mod_eq_of_lt (by omega)
  exact ⟨by rw [e]; omega, by rw [e]; omega⟩

theorem print_counter (c : Choice.CM P) : ∀ b ∈ Choice.counterText c, Print b := by
  unfold Choice.counterText
  split
  · intro b hb; cases hb
  · exact print_app (print_app (print_app (print_app (print_lit _ (by simp)) (print_decimal _)) (print_lit _ (by simp)))
      (print_decimal _)) (print_lit _ (by simp))

/-- The list fits the terminal. -/
structure MultiFits (d : Dev Pen) (title : Choice.Bytes) (c : Choice.CM P) : Prop where
  title : ∀ b ∈ title, Print b
  distinct : c.d.options.Nodup
  opts : ∀ p ∈ c.d.options, AsciiOpt (deref p) ∧ ∀ b b', (Choice.multiText (deref p) b b').length < d.W
  help : 48 < d.W
  height : c.d.height + 6 ≤ d.H
  query : ∀ b ∈ c.d.query, Print b

/-- The title with the counter and a blank line, if there is a title. -/
def countedLines (title : Choice.Bytes) (c : Choice.CM P) : List (List UInt8) :=
  if title = [] then [] else [title ++ Choice.counterText c, []]

/-- C202, MultiSelect: as for Select, with the selection counter behind the title, "[x]" in front of exactly the selected
options and the help line at the end (distinct options; any filter). -/
theorem C202_multiselect_screen {d : Dev Pen} (hd : ∀ c, Ascii c → d.tw c = 1) {t0 : TT Pen} (h0 : Ready d t0) {cap : Nat}
    (title : Choice.Bytes) (ops : List (Choice.MOp P)) {chunks : List (List Nat)}
    {f : KeyScreen.St (DMsg (List V)) (M (Choice.CM P) (List V)) Pen} :
    let c0 := Choice.CM.run dflt deref (Choice.CM.new dflt) ops
    let keys := Input.messages chunks
    MultiFits deref d title c0 →
    (∀ k ∈ keys, k.type = .rune → Ascii k.rune) →
    (∀ i, (multiAfter deref c0 (keys.take i)).d.query.length + 8 < d.W ∧
      (title ++ Choice.counterText (multiAfter deref c0 (keys.take i))).length < d.W) →
    KeyScreen.Reach (app (multiComp deref c0)) (fun m => ascii (multiView deref title m.comp)) (fun _ => none) cap .key d t0
      chunks f → Alone f.s →
    ∃ k start rows, ∃ sel : P → Bool, let c := multiAfter deref c0 (keys.take k)
      f.s.p.model.comp = c ∧
      ShowsLines d t0 f.scr.2
        (countedLines title c ++ Choice.optionLines c.d.filtered c.d.query rows ++
          promptLines c.filterable c.d.query ++ [[], helpText]) ∧
      (∀ p ∈ c.d.options, sel p = true ↔ Choice.IsSelected c p) ∧
      Choice.ShowsOptions c.d.filtered c.d.cursor c.d.height
        (fun i p => Choice.multiText (deref p) (decide ((i : Int) = c.d.cursor)) (sel p)) start rows ∧
      (f.s.stolen = 0 → f.s.cancelled = false → f.s.p.loop = .select → f.s.p.queue = [] → f.s.ended = true →
        keys.length ≤ k) := by
  intro c0 keys hfit hrune hqw h ha
  have hinv : ∀ i, let c := multiAfter deref c0 (keys.take i)
      c.d.options = c0.d.options ∧ c.d.height = c0.d.height ∧ c.filterable = c0.filterable ∧ ∀ b ∈ c.d.query, Print b := by
    have : ∀ (ks : List KeyMsg) (c1 : Choice.CM P), (∀ k ∈ ks, k.type = .rune → Ascii k.rune) → (∀ b ∈ c1.d.query, Print b) →
        let c := multiAfter deref c1 ks
        c.d.options = c1.d.options ∧ c.d.height = c1.d.height ∧ c.filterable = c1.filterable ∧ ∀ b ∈ c.d.query, Print b := by
      intro ks
      induction ks with
      | nil => intro c1 _ hq; exact ⟨rfl, rfl, rfl, hq⟩
      | cons k ks ih =>
        intro c1 hr hq
        obtain ⟨e1, e2, e3, e5⟩ := multi_key deref c1 k (hr k List.mem_cons_self) hq
        obtain ⟨g1, g2, g3, g5⟩ := ih _ (fun x hx => hr x (List.mem_cons_of_mem _ hx)) e5
        exact ⟨g1.trans e1, g2.trans e2, g3.trans e3, g5⟩
    intro i
    exact this _ _ (fun k hk => hrune k (List.mem_of_mem_take hk)) hfit.query
  have hrun : ∀ i, multiAfter deref c0 (keys.take i) =
      Choice.CM.run dflt deref (Choice.CM.new dflt) (ops ++ (keys.take i).map .key) :=
    fun i => multiAfter_run dflt deref ops _
  have hlines : ∀ i, ∃ start rows, ∃ sel : P → Bool, let c := multiAfter deref c0 (keys.take i)
      (∀ p ∈ c.d.options, sel p = true ↔ Choice.IsSelected c p) ∧
      Choice.screenLines (multiView deref title c) =
        countedLines title c ++ Choice.optionLines c.d.filtered c.d.query rows ++
          promptLines c.filterable c.d.query ++ [[], helpText] ∧
      Choice.ShowsOptions c.d.filtered c.d.cursor c.d.height
        (fun i p => Choice.multiText (deref p) (decide ((i : Int) = c.d.cursor)) (sel p)) start rows := by
    intro i
    obtain ⟨e1, e2, e3, e5⟩ := hinv i
    have := multi_lines dflt deref title (ops ++ (keys.take i).map .key)
    rw [← hrun i] at this
    obtain ⟨start, rows, sel, hsel, h1, h2⟩ := this (by rw [e1]; exact hfit.distinct)
      (by rw [e1]; exact fun p hp => (hfit.opts p hp).1)
    refine ⟨start, rows, sel, hsel, ?_, h2⟩
    rw [h1, filterLines_print e5, titleLines_print (print_app hfit.title (print_counter _))]
    rfl
  have hok : ∀ i, (multiAfter deref c0 (keys.take i)).Ok := by
    intro i; rw [hrun i]; exact Choice.cm_ok_run dflt deref _
  have hsub : ∀ i, ∀ p ∈ (multiAfter deref c0 (keys.take i)).d.filtered, p ∈ c0.d.options := by
    intro i
    rw [← (hinv i).1]
    exact (hok i).sub
  have hprompt : ∀ on (q : Choice.Bytes), (promptLines on q).length = if on then 2 else 0 := by
    intro on q; cases on <;> rfl
  have hhead : ∀ c : Choice.CM P, (countedLines title c).length = if title = [] then 0 else 2 := by
    intro c; unfold countedLines; split <;> rfl
  have hhelp : helpText.length = 48 := by decide +kernel
  obtain ⟨k, g1, g2, g3⟩ := dialog_lines (bv := multiView deref title) h ha hd (by have := hfit.help; omega) h0
    (fun i => Choice.screenLines (multiView deref title (multiAfter deref c0 (keys.take i)))) (fun i => rfl) (by
    intro i
    obtain ⟨start, rows, sel, hsel, h1, h2⟩ := hlines i
    obtain ⟨e1, e2, e3, e5⟩ := hinv i
    rw [h1]
    constructor
    · have := option_len (multiAfter deref c0 (keys.take i)).d.query (hok i).height h2
      rw [List.length_append, List.length_append, List.length_append, hprompt, hhead]
      have := hfit.height
      have := (hok i).height
      rw [e2] at *
      simp only [List.length_cons, List.length_nil]
      split <;> split <;> omega
    · have hempty : ([] : List UInt8).length < d.W ∧ ∀ b ∈ ([] : List UInt8), Print b :=
        ⟨by have := hfit.help; simp; omega, fun b hb => (by cases hb)⟩
      intro l hl
      rcases List.mem_append.1 hl with hl | hl
      · rcases List.mem_append.1 hl with hl | hl
        · rcases List.mem_append.1 hl with hl | hl
          · unfold countedLines at hl
            split at hl
            · cases hl
            · rcases List.mem_cons.1 hl with rfl | hl
              · exact ⟨(hqw i).2, print_app hfit.title (print_counter _)⟩
              · rw [List.mem_singleton.1 hl]
                exact hempty
          · have hw := hfit.help
            rcases option_mem h2 hl with rfl | rfl | ⟨n, p, hp, rfl⟩
            · exact ⟨Nat.lt_trans (by decide : _ < 48) hw, print_lit _ (by simp)⟩
            · exact ⟨Nat.lt_trans (by decide : _ < 48) hw, print_lit _ (by simp)⟩
            · have hp := hsub i p hp
              exact ⟨(hfit.opts p hp).2 _ _, multiText_print (hfit.opts p hp).1 _ _⟩
        · unfold promptLines at hl
          split at hl
          · rcases List.mem_cons.1 hl with rfl | hl
            · exact hempty
            · rw [List.mem_singleton.1 hl]
              unfold promptText
              split
              · exact ⟨Nat.lt_trans (by decide : _ < 48) hfit.help, print_lit _ (by simp)⟩
              · refine ⟨?_, print_app (print_lit _ (by simp)) e5⟩
                rw [List.length_append]
                have := (hqw i).1
                have e : (Choice.lit "Filter: ").length = 8 := by decide +kernel
                omega
          · cases hl
      · rcases List.mem_cons.1 hl with rfl | hl
        · exact hempty
        · rw [List.mem_singleton.1 hl, hhelp]
          exact ⟨hfit.help, print_lit _ (by simp)⟩) (by
    intro i
    obtain ⟨start, rows, sel, hsel, h1, h2⟩ := hlines i
    obtain ⟨start', rows', sel', hsel', h1', h2'⟩ := hlines (i + 1)
    obtain ⟨e1, e2, e3, e5⟩ := hinv i
    obtain ⟨e1', e2', e3', e5'⟩ := hinv (i + 1)
    rw [h1, h1', e3, e3']
    intro hlt
    simp only [List.length_append, hprompt, hhead] at hlt
    have hlt : (Choice.optionLines (multiAfter deref c0 (keys.take (i + 1))).d.filtered
        (multiAfter deref c0 (keys.take (i + 1))).d.query rows').length <
        (Choice.optionLines (multiAfter deref c0 (keys.take i)).d.filtered
        (multiAfter deref c0 (keys.take i)).d.query rows).length := by omega
    rw [List.append_assoc _ (promptLines _ _), List.append_assoc _ (promptLines _ _)]
    refine kept_parts (by rw [hhead, hhead]) (by rw [List.length_append, List.length_append, hprompt, hprompt]) hlt helpText
      (by rw [List.getLast?_append]; rfl) ?_ ?_
    · intro hx
      have hh2 : helpText[2]? = some 97 := by decide +kernel
      rcases option_mem h2 hx with e | e | ⟨n, p, _, e⟩
      · rw [e] at hh2; revert hh2; decide +kernel
      · rw [e] at hh2; revert hh2; decide +kernel
      · rw [e] at hh2
        have h4 : ∀ (o : Choice.Opt V) b b', (Choice.multiText o b b')[2]? = some 91 := by
          intro o b b'; cases b <;> cases b' <;> rfl
        rw [h4] at hh2
        cases hh2
    · rw [List.dropLast_append_of_ne_nil (by simp)]
      show _ ∉ promptLines _ _ ++ [[]]
      intro hx
      have hh0 : helpText.head? = some 32 := by decide +kernel
      rcases List.mem_append.1 hx with hx | hx
      · unfold promptLines at hx
        split at hx
        · rcases List.mem_cons.1 hx with e | hx
          · rw [e] at hh0; cases hh0
          · rw [List.mem_singleton.1 hx] at hh0
            rcases promptText_head (multiAfter deref c0 (keys.take i)).d.query with e | e <;> rw [hh0] at e <;> cases e
        · cases hx
      · rw [List.mem_singleton.1 hx] at hh0; cases hh0)
  obtain ⟨start, rows, sel, hsel, h1, h2⟩ := hlines k
  refine ⟨k, start, rows, sel, g1, ?_, hsel, h2, g3⟩
  rw [← h1]
  exact g2

end

/-! ### The hypotheses are met -/

/-- A terminal of 60 columns and 20 rows. -/
def demoWide : Dev Bool where
  W := 60
  H := 20
  tw := fun _ => 1
  p0 := false
  sgr := fun _ s => decide (s = ['7'])
  osc := fun p _ => p

theorem demoWide_ready : Ready demoWide demoTop :=
  ⟨rfl, rfl, rfl, rfl, by decide, by decide, fun i hi j => rfl⟩

def demoOpt (n : Nat) : Choice.Opt Nat := ⟨['o', if n = 0 then 'a' else 'b'], n, [], false⟩

def demoSelect : Choice.CS Nat := Choice.CS.run (fun _ _ => true) demoOpt (Choice.CS.new fun _ _ => true) [.options [0, 1]]

theorem demoOpt_ascii (n : Nat) : AsciiOpt (demoOpt n) := by
  constructor
  · intro c hc
    unfold demoOpt at hc
    simp only [List.mem_cons, List.not_mem_nil, or_false] at hc
    rcases hc with rfl | rfl
    · exact ⟨by decide, by decide⟩
    · split <;> exact ⟨by decide, by decide⟩
  · intro c hc; cases hc

theorem demoOpt_len (n : Nat) (b : Bool) : (Choice.selectText (demoOpt n) b).length < 60 := by
  have h : ∀ c ∈ ['a', 'b'], ∀ b, (Choice.selectText (⟨['o', c], (), [], false⟩ : Choice.Opt Unit) b).length < 60 := by
    decide +kernel
  exact h (if n = 0 then 'a' else 'b') (by split <;> simp) b

/-- `j` is typed; in a terminal state with everything handled the second row of options carries the mark. -/
example : ∃ f, KeyScreen.Reach (app (selectComp demoOpt demoSelect))
      (fun m => ascii (selectView demoOpt [84] m.comp)) (fun _ => none) 100 .key demoWide demoTop [[106]] f ∧
    Alone f.s ∧ f.scr.2.rows 0 0 = ⟨['T'], false, false⟩ ∧ f.scr.2.rows 2 0 = ⟨[' '], false, false⟩ ∧
    f.scr.2.rows 3 0 = ⟨['>'], false, false⟩ ∧ f.scr.2.rows 3 3 = ⟨['b'], false, false⟩ := by
  let a := app (selectComp demoOpt demoSelect)
  let chunks : List (List Nat) := [[106]]
  have r : Typing.Reach a 100 .key chunks (Typing.start a chunks) := .start
  have r := Typing.Reach.step _ _ r (.read _ (some { type := .rune, rune := 'j' }) ⟨[], []⟩ rfl rfl rfl)
  have r := Typing.Reach.step _ _ r (.put _ (.key { type := .rune, rune := 'j' }) rfl rfl (by decide))
  have r := Typing.Reach.step _ _ r (.eof _ rfl rfl rfl)
  have r := Typing.Reach.step _ _ r (.prog _ _ (.recv _ _ _ rfl rfl))
  have r := Typing.Reach.step _ _ r (.prog _ _ (.update _ _ rfl))
  obtain ⟨f, hf, e⟩ := KeyScreen.reach_of_typing a (fun m => ascii (selectView demoOpt [84] m.comp)) (fun _ => none) 100
    .key demoWide demoTop chunks r
  refine ⟨f, hf, by rw [e]; rfl, ?_⟩
  have hk : Input.messages chunks = [{ type := .rune, rune := 'j' }] := by decide +kernel
  obtain ⟨k, start, rows, h1, h2, h3, h4⟩ := C202_select_screen (fun _ _ => true) demoOpt (d := demoWide) (fun _ _ => rfl)
    demoWide_ready (cap := 100) [84] [.options [0, 1]] (chunks := chunks)
    ⟨by decide, fun p _ => ⟨demoOpt_ascii p, fun b => demoOpt_len p b⟩, by decide,
      by decide, by decide⟩
    (.inr fun _ => rfl)
    (by rw [hk]; intro k hk; rw [List.mem_singleton.1 hk]; exact fun _ => ⟨by decide, by decide⟩)
    (by
      rw [hk]
      intro i
      cases i with
      | zero => decide +kernel
      | succ i => rw [List.take_of_length_le (by simp)]; decide +kernel) hf (by rw [e] <;> rfl)
  have hkl := h4 (by rw [e] <;> rfl) (by rw [e] <;> rfl) (by rw [e] <;> rfl) (by rw [e] <;> rfl) (by rw [e] <;> rfl)
  rw [hk] at hkl h2 h3
  rw [List.take_of_length_le hkl] at h2 h3
  obtain ⟨c, hc⟩ : ∃ c, c = selectAfter demoOpt demoSelect [{ type := .rune, rune := 'j' }] := ⟨_, rfl⟩
  have hfl : c.d.filtered = [0, 1] := by rw [hc]; decide +kernel
  have hcu : c.d.cursor = 1 ∧ c.d.height = 10 ∧ c.filterable = false := by rw [hc]; decide +kernel
  have h2 : ShowsLines demoWide demoTop f.scr.2 (headLines [84] ++ Choice.optionLines c.d.filtered c.d.query rows ++
    promptLines c.filterable c.d.query) := by rw [hc]; exact h2
  have h3 : Choice.ShowsOptions c.d.filtered c.d.cursor c.d.height
    (fun i p => Choice.selectText (demoOpt p) (decide ((i : Int) = c.d.cursor))) start rows := by rw [hc]; exact h3
  rw [hfl, hcu.1, hcu.2.1] at h3
  rw [hfl, hcu.2.2] at h2
  have hlen : rows.length = 2 := by
    have : (rows.length : Int) = 2 := h3.count
    omega
  obtain ⟨p0, e0, r0⟩ := h3.each 0 (by omega)
  obtain ⟨p1, e1, r1⟩ := h3.each 1 (by omega)
  have hst : start = 0 := by
    have : start + 1 < [0, 1].length := (List.getElem?_eq_some_iff.1 e1).1
    have : start + 1 < 2 := this
    omega
  subst hst
  cases e0
  cases e1
  match rows, hlen, r0, r1 with
  | [_, _], _, rfl, rfl =>
    refine ⟨?_, ?_, ?_, ?_⟩
    · exact (h2.rows 0 [84] rfl 0)
    · exact (h2.rows 2 _ rfl 0)
    · exact (h2.rows 3 _ rfl 0)
    · exact (h2.rows 3 _ rfl 3)

def demoMulti : Choice.CM Nat := Choice.CM.run (fun _ _ => true) demoOpt (Choice.CM.new fun _ _ => true)
  [.options [0, 1], .selected [0]]

/-- The list with two options fits; so C202_multiselect_screen speaks about every execution of this program in which `j`
and a blank are typed. -/
example : MultiFits demoOpt demoWide [84] demoMulti ∧
    (∀ k ∈ Input.messages [[106, 32]], k.type = .rune → Ascii k.rune) ∧
    ∀ i, (multiAfter demoOpt demoMulti ((Input.messages [[106, 32]]).take i)).d.query.length + 8 < demoWide.W ∧
      ([84] ++ Choice.counterText (multiAfter demoOpt demoMulti ((Input.messages [[106, 32]]).take i))).length < demoWide.W := by
  refine ⟨⟨by decide, by decide, fun p _ => ⟨demoOpt_ascii p, fun b b' => ?_⟩, by decide, by decide, by decide⟩, ?_, ?_⟩
  · have h : ∀ c ∈ ['a', 'b'], ∀ b b', (Choice.multiText (⟨['o', c], (), [], false⟩ : Choice.Opt Unit) b b').length < 60 := by
      decide +kernel
    exact h (if p = 0 then 'a' else 'b') (by split <;> simp) b b'
  · have hk : Input.messages [[106, 32]] = [{ type := .rune, rune := 'j' }, { type := .space, rune := ' ' }] ∨
      Input.messages [[106, 32]] = [{ type := .rune, rune := 'j' }, { type := .space }] := by decide +kernel
    rcases hk with hk | hk <;> rw [hk] <;> intro k hk <;> rcases List.mem_cons.1 hk with rfl | hk
    · exact fun _ => ⟨by decide, by decide⟩
    · rw [List.mem_singleton.1 hk]; exact fun e => by cases e
    · exact fun _ => ⟨by decide, by decide⟩
    · rw [List.mem_singleton.1 hk]; exact fun e => by cases e
  · have h : ∀ i < 3, (multiAfter demoOpt demoMulti ((Input.messages [[106, 32]]).take i)).d.query.length + 8 < demoWide.W ∧
      ([84] ++ Choice.counterText (multiAfter demoOpt demoMulti ((Input.messages [[106, 32]]).take i))).length < demoWide.W := by
      decide +kernel
    intro i
    by_cases hi : i < 3
    · exact h i hi
    · have e : (Input.messages [[106, 32]]).length = 2 := by decide +kernel
      have := h 2 (by decide)
      rw [List.take_of_length_le (by omega)] at this ⊢
      exact this

/-! ### Confirm -/

/-- Model of components/confirm/confirm.go:197-216 in a program whose View is the View of its dialog. -/
def confirmView (s : Confirm.CV) (c : Confirm.Confirm) : List UInt8 := ({ s with c := c } : Confirm.CV).view

theorem handleKey_buttons (c : Confirm.Confirm) (k : KeyMsg) : (Confirm.update c (.key k)).1.buttons = c.buttons := by
  have hconf : ∀ c : Confirm.Confirm, (Confirm.confirm c).buttons = c.buttons := by
    intro c; unfold Confirm.confirm; split <;> rfl
  unfold Confirm.update
  split
  · rfl
  · show (Confirm.handleKey c k).1.buttons = _
    unfold Confirm.handleKey
    split
    · rfl
    · rfl
    · exact hconf c
    · rfl
    · show (Confirm.confirmKey c k.rune.toNat).buttons = _
      unfold Confirm.confirmKey
      split
      · exact hconf _
      · rfl
    · rfl

theorem confirmed_buttons (ks : List KeyMsg) : ∀ d : Confirm.Confirm, (confirmed d ks).buttons = d.buttons := by
  induction ks with
  | nil => intro d; rfl
  | cons k ks ih =>
    intro d
    have e : confirmed d (k :: ks) = confirmed (Confirm.update d (.key k)).1 ks := rfl
    rw [e, ih, handleKey_buttons]

theorem buttonLine_print {ls : List (List UInt8)} (h : ∀ l ∈ ls, ∀ b ∈ l, Print b) (f : Int) :
    ∀ b ∈ Confirm.buttonLine f ls, Print b := by
  have hone : ∀ x : List UInt8 × Nat, x.1 ∈ ls → ∀ b ∈ (if (x.2 : Int) = f then [91, 32] ++ x.1 ++ [32, 93]
      else [40, 32] ++ x.1 ++ [32, 41]), Print b := by
    intro x hx
    split
    · exact print_app (print_app (by decide) (h _ hx)) (by decide)
    · exact print_app (print_app (by decide) (h _ hx)) (by decide)
  unfold Confirm.buttonLine
  cases ls with
  | nil => intro b hb; cases hb
  | cons l ls =>
    rw [List.zipIdx_cons, List.map_cons, Confirm.intercalate_eq]
    refine print_app (hone (l, 0) List.mem_cons_self) ?_
    intro b hb
    obtain ⟨y, hy, hb⟩ := List.mem_flatMap.1 hb
    obtain ⟨x, hx, rfl⟩ := List.mem_map.1 hy
    have hmem : x.1 ∈ ls := by
      obtain ⟨x1, x2⟩ := x
      obtain ⟨_, _, e⟩ := List.mem_zipIdx hx
      show x1 ∈ ls
      rw [e]; exact List.getElem_mem _
    exact print_app (by decide) (hone x (List.mem_cons_of_mem _ hmem)) b hb

/-- The dialog fits the terminal: printable texts, narrower than the terminal; four rows. -/
structure ConfirmFits (d : Dev Pen) (s : Confirm.CV) : Prop where
  title : (∀ b ∈ s.title, Print b) ∧ s.title.length < d.W
  description : (∀ b ∈ s.description, Print b) ∧ s.description.length < d.W
  labels : ∀ l ∈ s.c.buttons, ∀ b ∈ l, Print b
  buttons : ∀ f, (Confirm.buttonLine f s.c.buttons).length < d.W
  height : 4 ≤ d.H

/-- C203.  A program around a confirmation dialog (any history of public calls before it starts) that stores the answer
and quits, running inline in a terminal the dialog fits; keys as bytes in any pieces, nobody else sending messages.  In
every execution, at every moment, for some number `k` of the first keys the terminal shows, cell by cell, exactly the
title, the description if there is one, a blank line and the buttons of the dialog, square brackets around the one that is
focused after these `k` keys; rows above are as they were, rows below are empty.  When the input is read and the program is
idle `k` covers all keys. -/
theorem C203_confirm_screen {d : Dev Pen} (hd : ∀ c, Ascii c → d.tw c = 1) {t0 : TT Pen} (h0 : Ready d t0) {cap : Nat}
    (title : List UInt8) (ops : List Confirm.VOp) {chunks : List (List Nat)}
    {f : KeyScreen.St (DMsg Confirm.Result) (M Confirm.Confirm Confirm.Result) Pen} :
    let s := (Confirm.CV.new title).run ops
    let keys := Input.messages chunks
    ConfirmFits d s →
    KeyScreen.Reach (app (confirmComp s.c)) (fun m => ascii (confirmView s m.comp)) (fun _ => none) cap .key d t0
      chunks f → Alone f.s →
    ∃ k, f.s.p.model.comp = confirmed s.c (keys.take k) ∧
      ShowsLines d t0 f.scr.2
        ([title] ++ (if lastSaid Confirm.descriptionSays [] ops = [] then [] else [lastSaid Confirm.descriptionSays [] ops]) ++
          [[], Confirm.buttonLine (confirmed s.c (keys.take k)).focused s.c.buttons]) ∧
      (f.s.stolen = 0 → f.s.cancelled = false → f.s.p.loop = .select → f.s.p.queue = [] → f.s.ended = true →
        keys.length ≤ k) := by
  intro s keys hfit h ha
  have htitle : s.title = title := (Confirm.cv_run title ops).2
  have hdesc : s.description = lastSaid Confirm.descriptionSays [] ops := Confirm.cv_description title ops
  have hone : ∀ l : List UInt8, (∀ b ∈ l, Print b) → Choice.screenLines l = [l] := fun l hl =>
    Choice.screenLines_one (print_no10 hl)
  have hbl : ∀ f : Int, ∀ b ∈ Confirm.buttonLine f s.c.buttons, Print b := fun f => buttonLine_print hfit.labels f
  have hafter : ∀ i, after (confirmComp s.c) (keys.take i) = confirmed s.c (keys.take i) := fun i => rfl
  obtain ⟨k, g1, g2, g3⟩ := dialog_lines (bv := confirmView s) h ha hd (by have := hfit.title.2; omega) h0
    (fun i => [title] ++ (if lastSaid Confirm.descriptionSays [] ops = [] then [] else [lastSaid Confirm.descriptionSays [] ops]) ++
          [[], Confirm.buttonLine (confirmed s.c (keys.take i)).focused s.c.buttons]) (by
    intro i
    rw [hafter i]
    unfold confirmView
    rw [Confirm.view_lines]
    show Confirm.dialogLines s.title s.description (confirmed s.c (keys.take i)).focused (confirmed s.c (keys.take i)).buttons = _
    rw [confirmed_buttons]
    unfold Confirm.dialogLines
    rw [hone _ (hbl _), hone _ hfit.title.1, hone _ hfit.description.1, htitle, hdesc, List.append_assoc _ [[]]]
    rfl) (by
    intro i
    have ht := hfit.title
    have hde := hfit.description
    rw [htitle] at ht
    rw [hdesc] at hde
    refine ⟨?_, ?_⟩
    · have := hfit.height
      split <;> simp <;> omega
    · intro l hl
      rcases List.mem_append.1 hl with hl | hl
      · rcases List.mem_append.1 hl with hl | hl
        · rw [List.mem_singleton.1 hl]; exact ⟨ht.2, ht.1⟩
        · split at hl
          · cases hl
          · rw [List.mem_singleton.1 hl]; exact ⟨hde.2, hde.1⟩
      · rcases List.mem_cons.1 hl with rfl | hl
        · exact ⟨by show 0 < d.W; have := ht.2; omega, fun b hb => (by cases hb)⟩
        · rw [List.mem_singleton.1 hl]; exact ⟨hfit.buttons _, hbl _⟩) (by
    intro i hlt
    simp only [List.length_append, List.length_cons, List.length_nil] at hlt
    omega)
  exact ⟨k, g1, g2, g3⟩

/-- The hypotheses are met: Left is typed (as an escape sequence), "Yes" is in square brackets. -/
example : ∃ f, KeyScreen.Reach (app (confirmComp (Confirm.CV.new [83, 63]).c))
      (fun m => ascii (confirmView (Confirm.CV.new [83, 63]) m.comp)) (fun _ => none) 100 .key demoWide demoTop [[27, 91, 68]] f ∧
    Alone f.s ∧ f.scr.2.rows 0 0 = ⟨['S'], false, false⟩ ∧
    f.scr.2.rows 2 0 = ⟨['['], false, false⟩ ∧ f.scr.2.rows 2 2 = ⟨['Y'], false, false⟩ := by
  let a := app (confirmComp (Confirm.CV.new [83, 63]).c)
  let chunks : List (List Nat) := [[27, 91, 68]]
  have r : Typing.Reach a 100 .key chunks (Typing.start a chunks) := .start
  have r := Typing.Reach.step _ _ r (.read _ (some { type := .left }) ⟨[], []⟩ rfl rfl rfl)
  have r := Typing.Reach.step _ _ r (.put _ (.key { type := .left }) rfl rfl (by decide))
  have r := Typing.Reach.step _ _ r (.eof _ rfl rfl rfl)
  have r := Typing.Reach.step _ _ r (.prog _ _ (.recv _ _ _ rfl rfl))
  have r := Typing.Reach.step _ _ r (.prog _ _ (.update _ _ rfl))
  obtain ⟨f, hf, e⟩ := KeyScreen.reach_of_typing a (fun m => ascii (confirmView (Confirm.CV.new [83, 63]) m.comp))
    (fun _ => none) 100 .key demoWide demoTop chunks r
  refine ⟨f, hf, by rw [e]; rfl, ?_⟩
  have hk : Input.messages chunks = [{ type := .left }] := by decide +kernel
  obtain ⟨k, _, h2, h4⟩ := C203_confirm_screen (d := demoWide) (fun _ _ => rfl) demoWide_ready (cap := 100) [83, 63] []
    (chunks := chunks) ⟨by decide, by decide, by decide, fun f => by
      show (Confirm.buttonLine f [_, _]).length < 60
      unfold Confirm.buttonLine
      simp only [List.zipIdx_cons, List.zipIdx_nil, List.map_cons, List.map_nil]
      split <;> split <;> decide, by decide⟩ hf (by rw [e] <;> rfl)
  have hkl := h4 (by rw [e] <;> rfl) (by rw [e] <;> rfl) (by rw [e] <;> rfl) (by rw [e] <;> rfl) (by rw [e] <;> rfl)
  rw [hk] at hkl h2
  rw [List.take_of_length_le hkl] at h2
  exact ⟨h2.rows 0 _ rfl 0, h2.rows 2 _ rfl 0, h2.rows 2 _ rfl 2⟩

end Phoenix.Dialog
