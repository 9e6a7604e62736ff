import Verif.Choice.ViewModel
import Verif.Choice.Props
import Verif.Util
set_option linter.unusedVariables false
set_option linter.unusedSimpArgs false
set_option linter.unusedSectionVars false
/-
C166-C168: what Select.View and MultiSelect.View show, and the default filter.
-/
namespace Phoenix.Choice

/-! ## specification -/

/-- The lines of a text: the pieces between newline bytes. -/
def screenLines : Bytes → List Bytes
  | [] => [[]]
  | b :: bs =>
    if b = 10 then [] :: screenLines bs
    else ((b :: (screenLines bs).headD []) :: (screenLines bs).tail)

theorem screenLines_ne (l : Bytes) : screenLines l ≠ [] := by
  cases l with
  | nil => simp [screenLines]
  | cons b l => unfold screenLines; split <;> simp

theorem screenLines_one {l : Bytes} (h : (10 : UInt8) ∉ l) : screenLines l = [l] := by
  induction l with
  | nil => rfl
  | cons b l ih =>
    simp only [List.mem_cons, not_or] at h
    unfold screenLines
    rw [if_neg (fun e => h.1 e.symm), ih h.2]
    rfl

theorem screenLines_cut (a b : Bytes) : screenLines (a ++ 10 :: b) = screenLines a ++ screenLines b := by
  induction a with
  | nil => simp only [List.nil_append, screenLines, if_true]; rfl
  | cons x a ih =>
    simp only [List.cons_append, screenLines, ih]
    by_cases hx : x = 10
    · rw [if_pos hx, if_pos hx, List.cons_append]
    · rw [if_neg hx, if_neg hx]
      cases e : screenLines a with
      | nil => exact absurd e (screenLines_ne a)
      | cons y ys => rfl

theorem byte_char {c : Char} (h : (10 : UInt8) ∈ String.utf8EncodeChar c) : c = '\n' := by
  unfold String.utf8EncodeChar at h
  simp only at h
  have key : c.val.toNat = 10 := by
    have hb := c.valid
    have hlt : c.val.toNat < 0x110000 := by
      rcases hb with hb | hb
      · have : c.val.toNat < 0xd800 := hb
        omega
      · exact hb.2
    have tn : ∀ n : Nat, (10 : UInt8) = UInt8.ofNat n → n % 256 = 10 := by
      intro n e
      have := congrArg UInt8.toNat e
      rw [UInt8.toNat_ofNat'] at this
      simpa using this.symm
    split at h
    · rename_i h'
      rw [List.mem_singleton] at h
      have := tn _ h
      omega
    · split at h
      · simp only [List.mem_cons, List.not_mem_nil, or_false] at h
        rcases h with h | h <;> (have := tn _ h; omega)
      · split at h
        · simp only [List.mem_cons, List.not_mem_nil, or_false] at h
          rcases h with h | h | h <;> (have := tn _ h; omega)
        · simp only [List.mem_cons, List.not_mem_nil, or_false] at h
          rcases h with h | h | h | h <;> (have := tn _ h; omega)
  apply Char.ext
  apply UInt32.toNat_inj.1
  rw [key]
  rfl

theorem no_newline {s : List Char} (h : '\n' ∉ s) : (10 : UInt8) ∉ utf8 s := by
  intro hm
  unfold utf8 at hm
  rw [List.mem_flatMap] at hm
  obtain ⟨c, hc, hb⟩ := hm
  exact h (byte_char hb ▸ hc)

theorem not_mem_app {a b : Bytes} (ha : (10 : UInt8) ∉ a) (hb : (10 : UInt8) ∉ b) : (10 : UInt8) ∉ a ++ b := by
  rw [List.mem_append]; exact fun h => h.elim ha hb

theorem lines_join {r : Bytes} {rs : List Bytes} (h : ∀ x ∈ r :: rs, (10 : UInt8) ∉ x) :
    screenLines (joinRows (r :: rs)) = r :: rs := by
  induction rs generalizing r with
  | nil =>
    simp only [joinRows, List.flatMap_nil, List.append_nil]
    exact screenLines_one (h r List.mem_cons_self)
  | cons x xs ih =>
    have ih := ih (fun y hy => h y (List.mem_cons_of_mem _ hy))
    simp only [joinRows] at ih
    simp only [joinRows, List.flatMap_cons, List.cons_append]
    rw [screenLines_cut, screenLines_one (h r List.mem_cons_self), ih]
    rfl

section
variable {P V : Type} [DecidableEq P]

/-- What a list part of a screen with the lines `rows` shows: `min height n` of the `n` options `shown`,
consecutive ones from number `start` on, each on its own line with the text `text number option`, the
option number `cursor` among them. -/
structure ShowsOptions (shown : List P) (cursor height : Int) (text : Nat → P → Bytes) (start : Nat)
    (rows : List Bytes) : Prop where
  count : (rows.length : Int) = min height shown.length
  each : ∀ k, k < rows.length → ∃ p, shown[start + k]? = some p ∧ rows[k]? = some (text (start + k) p)
  focus : shown ≠ [] → (start : Int) ≤ cursor ∧ cursor < start + rows.length

/-- The lines under a title. -/
def titleLines (title : Bytes) (rest : Bytes) : List Bytes :=
  if title = [] then [] else screenLines (title ++ rest) ++ [[]]

/-- The lines of the option part. -/
def optionLines (shown : List P) (query : Bytes) (rows : List Bytes) : List Bytes :=
  if shown = [] then [if query = [] then lit "(no options)" else lit "(no matches)"] else rows

/-- The lines of the filter prompt. -/
def filterLines (on : Bool) (query : Bytes) : List Bytes :=
  if on then [] :: screenLines (if query = [] then lit "Type to filter..." else lit "Filter: " ++ query) else []

/-- Select: the text of an option. -/
def selectText (o : Opt V) (focused : Bool) : Bytes :=
  (if focused then lit "> " else lit "  ") ++ utf8 o.label ++ (if o.disabled then lit " (disabled)" else []) ++
    (if o.description = [] then [] else lit " - " ++ utf8 o.description)

/-- MultiSelect: the text of an option. -/
def multiText (o : Opt V) (focused selected : Bool) : Bytes :=
  (if focused then lit "> " else lit "  ") ++ (if selected then lit "[x] " else lit "[ ] ") ++ utf8 o.label ++
    (if o.description = [] then [] else lit " - " ++ utf8 o.description) ++ (if o.disabled then lit " (disabled)" else [])

/-- An option whose label and description have no line breaks. -/
def OneLine (o : Opt V) : Prop := '\n' ∉ o.label ∧ '\n' ∉ o.description

/-! ## lemmas -/

theorem utf8_eq_nil {s : List Char} : utf8 s = [] ↔ s = [] := by
  constructor
  · intro h
    cases s with
    | nil => rfl
    | cons c s =>
      have : 1 ≤ (String.utf8EncodeChar c).length := by
        rw [String.length_utf8EncodeChar]; exact Char.utf8Size_pos c
      simp only [utf8, List.flatMap_cons, List.append_eq_nil_iff] at h
      rw [h.1] at this
      simp at this
  · rintro rfl; rfl

theorem sDefaultRender_text (o : Opt V) (f : Bool) : sDefaultRender o f = selectText o f := by
  unfold sDefaultRender selectText
  by_cases hd : o.description = []
  · have : utf8 o.description = [] := utf8_eq_nil.2 hd
    cases o.disabled <;> simp [hd, this, utf8]
  · have : ¬ utf8 o.description = [] := fun e => hd (utf8_eq_nil.1 e)
    cases o.disabled <;> simp [hd, this]

theorem msDefaultRender_text (o : Opt V) (f s : Bool) : msDefaultRender o f s = multiText o f s := by
  unfold msDefaultRender multiText
  by_cases hd : o.description = []
  · have : utf8 o.description = [] := utf8_eq_nil.2 hd
    simp [hd, this, utf8]
  · have : ¬ utf8 o.description = [] := fun e => hd (utf8_eq_nil.1 e)
    simp [hd, this]

theorem ten_lit : ∀ s ∈ ["> ", "  ", "[x] ", "[ ] ", " (disabled)", " - ", "(no options)", "(no matches)"],
    (10 : UInt8) ∉ lit s := by decide +kernel

theorem selectText_line {o : Opt V} (h : OneLine o) (f : Bool) : (10 : UInt8) ∉ selectText o f := by
  unfold selectText
  refine not_mem_app (not_mem_app (not_mem_app ?_ (no_newline h.1)) ?_) ?_
  · split <;> exact ten_lit _ (by simp)
  · split
    · exact ten_lit _ (by simp)
    · simp
  · split
    · simp
    · exact not_mem_app (ten_lit _ (by simp)) (no_newline h.2)

theorem multiText_line {o : Opt V} (h : OneLine o) (f s : Bool) : (10 : UInt8) ∉ multiText o f s := by
  unfold multiText
  refine not_mem_app (not_mem_app (not_mem_app (not_mem_app ?_ ?_) (no_newline h.1)) ?_) ?_
  · split <;> exact ten_lit _ (by simp)
  · split <;> exact ten_lit _ (by simp)
  · split
    · simp
    · exact not_mem_app (ten_lit _ (by simp)) (no_newline h.2)
  · split
    · exact ten_lit _ (by simp)
    · simp

/-- From a window of argument lists to lines. -/
theorem shows_of_window {shown : List P} {cursor height : Int} {rows : List (Row P)} (hw : Window shown cursor height rows)
    (sel : P → Bool) (hs : ∀ r ∈ rows, r.selected = sel r.opt) (f : P → Nat → Bool → Bool → Bytes) :
    ∃ start, ShowsOptions shown cursor height (fun i p => f p i (decide ((i : Int) = cursor)) (sel p)) start
      (rows.map fun r => f r.opt r.index r.focused r.selected) := by
  obtain ⟨start, h1, h2⟩ := hw.contiguous
  refine ⟨start, ?_, ?_, ?_⟩
  · rw [List.length_map]; exact hw.full
  · intro k hk
    rw [List.length_map] at hk
    have hr : rows[k]? = some rows[k] := List.getElem?_eq_getElem hk
    refine ⟨rows[k].opt, ?_, ?_⟩
    · have := congrArg (fun l => l[k]?) h1
      simp only [List.getElem?_map, hr, Option.map_some] at this
      rw [List.getElem?_take_of_lt hk, List.getElem?_drop] at this
      exact this.symm
    · rw [List.getElem?_map, hr, Option.map_some, h2 k _ hr, hs _ (List.getElem_mem hk)]
      congr 2
      have hf := hw.focusedIff _ (List.getElem_mem hk)
      rw [h2 k _ hr] at hf
      by_cases hc : ((start + k : Nat) : Int) = cursor
      · rw [hf.2 hc]; simp [hc]
      · have : rows[k].focused = false := by
          cases e : rows[k].focused with
          | false => rfl
          | true => exact absurd (hf.1 e) hc
        rw [this]; exact (decide_eq_false hc).symm
  · intro hne
    obtain ⟨r, hr, hc, _⟩ := hw.cursorShown hne
    obtain ⟨k, hk, e⟩ := List.getElem_of_mem hr
    have := h2 k r (by rw [List.getElem?_eq_getElem hk, e])
    rw [List.length_map]
    omega

theorem lines_options {shown : List P} {cursor height : Int} {query : Bytes} {text : Nat → P → Bytes} {start : Nat} {rows : List Bytes}
    (hh : 1 ≤ height) (hs : ShowsOptions shown cursor height text start rows) (hl : ∀ x ∈ rows, (10 : UInt8) ∉ x) :
    screenLines (renderOptions query rows) = optionLines shown query rows := by
  unfold renderOptions optionLines
  have hc := hs.count
  by_cases hn : shown = []
  · subst hn
    rw [if_pos (by simp at hc; omega), if_pos rfl]
    unfold emptyState
    by_cases hq : query = []
    · simp only [hq, ne_eq, not_true_eq_false, if_false, if_true]
      exact screenLines_one (ten_lit _ (by simp))
    · simp only [hq, ne_eq, not_false_eq_true, if_false, if_true]
      exact screenLines_one (ten_lit _ (by simp))
  · have : 0 < shown.length := List.length_pos_iff.2 hn
    rw [if_neg (by omega), if_neg hn]
    cases rows with
    | nil => simp at hc; omega
    | cons r rs => exact lines_join hl

theorem lines_title (title rest : Bytes) (b : Bytes) :
    screenLines ((if title ≠ [] then title ++ rest ++ [10, 10] else []) ++ b) = titleLines title rest ++ screenLines b := by
  unfold titleLines
  by_cases h : title = []
  · simp [h]
  · rw [if_pos h, if_neg h]
    have : title ++ rest ++ [10, 10] ++ b = (title ++ rest) ++ 10 :: ([] ++ 10 :: b) := by simp
    rw [this, screenLines_cut, screenLines_cut]
    simp [screenLines]

theorem lines_filter (a : Bytes) (on : Bool) (query : Bytes) :
    screenLines (a ++ if on then filterStatus query else []) = screenLines a ++ filterLines on query := by
  unfold filterLines
  cases on with
  | false => simp
  | true =>
    simp only [if_true, filterStatus]
    have : ∀ x : Bytes, a ++ ([10, 10] ++ x) = a ++ 10 :: ([] ++ 10 :: x) := by simp
    rw [this, screenLines_cut, screenLines_cut]
    by_cases hq : query = []
    · simp [hq, screenLines]
    · simp [hq, screenLines]

/-! ## C166 Select.View -/

variable (dflt : P → Bytes → Bool) (deref : P → Opt V)

theorem sv_ok (title : Bytes) (ops : List (SVOp P)) :
    (SV.run dflt deref (SV.new dflt deref title) ops).c.Ok ∧ (SV.run dflt deref (SV.new dflt deref title) ops).title = title := by
  induction ops using snocInd with
  | nil => exact ⟨cs_ok_snew dflt [] _, rfl⟩
  | append_singleton ops op ih =>
    unfold SV.run at ih ⊢
    rw [List.foldl_append, List.foldl_cons, List.foldl_nil]
    generalize List.foldl _ _ ops = s at ih ⊢
    unfold SV.step
    split
    · exact ih
    · exact ⟨CS.Ok.step dflt deref ih.1 (SOp.options _), ih.2⟩
    · exact ⟨CS.Ok.step dflt deref ih.1 _, ih.2⟩

/-- The render function in force: the last WithRenderFunc after the last Options. -/
def sRenderSays : SVOp P → Option (P → Nat → Bool → Bytes)
  | .render f => some f
  | .op (.options _) => some fun p _ f => selectText (deref p) f
  | .op _ => none

theorem sv_render (title : Bytes) (ops : List (SVOp P)) :
    (SV.run dflt deref (SV.new dflt deref title) ops).render =
      lastSaid (sRenderSays deref) (fun p _ f => selectText (deref p) f) ops := by
  have h0 : (SV.new dflt deref title).render = fun p _ f => selectText (deref p) f := by
    simp only [SV.new, sDefaultRender_text]
  unfold SV.run
  rw [foldl_last (SV.step dflt deref) (fun s => s.render) (sRenderSays deref) _ ops, h0]
  intro s op
  unfold SV.step sRenderSays
  split
  · rfl
  · simp only [sDefaultRender_text, Option.getD_some]
  · rename_i o hne
    cases o <;> first | rfl | exact absurd rfl (hne _)

theorem window_mem {shown : List P} {cursor height : Int} {rows : List (Row P)} (hw : Window shown cursor height rows)
    {r : Row P} (hr : r ∈ rows) : r.opt ∈ shown := by
  obtain ⟨start, h1, _⟩ := hw.contiguous
  have : r.opt ∈ rows.map (·.opt) := List.mem_map.2 ⟨r, hr, rfl⟩
  rw [h1] at this
  exact List.mem_of_mem_drop (List.mem_of_mem_take this)

/-- C166: after any history of calls and keys Select.View returns (without panicking) a text whose lines are
the title and a blank line (if there is a title), one line per visible option - `min height n` consecutive
displayed options, the focused one among them, drawn by the render function in force with the option's number
and whether it is focused - or a note that there is none, and a blank line and the filter prompt if filtering
is on.  The render function's output must be free of line breaks. -/
theorem C166_select_view (title : Bytes) (ops : List (SVOp P)) :
    let s := SV.run dflt deref (SV.new dflt deref title) ops
    let f := lastSaid (sRenderSays deref) (fun p _ f => selectText (deref p) f) ops
    (∀ p ∈ s.c.d.options, ∀ i b, (10 : UInt8) ∉ f p i b) →
    ∃ text start rows, s.view = some text ∧
      screenLines text = titleLines title [] ++ optionLines s.c.d.filtered s.c.d.query rows ++
        filterLines s.c.filterable s.c.d.query ∧
      ShowsOptions s.c.d.filtered s.c.d.cursor s.c.d.height (fun i p => f p i (decide ((i : Int) = s.c.d.cursor))) start rows := by
  intro s f hl
  obtain ⟨h, ht⟩ := sv_ok dflt deref title ops
  have ht' : s.title = title := ht
  have hr : s.render = f := sv_render dflt deref title ops
  obtain ⟨rows, h1, h2, h3⟩ := renderWindow_spec h.cursor h.height (fun _ => false)
  have h1' : s.c.d.renderVisible = some rows := by
    rw [← h1]
    unfold S.renderVisible
    have : s.c.d.scroll = 0 := h.scroll
    simp only [this]
    rfl
  obtain ⟨start, hs⟩ := shows_of_window h2 (fun _ => false) h3 (fun p i b _ => f p i b)
  have e : s.view = some ((if title ≠ [] then title ++ [] ++ [10, 10] else []) ++
      renderOptions s.c.d.query (rows.map fun r => f r.opt r.index r.focused) ++
      (if s.c.filterable then filterStatus s.c.d.query else [])) := by
    unfold SV.view
    rw [h1', Option.map_some, ht', hr, List.append_nil]
  refine ⟨_, start, rows.map fun r => f r.opt r.index r.focused, e, ?_, hs⟩
  rw [lines_filter, lines_title, lines_options h.height hs]
  intro x hx
  rw [List.mem_map] at hx
  obtain ⟨r, hr, rfl⟩ := hx
  exact hl _ (h.sub _ (window_mem h2 hr)) _ _

/-- C166: with the default render function and one-line options, every visible option is shown as its label,
" (disabled)" if it is, and its description after a dash; "> " marks the focused option and no other. -/
theorem C166_select_default (title : Bytes) (ops : List (SOp P)) :
    let s := SV.run dflt deref (SV.new dflt deref title) (ops.map .op)
    (∀ p ∈ s.c.d.options, OneLine (deref p)) →
    s.c = CS.run dflt deref (CS.new dflt) ops ∧
    ∃ text start rows, s.view = some text ∧
      screenLines text = titleLines title [] ++ optionLines s.c.d.filtered s.c.d.query rows ++
        filterLines s.c.filterable s.c.d.query ∧
      ShowsOptions s.c.d.filtered s.c.d.cursor s.c.d.height
        (fun i p => selectText (deref p) (decide ((i : Int) = s.c.d.cursor))) start rows := by
  intro s hl
  have hc : s.c = CS.run dflt deref (CS.new dflt) ops := by
    have : ∀ (ops : List (SOp P)) (s : SV P), (SV.run dflt deref s (ops.map .op)).c = CS.run dflt deref s.c ops := by
      intro ops
      induction ops with
      | nil => intro s; rfl
      | cons o ops ih =>
        intro s
        show (SV.run dflt deref (s.step dflt deref (.op o)) (ops.map .op)).c = CS.run dflt deref (s.c.step dflt deref o) ops
        rw [ih]
        congr 1
        cases o <;> rfl
    exact this ops _
  refine ⟨hc, ?_⟩
  have hf : lastSaid (sRenderSays deref) (fun p _ f => selectText (deref p) f) (ops.map .op) =
      fun p _ f => selectText (deref p) f := by
    unfold lastSaid
    have hall : ∀ x ∈ (ops.map SVOp.op).filterMap (sRenderSays deref), x = fun p _ f => selectText (deref p) f := by
      intro x hx
      simp only [List.mem_filterMap, List.mem_map] at hx
      obtain ⟨o', ⟨o, _, rfl⟩, h⟩ := hx
      cases o <;> simp [sRenderSays] at h
      exact h.symm
    cases e : ((ops.map SVOp.op).filterMap (sRenderSays deref)).getLast? with
    | none => rfl
    | some x => exact hall x (List.mem_of_getLast? e)
  have := C166_select_view dflt deref title (ops.map .op)
  simp only [hf] at this
  exact this (fun p hp i b => selectText_line (hl p hp) b)

/-- C166: the marker tells the focused line from the others. -/
theorem C166_select_marker (o : Opt V) (f : Bool) : (selectText o f).head? = some (if f then 62 else 32) := by
  cases f <;> rfl

/-! ## C167 MultiSelect.View -/

theorem mv_ok (title : Bytes) (ops : List (MVOp P)) :
    (MV.run dflt deref (MV.new dflt deref title) ops).c.Ok ∧ (MV.run dflt deref (MV.new dflt deref title) ops).title = title := by
  induction ops using snocInd with
  | nil => exact ⟨cm_ok_run dflt deref [], rfl⟩
  | append_singleton ops op ih =>
    unfold MV.run at ih ⊢
    rw [List.foldl_append, List.foldl_cons, List.foldl_nil]
    generalize List.foldl _ _ ops = s at ih ⊢
    unfold MV.step
    split
    · exact ih
    · exact ⟨CM.Ok.step dflt deref ih.1 (MOp.options _), ih.2⟩
    · exact ⟨CM.Ok.step dflt deref ih.1 _, ih.2⟩

/-- The render function in force: the last WithRenderFunc after the last Options. -/
def mRenderSays : MVOp P → Option (P → Nat → Bool → Bool → Bytes)
  | .render f => some f
  | .op (.options _) => some fun p _ f s => multiText (deref p) f s
  | .op _ => none

theorem mv_render (title : Bytes) (ops : List (MVOp P)) :
    (MV.run dflt deref (MV.new dflt deref title) ops).render =
      lastSaid (mRenderSays deref) (fun p _ f s => multiText (deref p) f s) ops := by
  have h0 : (MV.new dflt deref title).render = fun p _ f s => multiText (deref p) f s := by
    simp only [MV.new, msDefaultRender_text]
  unfold MV.run
  rw [foldl_last (MV.step dflt deref) (fun s => s.render) (mRenderSays deref) _ ops, h0]
  intro s op
  unfold MV.step mRenderSays
  split
  · rfl
  · simp only [msDefaultRender_text, Option.getD_some]
  · rename_i o hne
    cases o <;> first | rfl | exact absurd rfl (hne _)

/-- An option is selected: some position of it is. -/
def IsSelected (c : CM P) (p : P) : Prop := ∃ i : Nat, c.d.options[i]? = some p ∧ (i : Int) ∈ c.d.sel.idx

/-- The counter after the title. -/
def counterText (c : CM P) : Bytes :=
  if c.d.options = [] then []
  else lit " (" ++ decimal c.d.sel.idx.length ++ lit " of " ++ decimal c.d.options.length ++ lit " selected)"

/-- C167: after any history of calls and keys MultiSelect.View returns (without panicking) a text whose lines
are the title with the counter and a blank line (if there is a title), one line per visible option - drawn by
the render function in force with the option's number, whether it is focused and whether it is selected - or
a note that there is none, a blank line and the filter prompt if filtering is on, a blank line and the help
line.  (Options distinct, lines free of line breaks.) -/
theorem C167_multiselect_view (title : Bytes) (ops : List (MVOp P)) :
    let s := MV.run dflt deref (MV.new dflt deref title) ops
    let f := lastSaid (mRenderSays deref) (fun p _ f s => multiText (deref p) f s) ops
    s.c.d.options.Nodup → (∀ p ∈ s.c.d.options, ∀ i b b', (10 : UInt8) ∉ f p i b b') →
    ∃ text start rows, ∃ sel : P → Bool, s.view = some text ∧ (∀ p ∈ s.c.d.options, sel p = true ↔ IsSelected s.c p) ∧
      screenLines text = titleLines title (counterText s.c) ++ optionLines s.c.d.filtered s.c.d.query rows ++
        filterLines s.c.filterable s.c.d.query ++ [[], lit "  a: all  n: none  Space: toggle  Enter: confirm"] ∧
      ShowsOptions s.c.d.filtered s.c.d.cursor s.c.d.height
        (fun i p => f p i (decide ((i : Int) = s.c.d.cursor)) (sel p)) start rows := by
  intro s f hnd hl
  obtain ⟨h, ht⟩ := mv_ok dflt deref title ops
  have ht' : s.title = title := ht
  have hr : s.render = f := mv_render dflt deref title ops
  obtain ⟨rows, h1, h2, h3⟩ := renderWindow_spec h.cursor h.height s.c.d.rowSelected
  have h1' : s.c.d.renderVisible = some rows := by
    rw [← h1]
    unfold MS.renderVisible
    have : s.c.d.scroll = 0 := h.scroll
    simp only [this]
    rfl
  obtain ⟨start, hs⟩ := shows_of_window h2 s.c.d.rowSelected h3 f
  have e : s.view = some ((if title ≠ [] then title ++ counterText s.c ++ [10, 10] else []) ++
      renderOptions s.c.d.query (rows.map fun r => f r.opt r.index r.focused r.selected) ++
      (if s.c.filterable then filterStatus s.c.d.query else []) ++ help) := by
    unfold MV.view counterText counter
    rw [h1', Option.map_some, ht', hr]
    by_cases ho : s.c.d.options = []
    · have : ¬ s.c.d.options.length > 0 := by rw [ho]; simp
      simp only [ho, List.length_nil, gt_iff_lt, Nat.lt_irrefl, if_true, if_false]
    · have : s.c.d.options.length > 0 := List.length_pos_iff.2 ho
      simp only [ho, this, if_true, if_false]
  refine ⟨_, start, rows.map fun r => f r.opt r.index r.focused r.selected, s.c.d.rowSelected, e, ?_, ?_, hs⟩
  · intro p hp
    unfold MS.rowSelected
    constructor
    · intro hsel
      rw [Option.any_eq_true] at hsel
      obtain ⟨i, hi, hsel⟩ := hsel
      exact ⟨i, indexOf_get hi, by simpa [Selection.isSelected] using hsel⟩
    · rintro ⟨i, hi, hsel⟩
      obtain ⟨j, hj⟩ := indexOf_mem (List.mem_of_getElem? hi)
      have hij : i = j := (List.getElem?_inj (List.getElem?_eq_some_iff.1 hi).1 hnd).1 (hi.trans (indexOf_get hj).symm)
      subst hij
      rw [hj]
      simpa [Selection.isSelected] using hsel
  · have hhelp : ∀ a : Bytes, a ++ help = a ++ 10 :: ([] ++ 10 :: lit "  a: all  n: none  Space: toggle  Enter: confirm") := by
      intro a; rfl
    rw [hhelp, screenLines_cut, screenLines_cut, lines_filter, lines_title, lines_options h.height hs]
    · rw [screenLines_one (show (10 : UInt8) ∉ ([] : Bytes) by simp), screenLines_one (by decide +kernel)]
      rfl
    · intro x hx
      rw [List.mem_map] at hx
      obtain ⟨r, hr, rfl⟩ := hx
      exact hl _ (h.sub _ (window_mem h2 hr)) _ _ _

/-- C167: with the default render function and one-line, distinct options, every visible option is shown as
its label, its description after a dash and " (disabled)" if it is; "> " marks the focused option and no other,
"[x]" marks exactly the selected ones. -/
theorem C167_multiselect_default (title : Bytes) (ops : List (MOp P)) :
    let s := MV.run dflt deref (MV.new dflt deref title) (ops.map .op)
    s.c.d.options.Nodup → (∀ p ∈ s.c.d.options, OneLine (deref p)) →
    s.c = CM.run dflt deref (CM.new dflt) ops ∧
    ∃ text start rows, ∃ sel : P → Bool, s.view = some text ∧ (∀ p ∈ s.c.d.options, sel p = true ↔ IsSelected s.c p) ∧
      screenLines text = titleLines title (counterText s.c) ++ optionLines s.c.d.filtered s.c.d.query rows ++
        filterLines s.c.filterable s.c.d.query ++ [[], lit "  a: all  n: none  Space: toggle  Enter: confirm"] ∧
      ShowsOptions s.c.d.filtered s.c.d.cursor s.c.d.height
        (fun i p => multiText (deref p) (decide ((i : Int) = s.c.d.cursor)) (sel p)) start rows := by
  intro s hnd hl
  have hc : s.c = CM.run dflt deref (CM.new dflt) ops := by
    have : ∀ (ops : List (MOp P)) (s : MV P), (MV.run dflt deref s (ops.map .op)).c = CM.run dflt deref s.c ops := by
      intro ops
      induction ops with
      | nil => intro s; rfl
      | cons o ops ih =>
        intro s
        show (MV.run dflt deref (s.step dflt deref (.op o)) (ops.map .op)).c = CM.run dflt deref (s.c.step dflt deref o) ops
        rw [ih]
        congr 1
        cases o <;> rfl
    exact this ops _
  refine ⟨hc, ?_⟩
  have hf : lastSaid (mRenderSays deref) (fun p _ f s => multiText (deref p) f s) (ops.map .op) =
      fun p _ f s => multiText (deref p) f s := by
    unfold lastSaid
    have hall : ∀ x ∈ (ops.map MVOp.op).filterMap (mRenderSays deref), x = fun p _ f s => multiText (deref p) f s := by
      intro x hx
      simp only [List.mem_filterMap, List.mem_map] at hx
      obtain ⟨o', ⟨o, _, rfl⟩, h⟩ := hx
      cases o <;> simp [mRenderSays] at h
      exact h.symm
    cases e : ((ops.map MVOp.op).filterMap (mRenderSays deref)).getLast? with
    | none => rfl
    | some x => exact hall x (List.mem_of_getLast? e)
  have := C167_multiselect_view dflt deref title (ops.map .op)
  simp only [hf] at this
  exact this hnd (fun p hp i b b' => multiText_line (hl p hp) b b')

/-- C167: byte 0 of a line tells the focused option, byte 3 the selected ones. -/
theorem C167_multiselect_marker (o : Opt V) (f s : Bool) :
    (multiText o f s)[0]? = some (if f then 62 else 32) ∧ (multiText o f s)[3]? = some (if s then 120 else 32) := by
  cases f <;> cases s <;> exact ⟨rfl, rfl⟩

theorem nodup_bounded (n : Nat) (l : List Int) (hn : l.Nodup) (hb : ∀ i ∈ l, 0 ≤ i ∧ i < n) :
    ((List.range n).filter fun i : Nat => decide ((i : Int) ∈ l)).length = l.length := by
  have hp : (((List.range n).filter fun i : Nat => decide ((i : Int) ∈ l)).map fun i : Nat => (i : Int)).Perm l := by
    refine (List.perm_ext_iff_of_nodup ?_ hn).2 ?_
    · rw [List.nodup_iff_pairwise_ne, List.pairwise_map]
      exact ((List.nodup_range).filter _).imp (fun h e => h (by omega))
    · intro i
      simp only [List.mem_map, List.mem_filter, List.mem_range, decide_eq_true_eq]
      constructor
      · rintro ⟨k, ⟨_, hm⟩, rfl⟩; exact hm
      · intro hm
        obtain ⟨h0, h1⟩ := hb i hm
        have e : ((i.toNat : Nat) : Int) = i := by omega
        exact ⟨i.toNat, ⟨by omega, by rw [e]; exact hm⟩, e⟩
  have := hp.length_eq
  rwa [List.length_map] at this

/-- C167, the counter: if only existing indices were ever passed to Selected, the number before " of " is the
number of options that have a "[x]" (over all options, displayed or not). -/
theorem C167_counter_partial (ops : List (MOp P)) (hr : InRangeRun dflt deref (CM.new dflt) ops) :
    let c := CM.run dflt deref (CM.new dflt) ops
    c.d.sel.idx.length =
      ((List.range c.d.options.length).filter fun i : Nat => decide ((i : Int) ∈ c.d.sel.idx)).length := by
  intro c
  have h := cm_ok_run dflt deref ops
  have hin : SelIn c := by
    have : ∀ (ops : List (MOp P)) (c : CM P), SelIn c → InRangeRun dflt deref c ops → SelIn (CM.run dflt deref c ops) := by
      intro ops
      induction ops with
      | nil => exact fun c h _ => h
      | cons o ops ih => exact fun c h hr => ih _ (selIn_step dflt deref h hr.1) hr.2
    exact this ops _ (by intro i hi; simp [CM.new, MS.new, Selection.new] at hi) hr
  exact (nodup_bounded _ _ h.sel.nodup (fun i hi => ⟨h.sel.nonneg i hi, hin i hi⟩)).symm

/-- C167, full counter claim, refuted: Selected(7) with one option shows "1 of 1 selected" without any "[x]". -/
theorem C167_counter_refuted :
    ¬ ∀ (ops : List (MOp Nat)),
      let c := CM.run (V := Nat) (fun _ _ => true) (fun p => ⟨[], p, [], false⟩) (CM.new fun _ _ => true) ops
      c.d.sel.idx.length =
        ((List.range c.d.options.length).filter fun i : Nat => decide ((i : Int) ∈ c.d.sel.idx)).length := by
  intro h
  exact absurd (h [.options [0], .selected [7]]) (by decide)

/-! ## C129: the render function is lost, too -/

/-- C129: Options() also drops a render function configured before it. -/
theorem C129_render_lost (title : Bytes) (ops : List (SVOp P)) (l : List P) (f : P → Nat → Bool → Bytes) :
    (SV.run dflt deref (SV.new dflt deref title) (ops ++ [.render f, .op (.options l)])).render =
      fun p _ b => selectText (deref p) b := by
  rw [sv_render]
  unfold lastSaid
  rw [List.filterMap_append]
  simp [sRenderSays]

/-! ## C168 the default filter -/

/-- `sub` occurs in `l`. -/
def Occurs (sub l : Bytes) : Prop := ∃ a b, l = a ++ sub ++ b

theorem containsBytes_iff (sub l : Bytes) : containsBytes sub l = true ↔ Occurs sub l := by
  induction l with
  | nil =>
    simp only [containsBytes, List.isEmpty_iff]
    constructor
    · rintro rfl; exact ⟨[], [], rfl⟩
    · rintro ⟨a, b, h⟩
      have h := h.symm
      simp only [List.append_eq_nil_iff] at h
      exact h.1.2
  | cons x l ih =>
    simp only [containsBytes, Bool.or_eq_true, ih, List.isPrefixOf_iff_prefix]
    constructor
    · rintro (⟨b, h⟩ | ⟨a, b, h⟩)
      · exact ⟨[], b, by simpa using h.symm⟩
      · exact ⟨x :: a, b, by simp [h]⟩
    · rintro ⟨a, b, h⟩
      cases a with
      | nil => exact .inl ⟨b, by simpa using h.symm⟩
      | cons y a =>
        simp only [List.cons_append, List.cons.injEq] at h
        exact .inr ⟨a, b, h.2⟩

/-- C168: the default filter accepts an option exactly if the lower-cased query is empty or occurs in its
lower-cased label. -/
theorem C168_default_filter (lower : Bytes → Bytes) (p : P) (query : Bytes) :
    defaultFilter deref lower p query = true ↔ query = [] ∨ Occurs (lower query) (lower (utf8 (deref p).label)) := by
  unfold defaultFilter
  by_cases h : query = []
  · simp [h]
  · rw [if_neg h, containsBytes_iff]; simp [h]

/-- strings.ToLower works character by character. -/
def CharWise (lower : Bytes → Bytes) : Prop := ∃ g : Char → Bytes, ∀ s : List Char, lower (utf8 s) = s.flatMap g

/-- The typed characters are not bound to an action. -/
def Unbound (cs : List Char) : Prop := ∀ c ∈ cs, c ∉ ['k', 'j', 'g', 'G', 'a', 'n']

theorem utf8_append (a b : List Char) : utf8 (a ++ b) = utf8 a ++ utf8 b := by simp [utf8]

/-- Typing characters one by one. -/
def typed (cs : List Char) : List KeyMsg := cs.map fun c => { type := .rune, rune := c }

theorem type_multi (c : CM P) (hf : c.filterable = true) (cs : List Char) (hu : Unbound cs) :
    (CM.run dflt deref c ((typed cs).map .key)).d.query = c.d.query ++ utf8 cs ∧
    (CM.run dflt deref c ((typed cs).map .key)).d.options = c.d.options ∧
    (CM.run dflt deref c ((typed cs).map .key)).d.filterFunc = c.d.filterFunc ∧
    (CM.run dflt deref c ((typed cs).map .key)).filterable = true ∧
    (cs ≠ [] → (CM.run dflt deref c ((typed cs).map .key)).d.filtered =
      c.d.options.filter fun p => c.d.filterFunc p (c.d.query ++ utf8 cs)) := by
  induction cs using snocInd with
  | nil => exact ⟨by simp [utf8, typed, CM.run], rfl, rfl, hf, fun h => absurd rfl h⟩
  | append_singleton cs ch ih =>
    obtain ⟨h1, h2, h3, h4, _⟩ := ih (fun x hx => hu x (List.mem_append_left _ hx))
    have hc := hu ch (List.mem_append_right _ List.mem_cons_self)
    have e : CM.run dflt deref c ((typed (cs ++ [ch])).map .key) =
        (CM.handleKey deref (CM.run dflt deref c ((typed cs).map .key)) { type := .rune, rune := ch }).1 := by
      simp [CM.run, typed, CM.step]
    rw [e]
    generalize CM.run dflt deref c ((typed cs).map .key) = c' at *
    have hm : msKeymap { type := .rune, rune := ch } = .none := by
      simp only [List.mem_cons, List.not_mem_nil, or_false, not_or] at hc
      simp [msKeymap, hc]
    have hb : utf8 (cs ++ [ch]) = utf8 cs ++ runeBytes ch := by simp [utf8, runeBytes]
    unfold CM.handleKey
    rw [hm]
    simp only [filterInput, h4, Bool.not_true, Bool.false_eq_true, if_false, if_true, ne_eq, not_true_eq_false, MS.setFilterQuery,
      h1, h2, h3, hb, List.append_assoc]
    exact ⟨trivial, trivial, trivial, trivial, fun _ => trivial⟩

/-- C168: typing a text into a filterable MultiSelect with an empty query and the default filter displays
exactly the options whose label contains the text up to case, in order. -/
theorem C168_multiselect_typing (lower : Bytes → Bytes) (c : CM P) (hf : c.filterable = true) (hq : c.d.query = [])
    (hd : c.d.filterFunc = defaultFilter deref lower) (cs : List Char) (hne : cs ≠ []) (hu : Unbound cs) :
    let c' := CM.run dflt deref c ((typed cs).map .key)
    c'.d.options = c.d.options ∧ c'.d.sel = c.d.sel ∧ c'.d.filtered.Sublist c.d.options ∧
      ∀ p, p ∈ c'.d.filtered ↔ p ∈ c.d.options ∧ Occurs (lower (utf8 cs)) (lower (utf8 (deref p).label)) := by
  intro c'
  obtain ⟨h1, h2, h3, h4, h5⟩ := type_multi dflt deref c hf cs hu
  have h5 := h5 hne
  refine ⟨h2, ?_, ?_, ?_⟩
  · have := C55_filter_keeps_selection dflt deref c (typed cs) (by
      intro k hk
      simp only [typed, List.mem_map] at hk
      obtain ⟨ch, hch, rfl⟩ := hk
      exact .inr (.inr ⟨rfl, hu ch hch⟩))
    exact this.2.1
  · show (CM.run dflt deref c ((typed cs).map .key)).d.filtered.Sublist _
    rw [h5]; exact List.filter_sublist
  · intro p
    show p ∈ (CM.run dflt deref c ((typed cs).map .key)).d.filtered ↔ _
    rw [h5, List.mem_filter, hd, hq, List.nil_append, C168_default_filter]
    have : utf8 cs ≠ [] := fun e => hne (utf8_eq_nil.1 e)
    simp [this]

/-- C168: typing further characters only removes options from the display. -/
theorem C168_narrows (lower : Bytes → Bytes) (hlow : CharWise lower) (p : P) (cs ds : List Char)
    (h : defaultFilter deref lower p (utf8 (cs ++ ds)) = true) : defaultFilter deref lower p (utf8 cs) = true := by
  rw [C168_default_filter] at h ⊢
  rcases h with h | ⟨a, b, h⟩
  · have := utf8_eq_nil.1 h
    simp only [List.append_eq_nil_iff] at this
    exact .inl (utf8_eq_nil.2 this.1)
  · obtain ⟨g, hg⟩ := hlow
    refine .inr ⟨a, ds.flatMap g ++ b, ?_⟩
    rw [h, hg, hg, List.flatMap_append]
    simp

theorem type_select (c : CS P) (hf : c.filterable = true) (cs : List Char)
    (hu : ∀ x ∈ cs, x ∉ ['k', 'j', 'g', 'G']) :
    (CS.run dflt deref c ((typed cs).map .key)).d.query = c.d.query ++ utf8 cs ∧
    (CS.run dflt deref c ((typed cs).map .key)).d.options = c.d.options ∧
    (CS.run dflt deref c ((typed cs).map .key)).d.filterFunc = c.d.filterFunc ∧
    (CS.run dflt deref c ((typed cs).map .key)).filterable = true ∧
    (CS.run dflt deref c ((typed cs).map .key)).d.selected = c.d.selected ∧
    (cs ≠ [] → (CS.run dflt deref c ((typed cs).map .key)).d.filtered =
      c.d.options.filter fun p => c.d.filterFunc p (c.d.query ++ utf8 cs)) := by
  induction cs using snocInd with
  | nil => exact ⟨by simp [utf8, typed, CS.run], rfl, rfl, hf, rfl, fun h => absurd rfl h⟩
  | append_singleton cs ch ih =>
    obtain ⟨h1, h2, h3, h4, h6, _⟩ := ih (fun x hx => hu x (List.mem_append_left _ hx))
    have hc := hu ch (List.mem_append_right _ List.mem_cons_self)
    have e : CS.run dflt deref c ((typed (cs ++ [ch])).map .key) =
        (CS.handleKey deref (CS.run dflt deref c ((typed cs).map .key)) { type := .rune, rune := ch }).1 := by
      simp [CS.run, typed, CS.step]
    rw [e]
    generalize CS.run dflt deref c ((typed cs).map .key) = c' at *
    have hm : sKeymap { type := .rune, rune := ch } = .none := by
      simp only [List.mem_cons, List.not_mem_nil, or_false, not_or] at hc
      simp [sKeymap, hc]
    have hb : utf8 (cs ++ [ch]) = utf8 cs ++ runeBytes ch := by simp [utf8, runeBytes]
    unfold CS.handleKey
    rw [hm]
    simp only [filterInput, h4, Bool.not_true, Bool.false_eq_true, if_false, if_true, ne_eq, not_true_eq_false, S.setFilterQuery,
      h1, h2, h3, hb, List.append_assoc]
    exact ⟨trivial, trivial, trivial, trivial, h6, fun _ => trivial⟩

/-- C168: the same for Select, where 'a' and 'n' can be typed. -/
theorem C168_select_typing (lower : Bytes → Bytes) (c : CS P) (hf : c.filterable = true) (hq : c.d.query = [])
    (hd : c.d.filterFunc = defaultFilter deref lower) (cs : List Char) (hne : cs ≠ [])
    (hu : ∀ x ∈ cs, x ∉ ['k', 'j', 'g', 'G']) :
    let c' := CS.run dflt deref c ((typed cs).map .key)
    c'.d.options = c.d.options ∧ c'.d.selected = c.d.selected ∧ c'.d.filtered.Sublist c.d.options ∧
      ∀ p, p ∈ c'.d.filtered ↔ p ∈ c.d.options ∧ Occurs (lower (utf8 cs)) (lower (utf8 (deref p).label)) := by
  intro c'
  obtain ⟨h1, h2, h3, h4, h6, h5⟩ := type_select dflt deref c hf cs hu
  have h5 := h5 hne
  refine ⟨h2, h6, ?_, ?_⟩
  · show (CS.run dflt deref c ((typed cs).map .key)).d.filtered.Sublist _
    rw [h5]; exact List.filter_sublist
  · intro p
    show p ∈ (CS.run dflt deref c ((typed cs).map .key)).d.filtered ↔ _
    rw [h5, List.mem_filter, hd, hq, List.nil_append, C168_default_filter]
    have : utf8 cs ≠ [] := fun e => hne (utf8_eq_nil.1 e)
    simp [this]

/-- The full claim of C168: typing any text filters by it. -/
def C168_statement : Prop :=
  ∀ (c : CM Nat) (deref : Nat → Opt Nat), c.filterable = true → c.d.query = [] → c.d.filterFunc = defaultFilter deref id →
    ∀ (cs : List Char), cs ≠ [] → ∀ p, p ∈ (CM.run (fun _ _ => true) deref c ((typed cs).map .key)).d.filtered ↔
      p ∈ c.d.options ∧ Occurs (utf8 cs) (utf8 (deref p).label)

/-- C168 refuted in full: the letters k, j, g, G, a and n are commands, not text. -/
theorem C168_refuted : ¬ C168_statement := by
  intro h
  have := h { CM.new (defaultFilter (fun p : Nat => (⟨['x'], p, [], false⟩ : Opt Nat)) id) with
      d := MS.new (defaultFilter (fun p : Nat => (⟨['x'], p, [], false⟩ : Opt Nat)) id) [0] 0 0, filterable := true }
    (fun p => ⟨['x'], p, [], false⟩) rfl rfl rfl ['n'] (by simp) 0
  have h1 := (this.1 (by decide)).2
  rw [← containsBytes_iff] at h1
  exact absurd h1 (by decide +kernel)

end

/-! ### concrete cases -/

private def labels : Nat → Opt Nat
  | 0 => ⟨"Apple".toList, 0, [], false⟩
  | 1 => ⟨"Pear".toList, 1, "green".toList, false⟩
  | _ => ⟨"Plum".toList, 2, [], true⟩

private def asciiLower (b : Bytes) : Bytes := b.map fun x => if 65 ≤ x ∧ x ≤ 90 then x + 32 else x

private def mhist : List (MOp Nat) :=
  [.options [0, 1, 2], .filterable true, .key { type := .down }, .key { type := .space }, .key { type := .rune, rune := 'P' }]

/-- A screen: "P" typed, all three options match, the second is focused and selected. -/
example : (MV.run (defaultFilter labels asciiLower) labels (MV.new (defaultFilter labels asciiLower) labels (lit "Fruit"))
    (mhist.map .op)).view =
    some (lit "Fruit (1 of 3 selected)\n\n  [ ] Apple\n> [x] Pear - green\n  [ ] Plum (disabled)\n\nFilter: P\n\n  a: all  n: none  Space: toggle  Enter: confirm") := by
  decide +kernel

example : (∀ p ∈ [0, 1, 2], OneLine (labels p)) ∧ [0, 1, 2].Nodup := by
  constructor
  · intro p hp
    simp only [List.mem_cons, List.not_mem_nil, or_false] at hp
    rcases hp with rfl | rfl | rfl <;> (unfold OneLine; decide +kernel)
  · decide

example : InRangeRun (fun _ _ => true) labels (CM.new fun _ _ => true) (mhist ++ [.selected [2]]) := by
  refine ⟨trivial, trivial, trivial, trivial, trivial, ?_, trivial⟩
  unfold InRange
  decide +kernel

example : (CS.run (defaultFilter labels asciiLower) labels (CS.new (defaultFilter labels asciiLower))
    ([.options [0, 1, 2], .filterable true] ++ (typed "pl".toList).map .key)).d.filtered = [0, 2] := by decide +kernel

example : CharWise asciiLower :=
  ⟨fun c => asciiLower (String.utf8EncodeChar c), fun s => by unfold asciiLower utf8; rw [List.map_flatMap]⟩

end Phoenix.Choice
