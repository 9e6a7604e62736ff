import Verif.Tea.ListScreen
import Verif.Table.Keys
import Verif.TextInput.Model
/-
C212: what the Table shows in a running program, from the bytes of the keyboard to the cells of the terminal.  All parts are
the models of the parts: Tea/KeyScreenModel.lean (decoder, goroutine, loop, inline renderer, terminal), Tea/DialogModel.lean
(the program around the component), Table/Model.lean.  The Table model writes bytes; the inline renderer model reads
characters: `viewText` is the text whose UTF-8 encoding the view's bytes are.
-/
set_option linter.unusedVariables false
set_option linter.unusedSimpArgs false
namespace Phoenix.Dialog
open Phoenix.Program Phoenix.Inline Phoenix.Picture Phoenix.Editor

variable {σ β Pen : Type}

/-- The UTF-8 encoding of a text. -/
def utf8Of (s : Str) : List UInt8 := s.flatMap String.utf8EncodeChar

/-- The string components/table/table.go:222-308 `View` returns, as characters: the text whose UTF-8 encoding is the lines of
the view, each followed by a newline (`b.WriteString("\n")`, table.go:258, 267, 304). -/
noncomputable def viewText (ff : Table.F64 → Table.Bytes) (t : Table.T) : Str :=
  Classical.epsilon fun s => ∃ lines, t.view ff = some lines ∧ utf8Of s = (lines.map (· ++ [10])).flatten

/-- components/table/table.go:146-152 `Update` on a key: never a command. -/
def tableComp (kb : Table.Keys) (t : Table.T) : Comp Table.T Unit where
  init := t
  upd := fun t k => (t.handleKey kb k, .none)

/-- The table after some keys. -/
def tableAfter (kb : Table.Keys) (t : Table.T) (ks : List KeyMsg) : Table.T := ks.foldl (fun t k => t.handleKey kb k) t

/-! ### UTF-8 -/

theorem utf8Of_toByteArray (s : Str) : (utf8Of s).toByteArray = (String.ofList s).toByteArray := by
  rw [String.toByteArray_ofList]
  rfl

theorem utf8Of_inj {a b : Str} (h : utf8Of a = utf8Of b) : a = b := by
  have e : (String.ofList a).toByteArray = (String.ofList b).toByteArray := by
    rw [← utf8Of_toByteArray, ← utf8Of_toByteArray, h]
  exact String.ofList_inj.1 (String.toByteArray_inj.1 e)

theorem utf8Of_append (a b : Str) : utf8Of (a ++ b) = utf8Of a ++ utf8Of b := List.flatMap_append

/-- Characters a table of printable ASCII cells draws. -/
def TableChar (c : Char) : Prop :=
  (32 ≤ c.toNat ∧ c.toNat < 127) ∨ c = '│' ∨ c = '─' ∨ c = '┼' ∨ c = '▲' ∨ c = '▼'

/-- Bytes of printable ASCII characters. -/
def Printable (b : List UInt8) : Prop := ∀ x ∈ b, 32 ≤ x ∧ x < 127

/-- `b` encodes a text of at most `w` drawable characters. -/
def Txt (w : Nat) (b : List UInt8) : Prop := ∃ s : Str, utf8Of s = b ∧ s.length ≤ w ∧ ∀ c ∈ s, TableChar c

theorem Txt.mono {v w : Nat} {b : List UInt8} (h : Txt v b) (hw : v ≤ w) : Txt w b := by
  obtain ⟨s, h1, h2, h3⟩ := h
  exact ⟨s, h1, by omega, h3⟩

theorem Txt.append {v w : Nat} {a b : List UInt8} (ha : Txt v a) (hb : Txt w b) : Txt (v + w) (a ++ b) := by
  obtain ⟨s, h1, h2, h3⟩ := ha
  obtain ⟨r, g1, g2, g3⟩ := hb
  refine ⟨s ++ r, by rw [utf8Of_append, h1, g1], by rw [List.length_append]; omega, ?_⟩
  intro c hc
  rcases List.mem_append.1 hc with h | h
  · exact h3 c h
  · exact g3 c h

theorem txt_printable : ∀ {b : List UInt8}, Printable b → Txt b.length b
  | [], _ => ⟨[], rfl, Nat.le_refl _, by simp⟩
  | x :: b, h => by
    obtain ⟨s, h1, h2, h3⟩ := txt_printable (b := b) fun y hy => h y (List.mem_cons_of_mem _ hy)
    have hx := h x (List.mem_cons_self ..)
    have hl : 32 ≤ x.toNat := UInt8.le_iff_toNat_le.1 hx.1
    have hu : x.toNat < 127 := UInt8.lt_iff_toNat_lt.1 hx.2
    have hv : (Char.ofNat x.toNat).toNat = x.toNat := by
      have hval : x.toNat.isValidChar := by left; omega
      unfold Char.ofNat
      rw [dif_pos hval]
      rfl
    have he : String.utf8EncodeChar (Char.ofNat x.toNat) = [x] := by
      unfold String.utf8EncodeChar
      have hv' : (Char.ofNat x.toNat).val.toNat = x.toNat := hv
      simp only [hv']
      rw [if_pos (by omega)]
      simp
    refine ⟨Char.ofNat x.toNat :: s, ?_, by simp; omega, ?_⟩
    · show String.utf8EncodeChar _ ++ utf8Of s = _
      rw [he, h1]; rfl
    · intro c hc
      rcases List.mem_cons.1 hc with rfl | hc
      · left; rw [hv]; exact ⟨hl, hu⟩
      · exact h3 c hc

theorem txt_one {c : Char} (h : TableChar c) : Txt 1 (String.utf8EncodeChar c) :=
  ⟨[c], by simp [utf8Of], Nat.le_refl _, by simpa using h⟩

theorem txt_barV : Txt 1 Table.barV := txt_one (c := '│') (by unfold TableChar; simp)
theorem txt_barH : Txt 1 Table.barH := txt_one (c := '─') (by unfold TableChar; simp)
theorem txt_cross : Txt 1 Table.cross := txt_one (c := '┼') (by unfold TableChar; simp)
theorem txt_up : Txt 2 Table.markUp :=
  ⟨[' ', '▲'], by decide, by decide, by intro c hc; simp at hc; rcases hc with rfl | rfl <;> simp [TableChar]⟩
theorem txt_down : Txt 2 Table.markDown :=
  ⟨[' ', '▼'], by decide, by decide, by intro c hc; simp at hc; rcases hc with rfl | rfl <;> simp [TableChar]⟩

theorem txt_rule : ∀ n : Nat, Txt n (List.replicate n Table.barH).flatten
  | 0 => ⟨[], rfl, Nat.le_refl _, by simp⟩
  | n + 1 => by
    rw [List.replicate_succ, List.flatten_cons]
    exact (txt_barH.append (txt_rule n)).mono (by omega)

/-! ### Cells and lines -/

theorem printable_append {a b : List UInt8} (ha : Printable a) (hb : Printable b) : Printable (a ++ b) := by
  intro x hx
  rcases List.mem_append.1 hx with h | h
  · exact ha x h
  · exact hb x h

theorem printable_spaces (n : Int) : Printable (Table.spaces n) := by
  intro x hx
  rw [List.eq_of_mem_replicate hx]; decide

/-- A cell of printable text is printable text of the column's width. -/
theorem format_printable (text : Table.Bytes) (width : Int) (hw : 0 ≤ width) (al : Table.Alignment) (ha : al ≠ .unknown)
    (hp : Printable text) : ∃ cell, Table.formatCell text width al = some cell ∧ cell.length = width.toNat ∧ Printable cell := by
  obtain ⟨cell, h1, h2, _⟩ := Table.C63_cell_bytes text width hw al ha
  refine ⟨cell, h1, by omega, ?_⟩
  obtain ⟨c1, c2⟩ := Table.C131_cell_content text cell width hw al ha h1
  by_cases hf : (text.length : Int) ≤ width
  · obtain ⟨l, r, hpl, _⟩ := c1 hf
    rw [show cell = _ from hpl]
    refine printable_append (printable_append ?_ hp) ?_ <;>
      (intro x hx; rw [List.eq_of_mem_replicate hx]; decide)
  · obtain ⟨d1, d2⟩ := c2 (by omega)
    have ht : ∀ n, Printable (text.take n) := fun n x hx => hp x (List.mem_of_mem_take hx)
    by_cases h3 : 3 < width
    · rw [d1 h3]
      exact printable_append (ht _) (by intro x hx; simp at hx; rw [hx]; decide)
    · rw [d2 (by omega)]
      exact ht _

/-- A cell of printable text followed by the sort mark, if both fit. -/
theorem format_marked (text : Table.Bytes) (mark : List UInt8) (hm : Txt 2 mark) (h4 : mark.length = 4) (width : Int)
    (hfit : (text.length : Int) + 4 ≤ width) (al : Table.Alignment) (ha : al ≠ .unknown) (hp : Printable text) :
    ∃ cell, Table.formatCell (text ++ mark) width al = some cell ∧ Txt width.toNat cell := by
  obtain ⟨cell, h1, h2, _⟩ := Table.C63_cell_bytes (text ++ mark) width (by omega) al ha
  refine ⟨cell, h1, ?_⟩
  obtain ⟨c1, -⟩ := Table.C131_cell_content (text ++ mark) cell width (by omega) al ha h1
  obtain ⟨l, r, hpl, hlen, _⟩ := c1 (by rw [List.length_append, h4]; push_cast; omega)
  rw [show cell = _ from hpl]
  have rep : ∀ n : Nat, Txt n (List.replicate n 32) := by
    intro n
    have := txt_printable (b := List.replicate n 32) (by intro x hx; rw [List.eq_of_mem_replicate hx]; decide)
    rwa [List.length_replicate] at this
  refine (((rep l).append ((txt_printable hp).append hm)).append (rep r)).mono ?_
  rw [List.length_append, h4] at hlen
  push_cast at hlen
  omega

theorem txt_join {sep : List UInt8} (hsep : Txt 1 sep) {α : Type} {g : α → Option (List UInt8)} {w : α → Table.Column}
    (l : List α) (hw : ∀ a ∈ l, 0 ≤ (w a).width) (hg : ∀ a ∈ l, ∃ b, g a = some b ∧ Txt (w a).width.toNat b) :
    ∃ bs, l.mapM g = some bs ∧ Txt (Table.totalWidth (l.map w)).toNat (Table.joinCells sep bs) ∧ bs.length = l.length ∧
      0 ≤ Table.totalWidth (l.map w) := by
  induction l with
  | nil => exact ⟨[], rfl, ⟨[], rfl, Nat.zero_le _, by simp⟩, rfl, Int.le_refl _⟩
  | cons a l ih =>
    obtain ⟨b, hb, ht⟩ := hg a List.mem_cons_self
    have ha := hw a List.mem_cons_self
    obtain ⟨bs, hbs, hts, hl, h0⟩ := ih (fun x hx => hw x (List.mem_cons_of_mem _ hx))
      (fun x hx => hg x (List.mem_cons_of_mem _ hx))
    refine ⟨b :: bs, by rw [List.mapM_cons, hb, hbs]; rfl, ?_, by simp [hl], ?_⟩
    · cases l with
      | nil =>
        have : bs = [] := List.length_eq_zero_iff.1 hl
        subst this
        exact ht
      | cons a' l' =>
        cases bs with
        | nil => simp at hl
        | cons b' bs' =>
          refine ((ht.append hsep).append hts).mono ?_
          show _ ≤ ((w a).width + 1 + Table.totalWidth ((a' :: l').map w)).toNat
          omega
    · cases l with
      | nil => exact ha
      | cons a' l' =>
        show 0 ≤ (w a).width + 1 + Table.totalWidth ((a' :: l').map w)
        omega

/-- A table whose texts are printable ASCII, whose columns are well formed, and whose sort mark fits into its header. -/
structure PlainTable (ff : Table.F64 → Table.Bytes) (t : Table.T) : Prop where
  width : ∀ c ∈ t.columns, 0 ≤ c.width
  align : ∀ c ∈ t.columns, c.alignment ≠ .unknown
  title : ∀ c ∈ t.columns, Printable c.title
  mark : t.sortDir ≠ .none → ∀ c ∈ t.columns, t.sortKey = c.key → (c.title.length : Int) + 4 ≤ c.width
  cell : ∀ c ∈ t.columns, ∀ r ∈ t.rows, Printable (Table.cellText ff r c)

theorem header_txt {ff : Table.F64 → Table.Bytes} {t : Table.T} (h : PlainTable ff t) :
    ∀ c ∈ t.columns, ∃ b, Table.headerCell t c = some b ∧ Txt c.width.toNat b := by
  intro c hc
  unfold Table.headerCell
  by_cases hs : t.sortDir ≠ .none ∧ t.sortKey = c.key
  · rw [if_pos hs]
    refine format_marked c.title _ ?_ ?_ c.width (h.mark hs.1 c hc hs.2) c.alignment (h.align c hc) (h.title c hc)
    · split
      · exact txt_up
      · exact txt_down
    · split <;> rfl
  · rw [if_neg hs]
    obtain ⟨b, e, hl, hp⟩ := format_printable c.title c.width (h.width c hc) c.alignment (h.align c hc) (h.title c hc)
    exact ⟨b, e, by have := txt_printable hp; rwa [hl] at this⟩

theorem line_txt {ff : Table.F64 → Table.Bytes} {t : Table.T} (h : PlainTable ff t) {r : Table.Row} (hr : r ∈ t.rows)
    (sel : Bool) : ∃ b, Table.dataLine ff t r sel = some b ∧ Txt (Table.totalWidth t.columns).toNat b := by
  unfold Table.dataLine
  have hmem : ∀ ci ∈ t.columns.zipIdx, ci.1 ∈ t.columns := by
    intro ci hci
    rw [(List.mem_zipIdx hci).2.2]
    exact List.getElem_mem _
  obtain ⟨bs, e, hw, _⟩ := txt_join (sep := Table.barV) txt_barV (w := fun ci : Table.Column × Nat => ci.1)
    (g := fun ci => Table.dataCell ff r (sel && ci.2 == 0) ci.1) t.columns.zipIdx
    (fun ci hci => h.width _ (hmem ci hci)) (by
      intro ci hci
      have hc := hmem ci hci
      obtain ⟨b, e, hl, hp⟩ := format_printable (Table.cellText ff r ci.1) ci.1.width (h.width _ hc) ci.1.alignment
        (h.align _ hc) (h.cell _ hc r hr)
      refine ⟨_, by unfold Table.dataCell; rw [e]; rfl, ?_⟩
      rw [← hl]
      split
      · cases b with
        | nil => exact txt_printable hp
        | cons x b =>
          have : Printable (62 :: b) := by
            intro y hy
            rcases List.mem_cons.1 hy with rfl | hy
            · decide
            · exact hp y (List.mem_cons_of_mem _ hy)
          exact txt_printable this
      · exact txt_printable hp)
  refine ⟨Table.joinCells Table.barV bs, by rw [e]; rfl, ?_⟩
  rwa [List.zipIdx_map_fst 0 t.columns] at hw

theorem view_txt {ff : Table.F64 → Table.Bytes} {t : Table.T} (h : PlainTable ff t) {rows : List Table.Row}
    (hv : t.visibleRows = some rows) (hsub : ∀ r ∈ rows, r ∈ t.rows) :
    ∃ lines, t.view ff = some lines ∧ lines.length = (if t.showHeader then 2 else 0) + rows.length ∧
      ∀ l ∈ lines, Txt (Table.totalWidth t.columns).toNat l := by
  obtain ⟨body, hb, hbl, hbw⟩ := Table.mapM_all (Q := Txt (Table.totalWidth t.columns).toNat)
    (g := fun ri : Table.Row × Nat => Table.dataLine ff t ri.1 (decide (t.scroll + (ri.2 : Int) = t.selected))) rows.zipIdx (by
      intro ri hri
      refine line_txt h (hsub _ ?_) _
      rw [(List.mem_zipIdx hri).2.2]; exact List.getElem_mem _)
  by_cases hs : t.showHeader = true
  · obtain ⟨hh, e1, w1, _⟩ := txt_join (sep := Table.barV) txt_barV (w := id) t.columns h.width (header_txt h)
    obtain ⟨rr, e2, w2, _⟩ := txt_join (sep := Table.cross) txt_cross (w := id) (g := Table.ruleCell) t.columns h.width (by
      intro c hc
      have := h.width c hc
      unfold Table.ruleCell
      rw [if_neg (by omega)]
      exact ⟨_, rfl, txt_rule _⟩)
    rw [List.map_id] at w1 w2
    refine ⟨[Table.joinCells Table.barV hh, Table.joinCells Table.cross rr] ++ body, ?_, ?_, ?_⟩
    · unfold Table.T.view
      simp only [hv, hs, e1, e2, hb, if_true, Option.bind_eq_bind, Option.bind_some, Option.pure_def]
    · simp [hbl, hs]; omega
    · intro l hl
      simp only [List.mem_append, List.mem_cons, List.not_mem_nil, or_false] at hl
      rcases hl with (rfl | rfl) | hl
      · exact w1
      · exact w2
      · exact hbw l hl
  · refine ⟨body, ?_, by simp [hbl, hs], hbw⟩
    unfold Table.T.view
    simp [hv, hs, hb]

theorem nl_not_tableChar : ¬ TableChar '\n' := by unfold TableChar; decide

theorem splitLines_lines : ∀ (ls : List Str), (∀ l ∈ ls, '\n' ∉ l) → splitLines (ls.map (· ++ ['\n'])).flatten = ls ++ [[]]
  | [], _ => rfl
  | l :: ls, h => by
    rw [List.map_cons, List.flatten_cons, List.append_assoc]
    show splitLines (l ++ '\n' :: _) = _
    rw [splitLines_cons_nl _ _ (h l (List.mem_cons_self ..))]
    exact congrArg (l :: ·) (splitLines_lines ls fun x hx => h x (List.mem_cons_of_mem _ hx))

/-- The lines of the view as texts. -/
theorem view_splits {ff : Table.F64 → Table.Bytes} {t : Table.T} {w : Nat} {lines : List (List UInt8)}
    (hv : t.view ff = some lines) (hl : ∀ l ∈ lines, Txt w l) :
    ∃ strs : List Str, strs.map utf8Of = lines ∧ splitLines (viewText ff t) = strs ++ [[]] ∧
      ∀ s ∈ strs, s.length ≤ w ∧ ∀ c ∈ s, TableChar c := by
  have key : ∀ lines : List (List UInt8), (∀ l ∈ lines, Txt w l) → ∃ strs : List Str, strs.map utf8Of = lines ∧
      ∀ s ∈ strs, s.length ≤ w ∧ ∀ c ∈ s, TableChar c := by
    intro lines
    induction lines with
    | nil => intro _; exact ⟨[], rfl, by simp⟩
    | cons l ls ih =>
      intro h
      obtain ⟨strs, h1, h2⟩ := ih fun x hx => h x (List.mem_cons_of_mem _ hx)
      obtain ⟨s, g1, g2, g3⟩ := h l (List.mem_cons_self ..)
      refine ⟨s :: strs, by rw [List.map_cons, g1, h1], ?_⟩
      intro x hx
      rcases List.mem_cons.1 hx with rfl | hx
      · exact ⟨g2, g3⟩
      · exact h2 x hx
  obtain ⟨strs, h1, h2⟩ := key lines hl
  refine ⟨strs, h1, ?_, h2⟩
  have hflat : ∀ strs : List Str, utf8Of (strs.map (· ++ ['\n'])).flatten = ((strs.map utf8Of).map (· ++ [10])).flatten := by
    intro strs
    induction strs with
    | nil => rfl
    | cons s ss ih =>
      simp only [List.map_cons, List.flatten_cons]
      rw [utf8Of_append, utf8Of_append, ih]
      rfl
  have hex : ∃ s, ∃ lines, t.view ff = some lines ∧ utf8Of s = (lines.map (· ++ [10])).flatten :=
    ⟨(strs.map (· ++ ['\n'])).flatten, lines, hv, by rw [hflat, h1]⟩
  obtain ⟨lines', e1, e2⟩ := Classical.epsilon_spec hex
  rw [hv] at e1
  obtain rfl := Option.some.inj e1
  have : viewText ff t = (strs.map (· ++ ['\n'])).flatten := utf8Of_inj (by rw [hflat, h1]; exact e2)
  rw [this]
  exact splitLines_lines strs fun s hs hn => nl_not_tableChar ((h2 s hs).2 _ hn)

/-! ### The window is full -/

/-- No row is left out while there is room for it. -/
def Full (t : Table.T) : Prop := t.scroll = 0 ∨ t.scroll + t.visible ≤ t.effective.length

theorem visible_up (t : Table.T) : t.moveUp.visible = t.visible := by unfold Table.T.moveUp; split <;> rfl
theorem visible_down (t : Table.T) : t.moveDown.visible = t.visible := by unfold Table.T.moveDown; split <;> rfl

theorem full_up {t : Table.T} (hw : Table.WinOk t) (h : Full t) : Full t.moveUp := by
  have h5 := hw.scroll0
  have h6 := hw.lo
  unfold Full
  rw [visible_up, (Table.same_moveUp t).2.2.1]
  unfold Full at h
  unfold Table.T.moveUp
  split
  · exact h
  · dsimp only
    split <;> omega

theorem full_down {t : Table.T} (hw : Table.WinOk t) (h : Full t) : Full t.moveDown := by
  obtain ⟨h1, h2, h3, h4, h5, h6, h7⟩ := hw
  unfold Full
  rw [visible_down, (Table.same_moveDown t).2.2.1]
  unfold Full at h
  unfold Table.T.moveDown
  split
  · exact h
  · dsimp only
    split <;> omega

theorem full_pageUp : ∀ (n : Nat) {t : Table.T}, Table.WinOk t → Full t → Full (Table.pageUpLoop n t)
  | 0, _, _, h => h
  | n + 1, t, hw, h => by
    unfold Table.pageUpLoop
    split
    · exact full_pageUp n (Table.winOk_moveUp hw) (full_up hw h)
    · exact h

theorem full_pageDown : ∀ (n : Nat) {t : Table.T}, Table.WinOk t → Full t → Full (Table.pageDownLoop n t)
  | 0, _, _, h => h
  | n + 1, t, hw, h => by
    unfold Table.pageDownLoop
    split
    · exact full_pageDown n (Table.winOk_moveDown hw) (full_down hw h)
    · exact h

/-- What a key leaves alone. -/
structure Kept (t0 t : Table.T) : Prop where
  columns : t.columns = t0.columns
  rows : t.rows = t0.rows
  height : t.height = t0.height
  header : t.showHeader = t0.showHeader
  sort : t.sortDir = .none ∨ (t.sortDir = t0.sortDir ∧ t.sortKey = t0.sortKey)

theorem Kept.same {t0 t t' : Table.T} (h : Kept t0 t) (s : Table.SameData t' t) : Kept t0 t' := by
  obtain ⟨a, b, _, d, e, f, g⟩ := s
  refine ⟨a.trans h.columns, b.trans h.rows, f.trans h.height, g.trans h.header, ?_⟩
  rw [d, e]
  exact h.sort

theorem key_keeps {ff : Table.F64 → Table.Bytes} {t0 t : Table.T} (kb : Table.Keys) (k : KeyMsg) (hs : Table.SortOk ff t)
    (hw : Table.WinOk t) (hf : Full t) (hk : Kept t0 t) : Full (t.handleKey kb k) ∧ Kept t0 (t.handleKey kb k) := by
  unfold Table.T.handleKey
  split
  · exact ⟨full_up hw hf, hk.same (Table.same_moveUp t)⟩
  split
  · exact ⟨full_down hw hf, hk.same (Table.same_moveDown t)⟩
  split
  · exact ⟨Or.inl rfl, hk.same ⟨rfl, rfl, rfl, rfl, rfl, rfl, rfl⟩⟩
  split
  · refine ⟨?_, hk.same ⟨rfl, rfl, rfl, rfl, rfl, rfl, rfl⟩⟩
    obtain ⟨h1, h2, h3, h4, h5, h6, h7⟩ := hw
    unfold Full
    have ev : t.moveToEnd.visible = t.visible := rfl
    have ee : t.moveToEnd.effective = t.effective := rfl
    rw [ev, ee]
    unfold Table.T.moveToEnd
    simp only
    generalize hm : (if (t.effective.length : Int) - 1 < 0 then (0 : Int) else (t.effective.length : Int) - 1) = m
    split
    · left; rfl
    · split at hm <;> omega
  split
  · exact ⟨full_pageUp _ hw hf, hk.same (Table.same_pageUp _ t)⟩
  split
  · exact ⟨full_pageDown _ hw hf, hk.same (Table.same_pageDown _ t)⟩
  split
  · refine ⟨?_, hk.columns, hk.rows, hk.height, hk.header, Or.inl rfl⟩
    unfold Full at hf ⊢
    have ev : t.clearSort.visible = t.visible := rfl
    have ee : t.clearSort.effective = t.rows := rfl
    have es : t.clearSort.scroll = t.scroll := rfl
    rw [ev, ee, es, ← hw.len]
    exact hf
  · exact ⟨hf, hk⟩

theorem keys_keep {ff : Table.F64 → Table.Bytes} (kb : Table.Keys) {t0 : Table.T} (ks : List KeyMsg) : ∀ {t : Table.T},
    Table.SortOk ff t → Table.WinOk t → Full t → Kept t0 t →
    Table.SortOk ff (tableAfter kb t ks) ∧ Table.WinOk (tableAfter kb t ks) ∧ Full (tableAfter kb t ks) ∧
      Kept t0 (tableAfter kb t ks) := by
  induction ks with
  | nil => intro t a b c d; exact ⟨a, b, c, d⟩
  | cons k ks ih =>
    intro t a b c d
    obtain ⟨c', d'⟩ := key_keeps kb k a b c d
    exact ih (Table.sortOk_key a kb k) (Table.winOk_key a b kb k) c' d'

theorem window {t : Table.T} (hw : Table.WinOk t) (hf : Full t) :
    ∃ rows, t.visibleRows = some rows ∧ rows = (t.effective.drop t.scroll.toNat).take rows.length ∧
      rows.length = min t.visible.toNat t.effective.length := by
  obtain ⟨h1, h2, h3, h4, h5, h6, h7⟩ := hw
  unfold Full at hf
  unfold Table.T.visibleRows
  simp only
  by_cases hc : t.scroll ≥ t.effective.length
  · rw [if_pos hc]
    have : t.effective.length = 0 := by omega
    exact ⟨[], rfl, by simp, by rw [this]; simp⟩
  · rw [if_neg hc]
    generalize he : (if t.scroll + t.visible > t.effective.length then (t.effective.length : Int) else t.scroll + t.visible) = e
    have hlen : ((t.effective.drop t.scroll.toNat).take (e - t.scroll).toNat).length = (e - t.scroll).toNat := by
      rw [List.length_take, List.length_drop]
      split at he <;> omega
    rw [if_neg (by split at he <;> omega)]
    refine ⟨_, rfl, by rw [hlen], ?_⟩
    rw [hlen]
    split at he <;> omega

/-- C212.  A program around a Table (any history of public calls before it starts that C62 allows, with the window at the top;
printable ASCII texts, well-formed columns, a sort mark that fits into its header), running inline in a terminal in which its
lines fit; keys as bytes in any pieces, nobody else sending messages.  In every execution, at every moment, for some number `k`
of the first keys the terminal shows, cell by cell, the header and the rule under it if the header is on, then
`min visible n` consecutive ones of the `n` rows as displayed (sorted or not) after these `k` keys, from row number `start` on,
the selected one among them: every row's cells in column order, each the formatted text of its value, separated by `│`, the
first cell of the selected row and no other marked with `>`; then an empty line; and nothing else.  Rows above are as they
were, rows below are empty.  When the input is read and the program is idle `k` covers all keys. -/
theorem C212_table_screen (ff : Table.F64 → Table.Bytes) (kb : Table.Keys) (columns : List Table.Column)
    (ops : List Table.Op) (ht : Table.TameRun ff (Table.T.new columns) ops)
    {d : Dev Pen} {t0 : TT Pen} (h0 : Ready d t0) {cap : Nat} {chunks : List (List Nat)}
    {f : KeyScreen.St (DMsg Unit) (M Table.T Unit) Pen} :
    let t := Table.run ff (Table.T.new columns) ops
    let hdr := if t.showHeader then 2 else 0
    let keys := Input.messages chunks
    PlainTable ff t → t.scroll = 0 → (∀ c, TableChar c → Narrow d c) →
    hdr + min t.visible.toNat t.rows.length + 1 ≤ d.H → (Table.totalWidth t.columns).toNat < d.W →
    KeyScreen.Reach (app (tableComp kb t)) (fun m => viewText ff m.comp) (fun _ => none) cap .key d t0 chunks f → Alone f.s →
    ∃ (k start : Nat) (lines : List Str),
      let u := tableAfter kb t (keys.take k)
      let n := min t.visible.toNat t.rows.length
      f.s.p.model.comp = u ∧
      ShowsText d t0 f.scr.2 (lines ++ [[]]) ∧ lines.length = hdr + n ∧
      (t.showHeader = true → ∃ hs rs, (lines[0]?).map utf8Of = some (Table.joinCells "│".toUTF8.data.toList hs) ∧
        (lines[1]?).map utf8Of = some (Table.joinCells "┼".toUTF8.data.toList rs) ∧
        hs.length = t.columns.length ∧ rs.length = t.columns.length ∧
        ∀ (j : Nat) (c : Table.Column), t.columns[j]? = some c →
          (∃ cell, hs[j]? = some cell ∧
            Table.formatCell (if u.sortDir = .asc ∧ u.sortKey = c.key then c.title ++ " ▲".toUTF8.data.toList
              else if u.sortDir = .desc ∧ u.sortKey = c.key then c.title ++ " ▼".toUTF8.data.toList
              else c.title) c.width c.alignment = some cell) ∧
          rs[j]? = some (List.replicate c.width.toNat "─".toUTF8.data.toList).flatten) ∧
      (∀ i, i < n → ∃ row cells, u.effective[start + i]? = some row ∧
        (lines[hdr + i]?).map utf8Of = some (Table.joinCells "│".toUTF8.data.toList cells) ∧
        cells.length = t.columns.length ∧
        ∀ (j : Nat) (c : Table.Column), t.columns[j]? = some c →
          ∃ cell, Table.formatCell (match c.renderer with | some r => r (row c.key) | none => Table.sprint ff (row c.key))
              c.width c.alignment = some cell ∧
            cells[j]? = some (if ((start + i : Nat) : Int) = u.selected ∧ j = 0 then
              (if cell = [] then [] else 62 :: cell.drop 1) else cell)) ∧
      u.effective.Perm t.rows ∧
      (t.rows ≠ [] → (start : Int) ≤ u.selected ∧ u.selected < start + n) ∧
      (f.s.stolen = 0 → f.s.cancelled = false → f.s.p.loop = .select → f.s.p.queue = [] → f.s.ended = true →
        keys.length ≤ k) := by
  intro t hdr keys hp hsc hch hH hW h ha
  have eV : "│".toUTF8.data.toList = Table.barV := by decide
  have eX : "┼".toUTF8.data.toList = Table.cross := by decide
  have so : Table.SortOk ff t := Table.sortOk_run ff columns ops
  have wo : Table.WinOk t := Table.winOk_run ff columns ops ht
  have hinv := fun i => keys_keep (ff := ff) kb (t0 := t) (keys.take i) so wo (Or.inl hsc)
    ⟨rfl, rfl, rfl, rfl, Or.inr ⟨rfl, rfl⟩⟩
  clear_value t
  have hafter : ∀ ks : List KeyMsg, after (tableComp kb t) ks = tableAfter kb t ks := by
    intro ks; rfl
  have hmain : ∀ i, ∃ (strs : List Str) (bl : List (List UInt8)) (vis : List Table.Row),
      (tableAfter kb t (keys.take i)).view ff = some bl ∧ strs.map utf8Of = bl ∧
      (tableAfter kb t (keys.take i)).visibleRows = some vis ∧
      vis = ((tableAfter kb t (keys.take i)).effective.drop (tableAfter kb t (keys.take i)).scroll.toNat).take vis.length ∧
      vis.length = min t.visible.toNat t.rows.length ∧
      splitLines (viewText ff (tableAfter kb t (keys.take i))) = strs ++ [[]] ∧
      strs.length = hdr + vis.length ∧
      ∀ s ∈ strs, s.length ≤ (Table.totalWidth t.columns).toNat ∧ ∀ c ∈ s, TableChar c := by
    intro i
    obtain ⟨so', wo', fu, ke⟩ := hinv i
    generalize tableAfter kb t (keys.take i) = u at *
    have hvis : u.visible = t.visible := by
      unfold Table.T.visible; rw [ke.height, ke.header]
    have hel : u.effective.length = t.rows.length := by rw [wo'.len, ke.rows]
    obtain ⟨vis, v1, v2, v3⟩ := window wo' fu
    rw [hvis, hel] at v3
    have hpu : PlainTable ff u := by
      refine ⟨by rw [ke.columns]; exact hp.width, by rw [ke.columns]; exact hp.align, by rw [ke.columns]; exact hp.title, ?_,
        by rw [ke.columns, ke.rows]; exact hp.cell⟩
      intro hd
      rw [ke.columns]
      rcases ke.sort with e | ⟨e1, e2⟩
      · exact absurd e hd
      · rw [e2]; exact hp.mark (e1 ▸ hd)
    obtain ⟨bl, b1, b2, b3⟩ := view_txt hpu v1 fun r hr =>
      (Table.effective_perm so').mem_iff.1 (Table.visibleRows_sub v1 r hr)
    obtain ⟨strs, s1, s2, s3⟩ := view_splits b1 b3
    refine ⟨strs, bl, vis, b1, s1, v1, v2, v3, s2, ?_, by rw [← ke.columns]; exact s3⟩
    have := congrArg List.length s1
    rw [List.length_map] at this
    rw [this, b2, ke.header]
  obtain ⟨k, e1, e2, e3⟩ := steady_text (view := fun c => viewText ff c) h ha (by omega) h0
    (fun i => splitLines (viewText ff (tableAfter kb t (keys.take i)))) (fun i => rfl) (by
      intro i
      obtain ⟨strs, bl, vis, -, -, -, -, m5, m6, m7, m8⟩ := hmain i
      show (splitLines _).length ≤ _ ∧ ∀ l ∈ splitLines _, _
      rw [m6]
      refine ⟨by rw [List.length_append, m7, m5]; exact hH, ?_⟩
      intro l hl
      rcases List.mem_append.1 hl with hl | hl
      · obtain ⟨a, b⟩ := m8 l hl
        exact ⟨by omega, fun c hc => hch c (b c hc)⟩
      · have : l = [] := by simpa using hl
        subst this
        exact ⟨by simp; omega, by simp⟩) (by
      intro i
      obtain ⟨_, _, _, -, -, -, -, m5, m6, m7, -⟩ := hmain i
      obtain ⟨_, _, _, -, -, -, -, n5, n6, n7, -⟩ := hmain (i + 1)
      show (splitLines _).length ≤ (splitLines _).length
      rw [m6, n6, List.length_append, List.length_append, m7, n7, m5, n5]
      exact Nat.le_refl _)
  obtain ⟨strs, bl, vis, m1, m2, m3, m4, m5, m6, m7, m8⟩ := hmain k
  obtain ⟨so', wo', fu, ke⟩ := hinv k
  refine ⟨k, (tableAfter kb t (keys.take k)).scroll.toNat, strs, e1, ?_, by rw [m7, m5], ?_, ?_, ?_, ?_, e3⟩
  · rw [← m6]; exact e2
  · intro hs
    obtain ⟨hs', rs, c1, c2, c3, c4, c5⟩ := Table.C132_header ff _ bl m1 (by rw [ke.header]; exact hs)
    rw [ke.columns] at c3 c4 c5
    refine ⟨hs', rs, ?_, ?_, c3, c4, c5⟩
    · rw [eV, ← c1, ← m2, List.getElem?_map]
    · rw [eX, ← c2, ← m2, List.getElem?_map]
  · intro i hi
    obtain ⟨-, g⟩ := Table.C132_rows ff _ bl vis m1 m3
    have hvi : i < vis.length := by rw [m5]; exact hi
    obtain ⟨cells, c1, c2, c3⟩ := g i vis[i] (List.getElem?_eq_getElem hvi)
    rw [ke.columns] at c2 c3
    refine ⟨vis[i], cells, ?_, ?_, c2, ?_⟩
    · have : vis[i]? = some vis[i] := List.getElem?_eq_getElem hvi
      rw [← this]
      refine Eq.trans ?_ (congrArg (·[i]?) m4.symm)
      rw [List.getElem?_take_of_lt hvi, List.getElem?_drop]
    · rw [eV, ← c1, ← m2, List.getElem?_map, ke.header]
    · intro j c hj
      obtain ⟨cell, d1, d2⟩ := c3 j c hj
      refine ⟨cell, d1, ?_⟩
      rw [d2]
      have : (((tableAfter kb t (keys.take k)).scroll.toNat + i : Nat) : Int) = (tableAfter kb t (keys.take k)).scroll + (i : Int) := by
        have := wo'.scroll0
        push_cast; omega
      rw [this]
  · rw [← ke.rows]
    exact Table.effective_perm so'
  · intro hne
    obtain ⟨h1, h2, h3, h4, h5, h6, h7⟩ := wo'
    have hl : 0 < t.rows.length := List.length_pos_iff.2 hne
    have hel : (tableAfter kb t (keys.take k)).effective.length = t.rows.length := by rw [h2, ke.rows]
    have hvis : (tableAfter kb t (keys.take k)).visible = t.visible := by
      unfold Table.T.visible; rw [ke.height, ke.header]
    unfold Full at fu
    rw [hel] at h4 fu
    rw [hvis] at h1 h7 fu
    constructor <;> omega

/-! ### A concrete program -/

def demoCols : List Table.Column := [{ key := "k", title := [75], width := 3 }]
def demoRows : List Table.Row := [fun _ => .int 7, fun _ => .int 8]
def demoTable : Table.T := Table.run (fun _ => []) (Table.T.new demoCols) [.setRows demoRows]

theorem demo_plain : PlainTable (fun _ => []) demoTable := by
  refine ⟨by decide +kernel, by decide +kernel, ?_, fun h => absurd rfl h, ?_⟩
  · intro c hc
    have : c.title = [75] := by
      have hc : c ∈ demoCols := hc
      simp [demoCols] at hc
      rw [hc]
    rw [this]
    unfold Printable
    decide
  · intro c hc r hr
    have hc : c ∈ demoCols := hc
    have hr : r ∈ demoRows := hr
    simp [demoCols] at hc
    simp [demoRows] at hr
    subst hc
    rcases hr with rfl | rfl <;> (unfold Printable; decide +kernel)

theorem demo_narrow : ∀ c, TableChar c → Narrow demoWide c := by
  intro c hc
  refine ⟨?_, ?_, rfl⟩
  · intro e
    subst e
    revert hc
    unfold TableChar
    decide
  · have h1 : 32 ≤ c.toNat ∧ (c.toNat < 127 ∨ 160 ≤ c.toNat) := by
      rcases hc with h | rfl | rfl | rfl | rfl | rfl
      · omega
      all_goals decide
    unfold isCtl
    simp
    omega

/-- After the key `j` the second of two rows is marked on the screen. -/
example : ∃ (f : KeyScreen.St (DMsg Unit) (M Table.T Unit) Bool) (lines : List Str),
    KeyScreen.Reach (app (tableComp {} demoTable)) (fun m => viewText (fun _ => []) m.comp) (fun _ => none) 100 .key
      demoWide demoTop [[106]] f ∧ Alone f.s ∧ ShowsText demoWide demoTop f.scr.2 (lines ++ [[]]) ∧ lines.length = 4 ∧
    (lines[2]?).map utf8Of = some [55, 32, 32] ∧ (lines[3]?).map utf8Of = some [62, 32, 32] := by
  let a := app (tableComp {} demoTable)
  let chunks : List (List Nat) := [[106]]
  have r : Typing.Reach a 100 .key chunks (Typing.start a chunks) := .start
  have r := Typing.Reach.step _ _ r (.read _ (some { type := .rune, rune := 'j' }) ⟨[], []⟩ rfl rfl rfl)
  have r := Typing.Reach.step _ _ r (.put _ (.key { type := .rune, rune := 'j' }) rfl rfl (by decide))
  have r := Typing.Reach.step _ _ r (.eof _ rfl rfl rfl)
  have r := Typing.Reach.step _ _ r (.prog _ _ (.recv _ _ _ rfl rfl))
  have r := Typing.Reach.step _ _ r (.prog _ _ (.update _ _ rfl))
  obtain ⟨f, hf, e⟩ := KeyScreen.reach_of_typing a (fun m => viewText (fun _ => []) m.comp)
    (fun _ => none) 100 .key demoWide demoTop chunks r
  have hk : Input.messages chunks = [{ type := .rune, rune := 'j' }] := by decide +kernel
  obtain ⟨k, start, lines, h1, h2, h3, -, h5, -, h7, h8⟩ := C212_table_screen (fun _ => []) {} demoCols [.setRows demoRows]
    ⟨trivial, trivial⟩ (d := demoWide) demoWide_ready (cap := 100) (chunks := chunks)
    demo_plain rfl demo_narrow (by decide +kernel) (by decide +kernel) hf (by rw [e] <;> rfl)
  have hkl := h8 (by rw [e] <;> rfl) (by rw [e] <;> rfl) (by rw [e] <;> rfl) (by rw [e] <;> rfl) (by rw [e] <;> rfl)
  rw [hk] at hkl h5 h7
  rw [List.take_of_length_le hkl] at h5 h7
  have h7 : (start : Int) ≤ 1 ∧ (1 : Int) < start + (2 : Nat) := h7 (by decide +kernel)
  have hlen : lines.length = 4 := h3
  have row : ∀ i, i < 2 → ∃ row cells, demoRows[start + i]? = some row ∧
      (lines[2 + i]?).map utf8Of = some (Table.joinCells "│".toUTF8.data.toList cells) ∧ cells.length = 1 ∧
      ∃ cell, Table.formatCell (Table.sprint (fun _ => []) (row "k")) 3 .left = some cell ∧
        cells[0]? = some (if ((start + i : Nat) : Int) = 1 ∧ 0 = 0 then (if cell = [] then [] else 62 :: cell.drop 1)
          else cell) := by
    intro i hi
    obtain ⟨row, cells, g1, g2, g3, g4⟩ := h5 i hi
    exact ⟨row, cells, g1, g2, g3, g4 0 _ rfl⟩
  have hstart : start = 0 := by
    obtain ⟨row, _, g, _⟩ := row 1 (by decide)
    have : start + 1 < demoRows.length := (List.getElem?_eq_some_iff.1 g).1
    have : demoRows.length = 2 := rfl
    omega
  subst hstart
  have one : ∀ cells : List Table.Bytes, ∀ c, cells.length = 1 → cells[0]? = some c →
      Table.joinCells "│".toUTF8.data.toList cells = c := by
    intro cells c hl hc
    match cells, hl with
    | [x], _ => simpa [Table.joinCells] using hc
  refine ⟨f, lines, hf, by rw [e]; rfl, h2, hlen, ?_, ?_⟩
  · obtain ⟨row, cells, g1, g2, g3, cell, g4, g5⟩ := row 0 (by decide)
    have g1 : (fun _ => .int 7 : Table.Row) = row := Option.some.inj g1
    subst g1
    have : Table.formatCell (Table.sprint (fun _ => []) (.int 7)) 3 .left = some [55, 32, 32] := by decide +kernel
    rw [this] at g4
    obtain rfl := Option.some.inj g4
    rw [g2, one cells _ g3 g5]
    decide
  · obtain ⟨row, cells, g1, g2, g3, cell, g4, g5⟩ := row 1 (by decide)
    have g1 : (fun _ => .int 8 : Table.Row) = row := Option.some.inj g1
    subst g1
    have : Table.formatCell (Table.sprint (fun _ => []) (.int 8)) 3 .left = some [56, 32, 32] := by decide +kernel
    rw [this] at g4
    obtain rfl := Option.some.inj g4
    rw [g2, one cells _ g3 g5]
    decide

end Phoenix.Dialog
