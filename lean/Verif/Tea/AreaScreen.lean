import Verif.Tea.EditorScreen
/-
C199: a text area in a running program, from the bytes of the keyboard to the cells of the terminal.  Parts:
Tea/KeyScreenModel.lean, TextArea/Model.lean, TextArea/ViewModel.lean.
-/
set_option linter.unusedVariables false
set_option linter.unusedSimpArgs false
namespace Phoenix.Editor
open Phoenix.Program Phoenix.Inline Phoenix.Picture

variable {Pen : Type}

/-- A program around a text area configured and filled by `ops`; Update passes keys on
(components/input/textarea.go Update). -/
def areaWidgetApp (ops : List TextArea.WOp) : App KeyMsg TextArea.Wid :=
  around (TextArea.Wid.new.run ops) (fun w k => w.step (.op (.key k)))

/-- Its view (components/input/textarea.go:355-357); a panic of View does not occur here (C161). -/
def areaView (gray : List Char → List Char) (w : TextArea.Wid) : Str := (w.view gray).getD []

/-- What the theorem needs of the terminal: SGR 7 and 27 switch to the pen `pc` and back. -/
structure Reverse (d : Dev Pen) (pc : Pen) : Prop where
  on : d.sgr d.p0 ['7'] = pc
  off : d.sgr pc ['2', '7'] = d.p0

/-- What a text area has to show, row by row, reverse video marked by `true`: the lines in its window with line number and
cursor (C161); a single blank row if it is empty. -/
def areaRows (w : TextArea.Wid) : List (List (Char × Bool)) :=
  if w.ta.isEmpty then [[]] else w.ta.window.zipIdx.map fun p => w.rowCells p.2 p.1

/-- A text area that fits the terminal: all characters printable and one column wide, every row narrower than the
terminal, at least one and no more rows than the terminal has; no placeholder while it is empty. -/
structure Fits (d : Dev Pen) (w : TextArea.Wid) : Prop where
  height : 0 ≤ w.ta.height
  one : w.ta.window ≠ []
  rows : (areaRows w).length ≤ d.H
  narrow : ∀ l ∈ w.ta.lines, ∀ c ∈ l, Narrow d c
  width : ∀ r ∈ areaRows w, r.length < d.W
  empty : w.ta.isEmpty = true → w.placeholder = []

/-- From `u` to `w` the number of rows does not decrease, or the new last row differs from the row that was there. -/
def NoErase (u w : TextArea.Wid) : Prop :=
  (areaRows w).length < (areaRows u).length → (areaRows u)[(areaRows w).length - 1]? ≠ (areaRows w).getLast?

theorem lineNumber_narrow {d : Dev Pen} (hd : ∀ c, c = ' ' ∨ ('0' ≤ c ∧ c ≤ '9') → d.tw c = 1) (n : Nat) :
    ∀ c ∈ TextArea.lineNumber n, Narrow d c := by
  have key : ∀ c ∈ TextArea.lineNumber n, c ∈ [' ', '0', '1', '2', '3', '4', '5', '6', '7', '8', '9'] := by
    intro c hc
    unfold TextArea.lineNumber at hc
    simp only [List.mem_append, List.mem_replicate, List.mem_singleton] at hc
    rcases hc with (h | h) | h
    · rw [h.2]; decide
    · obtain ⟨b, hb, rfl⟩ := List.mem_map.1 h
      have := Dec.digitsAux_digits _ _ b hb
      unfold Dec.isDigit at this
      simp at this
      obtain ⟨h1, h2⟩ := this
      have : b = 48 ∨ b = 49 ∨ b = 50 ∨ b = 51 ∨ b = 52 ∨ b = 53 ∨ b = 54 ∨ b = 55 ∨ b = 56 ∨ b = 57 := by omega
      rcases this with rfl | rfl | rfl | rfl | rfl | rfl | rfl | rfl | rfl | rfl <;> decide
    · rw [h]; decide
  intro c hc
  have := key c hc
  simp only [List.mem_cons, List.not_mem_nil, or_false] at this
  rcases this with rfl | rfl | rfl | rfl | rfl | rfl | rfl | rfl | rfl | rfl | rfl <;>
    exact ⟨by decide, by decide, hd _ (by first | exact Or.inl rfl | exact Or.inr ⟨by decide, by decide⟩)⟩

theorem revOn_eq : TextArea.revOn = sgrs [['7']] := by decide
theorem revOff_eq : TextArea.revOff = sgrs [['2', '7']] := by decide

/-- The picture of a row. -/
theorem paint_row {d : Dev Pen} {pc : Pen} (hr : Reverse d pc) (hd : ∀ c, c = ' ' ∨ ('0' ≤ c ∧ c ≤ '9') → d.tw c = 1)
    (w : TextArea.Wid) (i : Nat) (l : TextArea.Line) (hl : ∀ c ∈ l, Narrow d c) :
    Paint d (w.rowText i l) (pic d.p0 pc (w.rowCells i l)) (w.rowCells i l).length := by
  unfold TextArea.Wid.rowText TextArea.Wid.rowCells
  simp only
  generalize hnum : (if w.numbers then TextArea.lineNumber (i + w.ta.scrollRow.toNat + 1) else []) = num
  have hnum' : (if w.numbers then TextArea.plain (TextArea.lineNumber (i + w.ta.scrollRow.toNat + 1)) else []) =
      TextArea.plain num := by
    rw [← hnum]; split <;> rfl
  have hnn : ∀ c ∈ num, Narrow d c := by
    rw [← hnum]
    split
    · exact lineNumber_narrow hd _
    · intro c hc; cases hc
  rw [hnum']
  have hsp : Narrow d ' ' := ⟨by decide, by decide, hd _ (Or.inl rfl)⟩
  have hplen : ∀ s : Str, (TextArea.plain s).length = s.length := fun s => by simp [TextArea.plain]
  have hpap : ∀ a b : Str, TextArea.plain (a ++ b) = TextArea.plain a ++ TextArea.plain b := fun a b => by
    simp [TextArea.plain]
  have hmark : ∀ a m b : Str, (∀ c ∈ a, Narrow d c) → (∀ c ∈ m, Narrow d c) → (∀ c ∈ b, Narrow d c) →
      Paint d (a ++ TextArea.revOn ++ m ++ TextArea.revOff ++ b)
        (pic d.p0 pc (TextArea.plain a ++ m.map (fun c => (c, true)) ++ TextArea.plain b)) (a.length + m.length + b.length) := by
    intro a m b ha hm hb
    rw [revOn_eq, revOff_eq]
    refine paint_mark d pc _ _ a m b ha hm hb ?_ ?_ hr.on hr.off
    · intro p hp c hc
      rw [List.mem_singleton.1 hp, List.mem_singleton] at hc
      subst hc; decide
    · intro p hp c hc
      rw [List.mem_singleton.1 hp] at hc
      simp only [List.mem_cons, List.not_mem_nil, or_false] at hc
      rcases hc with rfl | rfl <;> decide
  split
  · unfold TextArea.lineWithCursor
    split
    · rename_i hc
      rw [TextArea.marked_end l _ hc]
      have := hmark (num ++ l) [' '] [] (by
        intro c hc; rcases List.mem_append.1 hc with h | h
        · exact hnn c h
        · exact hl c h) (by intro c hc; rw [List.mem_singleton.1 hc]; exact hsp) (by intro c hc; cases hc)
      simp only [List.append_assoc, List.append_nil] at this ⊢
      rw [hpap] at this
      have e : (TextArea.plain num ++ (TextArea.plain l ++ [(' ', true)])).length =
          (num ++ l).length + [' '].length + ([] : Str).length := by
        simp [hplen, Nat.add_assoc]
      rw [e]
      simpa [TextArea.plain] using this
    · rename_i hc
      rw [TextArea.marked_split l _ (by omega)]
      have hch : Narrow d (l.getD w.ta.col ' ') := by
        rw [List.getD_eq_getElem?_getD, List.getElem?_eq_getElem (by omega)]
        exact hl _ (List.getElem_mem _)
      have := hmark (num ++ l.take w.ta.col) [l.getD w.ta.col ' '] (l.drop (w.ta.col + 1)) (by
        intro c hc; rcases List.mem_append.1 hc with h | h
        · exact hnn c h
        · exact hl c (List.mem_of_mem_take h)) (by intro c hc; rw [List.mem_singleton.1 hc]; exact hch)
        (fun c hc => hl c (List.mem_of_mem_drop hc))
      rw [hpap] at this
      have e : (TextArea.plain num ++ (TextArea.plain (l.take w.ta.col) ++ [(l.getD w.ta.col ' ', true)] ++
            TextArea.plain (l.drop (w.ta.col + 1)))).length =
          (num ++ l.take w.ta.col).length + [l.getD w.ta.col ' '].length + (l.drop (w.ta.col + 1)).length := by
        simp only [List.length_append, hplen, List.length_cons, List.length_nil]; omega
      rw [e]
      simp only [List.append_assoc] at this ⊢
      exact this
  · have := paint_line d pc (num ++ l) (by
        intro c hc; rcases List.mem_append.1 hc with h | h
        · exact hnn c h
        · exact hl c h)
    rw [hpap] at this
    rw [List.length_append, hplen, hplen, ← List.length_append]
    exact this

theorem splitLines_cons_nl (l rest : Str) (h : '\n' ∉ l) : splitLines (l ++ '\n' :: rest) = l :: splitLines rest := by
  induction l with
  | nil => rw [List.nil_append, splitLines, if_pos rfl]
  | cons c cs ih =>
    have hc : c ≠ '\n' := by intro e; exact h (by rw [e]; exact List.mem_cons_self ..)
    rw [List.cons_append, splitLines, if_neg hc, ih (fun hx => h (List.mem_cons_of_mem _ hx))]

/-- Joining rows with line breaks and splitting again gives the rows. -/
theorem splitLines_bufString (ls : List Str) (hne : ls ≠ []) (h : ∀ l ∈ ls, '\n' ∉ l) :
    splitLines (TextArea.bufString ls) = ls := by
  induction ls with
  | nil => exact absurd rfl hne
  | cons l ls ih =>
    cases ls with
    | nil => exact splitLines_one l (h l (by simp))
    | cons l' ls =>
      rw [TextArea.bufString, splitLines_cons_nl _ _ (h l (by simp)), ih (by simp) (fun x hx => h x (by simp [hx]))]

theorem rowText_no_newline {d : Dev Pen} (hd : ∀ c, c = ' ' ∨ ('0' ≤ c ∧ c ≤ '9') → d.tw c = 1)
    (w : TextArea.Wid) (i : Nat) (l : TextArea.Line) (hl : ∀ c ∈ l, Narrow d c) : '\n' ∉ w.rowText i l := by
  have hnl : ¬ Narrow d '\n' := fun h => absurd h.2.1 (by decide)
  have hl' : '\n' ∉ l := fun h => hnl (hl _ h)
  have hon : '\n' ∉ TextArea.revOn := by decide
  have hoff : '\n' ∉ TextArea.revOff := by decide
  intro h
  unfold TextArea.Wid.rowText at h
  simp only at h
  rcases List.mem_append.1 h with h | h
  · split at h
    · exact hnl (lineNumber_narrow hd _ _ h)
    · cases h
  · split at h
    · unfold TextArea.lineWithCursor at h
      split at h
      · simp only [List.mem_append, List.mem_singleton] at h
        rcases h with ((h | h) | h) | h
        · exact hl' h
        · exact hon h
        · revert h; decide
        · exact hoff h
      · rename_i hc
        simp only [List.mem_append, List.mem_singleton] at h
        rcases h with (((h | h) | h) | h) | h
        · exact hl' (List.mem_of_mem_take h)
        · exact hon h
        · apply hl'
          rw [h, List.getD_eq_getElem?_getD, List.getElem?_eq_getElem (by omega)]
          exact List.getElem_mem _
        · exact hoff h
        · exact hl' (List.mem_of_mem_drop h)
    · exact hl' h

/-- The lines drawn for the rows. -/
def areaTexts (w : TextArea.Wid) : List Str :=
  if w.ta.isEmpty then [[]] else w.ta.window.zipIdx.map fun p => w.rowText p.2 p.1

theorem areaTexts_length (w : TextArea.Wid) : (areaTexts w).length = (areaRows w).length := by
  unfold areaTexts areaRows
  split <;> simp

theorem areaTexts_ne {d : Dev Pen} {w : TextArea.Wid} (hf : Fits d w) : areaTexts w ≠ [] := by
  unfold areaTexts
  split
  · simp
  · intro e
    have := congrArg List.length e
    rw [List.length_map, List.length_zipIdx] at this
    exact hf.one (List.length_eq_zero_iff.1 this)

theorem window_narrow {d : Dev Pen} {w : TextArea.Wid} (hf : Fits d w) : ∀ l ∈ w.ta.window, ∀ c ∈ l, Narrow d c :=
  fun l hl => hf.narrow l (List.mem_of_mem_drop (List.mem_of_mem_take hl))

/-- Text and picture of a row. -/
theorem area_row {d : Dev Pen} {pc : Pen} (hr : Reverse d pc) (hd : ∀ c, c = ' ' ∨ ('0' ≤ c ∧ c ≤ '9') → d.tw c = 1)
    {w : TextArea.Wid} (hf : Fits d w) {i : Nat} {r : List (Char × Bool)} (h : (areaRows w)[i]? = some r) :
    ∃ t, (areaTexts w)[i]? = some t ∧ Paint d t (pic d.p0 pc r) r.length ∧ '\n' ∉ t ∧ TextArea.paint t false = [r] := by
  unfold areaRows at h
  unfold areaTexts
  split at h
  · rename_i he
    rw [if_pos he]
    cases i with
    | succ i => simp at h
    | zero =>
      simp only [List.getElem?_cons_zero, Option.some.injEq] at h
      subst h
      exact ⟨[], rfl, paint_line d pc [] (by intro c hc; cases hc), by simp, rfl⟩
  · rename_i he
    rw [if_neg he]
    rw [List.getElem?_map, List.getElem?_zipIdx] at h
    cases hx : w.ta.window[i]? with
    | none => rw [hx] at h; cases h
    | some l =>
      rw [hx] at h
      simp only [Option.map_some, Nat.zero_add, Option.some.injEq] at h
      subst h
      have hn := window_narrow hf l (List.mem_of_getElem? hx)
      refine ⟨w.rowText i l, by rw [List.getElem?_map, List.getElem?_zipIdx, hx]; simp, paint_row hr hd w i l hn,
        rowText_no_newline hd w i l hn, ?_⟩
      have hp : TextArea.Printable l := ⟨fun m => absurd (hn _ m).2.1 (by decide), fun m => (hn _ m).1 rfl⟩
      have := TextArea.paint_rowText w i l hp []
      rw [List.append_nil] at this
      rw [this]
      simp [TextArea.paint, TextArea.consCells]

/-- The lines of the view of a text area that fits. -/
theorem area_lines {d : Dev Pen} {pc : Pen} (hr : Reverse d pc) (hd : ∀ c, c = ' ' ∨ ('0' ≤ c ∧ c ≤ '9') → d.tw c = 1)
    (gray : List Char → List Char) (ops : List TextArea.WOp) (w : TextArea.Wid) (hw : w = TextArea.Wid.new.run ops)
    (hf : Fits d w) :
    splitLines (areaView gray w) = areaTexts w ∧ (∀ l ∈ areaTexts w, GoodLine d l) := by
  have hs : 0 ≤ w.ta.scrollRow := by
    rw [hw, TextArea.wid_ta]; exact TextArea.run_scroll_nonneg _ _ (by decide)
  have hmem : ∀ l ∈ areaTexts w, ∃ (i : Nat) (r : List (Char × Bool)), (areaTexts w)[i]? = some l ∧ (areaRows w)[i]? = some r := by
    intro l hl
    obtain ⟨i, hi, rfl⟩ := List.getElem_of_mem hl
    have hi' : i < (areaRows w).length := by rw [← areaTexts_length]; exact hi
    exact ⟨i, _, List.getElem?_eq_getElem hi, List.getElem?_eq_getElem hi'⟩
  refine ⟨?_, ?_⟩
  · have hv : areaView gray w = TextArea.bufString (areaTexts w) := by
      unfold areaView TextArea.Wid.view TextArea.Wid.content areaTexts
      rw [TextArea.visibleLines_window hs hf.height]
      split
      · rename_i he
        rw [hf.empty he]
        rfl
      · rfl
    rw [hv]
    apply splitLines_bufString _ (areaTexts_ne hf)
    intro l hl
    obtain ⟨i, r, h1, h2⟩ := hmem l hl
    obtain ⟨t, g1, _, g3, _⟩ := area_row hr hd hf h2
    rw [h1] at g1
    cases g1; exact g3
  · intro l hl
    obtain ⟨i, r, h1, h2⟩ := hmem l hl
    obtain ⟨t, g1, g2, _, _⟩ := area_row hr hd hf h2
    rw [h1] at g1
    cases g1
    exact ⟨_, _, g2, hf.width r (List.mem_of_getElem? h2)⟩

/-- Equal texts are equal rows. -/
theorem area_kept {d : Dev Pen} {pc : Pen} (hr : Reverse d pc) (hd : ∀ c, c = ' ' ∨ ('0' ≤ c ∧ c ≤ '9') → d.tw c = 1)
    {u w : TextArea.Wid} (hu : Fits d u) (hw : Fits d w) (h : NoErase u w)
    (hlt : (areaTexts w).length < (areaTexts u).length) :
    (areaTexts u)[(areaTexts w).length - 1]? ≠ (areaTexts w).getLast? := by
  rw [areaTexts_length, areaTexts_length] at hlt
  intro e
  apply h hlt
  rw [areaTexts_length, List.getLast?_eq_getElem?, areaTexts_length] at e
  rw [List.getLast?_eq_getElem?]
  have hpos : 0 < (areaRows w).length := by
    rw [← areaTexts_length]; exact List.length_pos_iff.2 (areaTexts_ne hw)
  have h1 := List.getElem?_eq_getElem (l := areaRows u) (i := (areaRows w).length - 1) (by omega)
  have h2 := List.getElem?_eq_getElem (l := areaRows w) (i := (areaRows w).length - 1) (by omega)
  obtain ⟨t1, a1, _, _, b1⟩ := area_row hr hd hu h1
  obtain ⟨t2, a2, _, _, b2⟩ := area_row hr hd hw h2
  rw [a1, a2] at e
  cases e
  rw [b1] at b2
  rw [h1, h2, List.singleton_inj.1 b2]

/-- The text area after the configuration `ops` and some keys. -/
def areaAfter (ops : List TextArea.WOp) (ks : List KeyMsg) : TextArea.Wid :=
  TextArea.Wid.new.run (ops ++ ks.map fun k => .op (.key k))

/-- C199, the full claim (here only its clause about the rows of the window). -/
def C199_statement : Prop :=
  ∀ (Pen : Type) (d : Dev Pen) (pc : Pen), Reverse d pc → (∀ c, c = ' ' ∨ ('0' ≤ c ∧ c ≤ '9') → d.tw c = 1) → 0 < d.W →
  ∀ (ops : List TextArea.WOp) (t0 : TT Pen), Ready d t0 → ∀ (cap : Nat) (ks : List Input.Key),
    (∀ k ∈ ks, k.Supported) → ∀ chunks : List (List Input.Piece), chunks.flatten = ks.flatMap Input.Key.pieces →
    (∀ x ∈ chunks, Input.EscLast x) →
    (∀ k, Fits d (areaAfter ops ((ks.take k).map Input.Key.msg))) →
    ∀ f : KeyScreen.St KeyMsg TextArea.Wid Pen,
    KeyScreen.Reach (areaWidgetApp ops) (areaView id) (fun _ => none) cap id d t0 (chunks.map Input.bytesOf) f →
    f.s.others = [] →
    ∀ i r, (areaRows f.s.p.model)[i]? = some r → ∀ j, f.scr.2.rows (t0.row + i) j = pic d.p0 pc r j

/-- C199.  Any keys (all but F1-F4, bytes in chunks that do not split escape sequences) typed at the terminal into a
program around a text area with any options and any text, nobody else sending messages, as long as the text area
fits the terminal and no key shortens the picture while its last row stays as it was (`NoErase`, the defect of C16).  In
every execution, at every moment, for some number `k` of the first keys: from the row on where the program was started
the terminal shows cell by cell the lines in the window of the text area after these `k` keys, line numbers included,
reverse video on exactly the character at the cursor; all rows above are as they were, all rows below are empty.  When
the input is read and the program is idle `k` covers all keys.  (What the keys do to the text: C02, C191.) -/
theorem C199_area_screen_partial {d : Dev Pen} {pc : Pen} (hr : Reverse d pc)
    (hd : ∀ c, c = ' ' ∨ ('0' ≤ c ∧ c ≤ '9') → d.tw c = 1) (hW : 0 < d.W)
    (gray : List Char → List Char) (ops : List TextArea.WOp) {t0 : TT Pen} (h0 : Ready d t0) {cap : Nat}
    (ks : List Input.Key) (hs : ∀ k ∈ ks, k.Supported) (chunks : List (List Input.Piece))
    (hc : chunks.flatten = ks.flatMap Input.Key.pieces) (he : ∀ x ∈ chunks, Input.EscLast x)
    (hfit : ∀ k, Fits d (areaAfter ops ((ks.take k).map Input.Key.msg)))
    (herase : ∀ k, NoErase (areaAfter ops ((ks.take k).map Input.Key.msg))
      (areaAfter ops ((ks.take (k + 1)).map Input.Key.msg)))
    {f : KeyScreen.St KeyMsg TextArea.Wid Pen}
    (h : KeyScreen.Reach (areaWidgetApp ops) (areaView gray) (fun _ => none) cap id d t0
      (chunks.map Input.bytesOf) f) (ho : f.s.others = []) :
    ∃ k, let w := areaAfter ops ((ks.take k).map Input.Key.msg)
      f.s.p.model = w ∧
      (∀ i r, (areaRows w)[i]? = some r → ∀ j, f.scr.2.rows (t0.row + i) j = pic d.p0 pc r j) ∧
      (∀ i, i < t0.row → f.scr.2.rows i = t0.rows i) ∧
      (∀ i, t0.row + (areaRows w).length ≤ i → ∀ j, f.scr.2.rows i j = Cell.blank d.p0) ∧
      (f.s.stolen = 0 → f.s.cancelled = false → f.s.p.loop = .select → f.s.p.queue = [] → f.s.ended = true →
        ks.length ≤ k) := by
  have hmsg := Input.C25_partial ks hs chunks hc he
  have hafter : ∀ i, KeyScreen.afterKeys (areaWidgetApp ops) id ((ks.map Input.Key.msg).take i) =
      areaAfter ops ((ks.take i).map Input.Key.msg) := by
    intro i
    rw [areaWidgetApp, afterKeys_around, ← List.map_take]
    unfold areaAfter TextArea.Wid.run
    rw [List.foldl_append]
    generalize ((ks.take i).map Input.Key.msg) = l
    rw [List.foldl_map]
  have hlines : ∀ i, _ := fun i => area_lines hr hd gray _ (areaAfter ops ((ks.take i).map Input.Key.msg)) rfl (hfit i)
  obtain ⟨k, hm, hdisp, hall⟩ := keys_screen h hW h0 (by
      intro i
      rw [hmsg, hafter, (hlines i).1]
      refine ⟨?_, (hlines i).2⟩
      rw [areaTexts_length]; exact (hfit i).rows) (by
      intro i
      rw [hmsg, hafter, hafter]
      unfold Kept
      rw [(hlines i).1, (hlines (i + 1)).1]
      exact area_kept hr hd (hfit i) (hfit (i + 1)) (herase i)) ho
  rw [hmsg] at hm hdisp hall
  rw [hafter] at hm hdisp
  rw [(hlines k).1] at hdisp
  refine ⟨k, hm, ?_, hdisp.above, ?_, ?_⟩
  · intro i r hl j
    obtain ⟨t, g1, g2, _, _⟩ := area_row hr hd (hfit k) hl
    obtain ⟨m, hp⟩ := hdisp.shown i t g1
    exact congrFun (paint_unique d hp g2) j
  · intro i hi j
    exact hdisp.below i (by rw [areaTexts_length]; exact hi) j
  · intro h1 h2 h3 h4 h5
    have := hall h1 h2 h3 h4 h5
    rwa [List.length_map] at this

/-! ### A concrete text area -/

/-- Four lines a, b, c, c, the cursor behind the a. -/
def demoOps : List TextArea.WOp := [.op (.setValue ['a', '\n', 'b', '\n', 'c', '\n', 'c']), .op (.setCursorPosition 0 1)]

/-- Ten columns, six rows. -/
def demoTall : Dev Bool where
  W := 10
  H := 6
  tw := fun _ => 1
  p0 := false
  sgr := fun _ s => decide (s = ['7'])
  osc := fun p _ => p

def demoTop : TT Bool where
  rows := fun _ _ => Cell.blank false
  row := 0
  col := 0
  top := 0
  pend := false
  pen := false
  ps := .normal

theorem demoTop_ready : Ready demoTall demoTop :=
  ⟨rfl, rfl, rfl, rfl, by decide, by decide, fun i hi j => rfl⟩

theorem demoTall_reverse : Reverse demoTall true := ⟨by decide, by decide⟩

instance (c : Char) : Decidable (Narrow demoTall c) := by unfold Narrow; infer_instance

instance (w : TextArea.Wid) : Decidable (NoErase (areaAfter demoOps []) w) := by unfold NoErase; infer_instance

theorem fits_of {w : TextArea.Wid} (h1 : 0 ≤ w.ta.height) (h2 : w.ta.window ≠ []) (h3 : (areaRows w).length ≤ 6)
    (h4 : ∀ l ∈ w.ta.lines, ∀ c ∈ l, Narrow demoTall c) (h5 : ∀ r ∈ areaRows w, r.length < 10)
    (h6 : w.ta.isEmpty = false) : Fits demoTall w := ⟨h1, h2, h3, h4, h5, fun h => by rw [h6] at h; cases h⟩

/-- Typing Enter: the text area fits before and after. -/
theorem demo_fits : ∀ k, Fits demoTall (areaAfter demoOps (([Input.Key.enter].take k).map Input.Key.msg)) := by
  intro k
  cases k with
  | zero => exact fits_of (by decide) (by decide) (by decide) (by decide) (by decide) (by decide)
  | succ k =>
    rw [List.take_of_length_le (by simp)]
    exact fits_of (by decide +kernel) (by decide +kernel) (by decide +kernel) (by decide +kernel) (by decide +kernel)
      (by decide +kernel)

theorem demo_noErase : ∀ k, NoErase (areaAfter demoOps (([Input.Key.enter].take k).map Input.Key.msg))
    (areaAfter demoOps (([Input.Key.enter].take (k + 1)).map Input.Key.msg)) := by
  intro k
  cases k with
  | zero => show NoErase (areaAfter demoOps []) _; decide +kernel
  | succ k =>
    rw [List.take_of_length_le (by simp), List.take_of_length_le (by simp)]
    intro h
    exact absurd h (Nat.lt_irrefl _)

/-- The theorem applies: Enter typed into the text area moves the cursor to a new second row, the last row moves down. -/
example : ∃ f, KeyScreen.Reach (areaWidgetApp demoOps) (areaView id) (fun _ => none) 100 id demoTall demoTop [[13]] f ∧
    f.s.p.loop = .select ∧ f.scr.2.rows 0 0 = ⟨['a'], false, false⟩ ∧ f.scr.2.rows 0 1 = Cell.blank false ∧
    f.scr.2.rows 1 0 = ⟨[' '], true, false⟩ ∧ f.scr.2.rows 4 0 = ⟨['c'], false, false⟩ := by
  let a := areaWidgetApp demoOps
  let chunks : List (List Nat) := [[13]]
  have r : Typing.Reach a 100 id chunks (Typing.start a chunks) := .start
  have r := Typing.Reach.step _ _ r (.read _ (some { type := .enter }) ⟨[], []⟩ rfl rfl rfl)
  have r := Typing.Reach.step _ _ r (.put _ { type := .enter } rfl rfl (by decide))
  have r := Typing.Reach.step _ _ r (.eof _ rfl rfl rfl)
  have r := Typing.Reach.step _ _ r (.prog _ _ (.recv _ _ _ rfl rfl))
  have r := Typing.Reach.step _ _ r (.prog _ _ (.update _ _ rfl))
  obtain ⟨f, hf, e⟩ := KeyScreen.reach_of_typing a (areaView id) (fun _ => none) 100 id demoTall demoTop chunks r
  refine ⟨f, hf, by rw [e] <;> rfl, ?_⟩
  obtain ⟨k, hm, hrows, _, _, hk⟩ := C199_area_screen_partial demoTall_reverse (fun _ _ => rfl) (by decide) id demoOps
    demoTop_ready [.enter] (by
      intro k hk
      rw [List.mem_singleton.1 hk]
      exact ⟨trivial, by intro n h; cases h⟩) [[.byte 13]] rfl (by
      intro x hx
      rw [List.mem_singleton.1 hx]
      exact Input.EscLast.prepend (l := [13]) (b := []) (by intro a b h; simp at h)) demo_fits demo_noErase
    (f := f) hf (by rw [e] <;> rfl)
  have hk := hk (by rw [e] <;> rfl) (by rw [e] <;> rfl) (by rw [e] <;> rfl) (by rw [e] <;> rfl) (by rw [e] <;> rfl)
  rw [List.take_of_length_le hk] at hrows
  have h0 := fun j => hrows 0 [('a', false)] (by decide +kernel) j
  have h1 := fun j => hrows 1 [(' ', true)] (by decide +kernel) j
  have h4 := fun j => hrows 4 [('c', false)] (by decide +kernel) j
  exact ⟨h0 0, h0 1, h1 0, h4 0⟩

/-- False: Delete at the end of the first of the lines a, b, c, c leaves the third row blank instead of showing c (the
defect of C16: a kept last line is erased when the frame shrinks). -/
theorem C199_refuted : ¬ C199_statement := by
  intro H
  let a := areaWidgetApp demoOps
  let chunks : List (List Nat) := [[27, 91, 51, 126]]
  have r : Typing.Reach a 100 id chunks (Typing.start a chunks) := .start
  have r := Typing.Reach.step _ _ r (.read _ (some { type := .delete }) ⟨[], []⟩ rfl rfl rfl)
  have r := Typing.Reach.step _ _ r (.put _ { type := .delete } rfl rfl (by decide))
  have r := Typing.Reach.step _ _ r (.prog _ _ (.recv _ _ _ rfl rfl))
  have r := Typing.Reach.step _ _ r (.prog _ _ (.update _ _ rfl))
  obtain ⟨f, hf, e⟩ := KeyScreen.reach_of_typing a (areaView id) (fun _ => none) 100 id demoTall demoTop chunks r
  have := H Bool demoTall true demoTall_reverse (fun _ _ => rfl) (by decide) demoOps demoTop demoTop_ready 100 [.delete] (by
      intro k hk
      rw [List.mem_singleton.1 hk]
      exact ⟨trivial, by intro n h; cases h⟩) [[.seq .delete]] rfl (by
      intro x hx
      rw [List.mem_singleton.1 hx]
      intro a b h
      cases a with
      | nil => injection h with h _; injection h with h; cases h
      | cons y ys =>
        have := congrArg List.length h
        simp at this)
    (by
      intro k
      cases k with
      | zero => exact fits_of (by decide) (by decide) (by decide) (by decide) (by decide) (by decide)
      | succ k =>
        rw [List.take_of_length_le (by simp)]
        exact fits_of (by decide +kernel) (by decide +kernel) (by decide +kernel) (by decide +kernel)
          (by decide +kernel) (by decide +kernel)) f hf (by rw [e] <;> rfl) 2 [('c', false)] (by rw [e]; decide +kernel) 0
  rw [(KeyScreen.reach_inv hf).2, e] at this
  have := congrArg Cell.ch this
  revert this
  decide +kernel

end Phoenix.Editor
