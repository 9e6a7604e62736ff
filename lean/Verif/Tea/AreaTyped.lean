import Verif.Tea.AreaScreen
import Verif.Util
/-
C199: typing a text with line breaks into a new text area.
-/
set_option linter.unusedVariables false
set_option linter.unusedSimpArgs false
namespace Phoenix.Editor
open Phoenix.Program Phoenix.Inline Phoenix.Picture

variable {Pen : Type}

/-- The key one presses for a character of a text: Enter for a line break. -/
def textKey (c : Char) : Input.Key := if c = '\n' then .enter else charKey c

/-- The bytes the terminal sends for it: CR for Enter, otherwise UTF-8. -/
def keyBytes (c : Char) : List Nat := if c = '\n' then [13] else Input.utf8 c.toNat

/-- A text area that holds `s` with the cursor at its end. -/
structure AtEnd (s : Str) (w : TextArea.Wid) : Prop where
  lines : ∃ ini last, TextArea.splitLines s = ini ++ [last] ∧ w.ta.lines = ini ++ [last] ∧ w.ta.row = ini.length ∧
    w.ta.col = last.length
  scroll : w.ta.scrollRow = 0
  height : w.ta.height = 24
  write : w.ta.readOnly = false
  max : w.ta.maxLines = 0
  numbers : w.numbers = false
  cursor : w.cursor = true
  placeholder : w.placeholder = []

theorem split_snoc (s : Str) (c : Char) : ∀ ini last, TextArea.splitLines s = ini ++ [last] →
    TextArea.splitLines (s ++ [c]) = if c = '\n' then ini ++ [last, []] else ini ++ [last ++ [c]] := by
  induction s with
  | nil =>
    intro ini last h
    have : ini = [] ∧ last = [] := by
      cases ini with
      | nil => simp [TextArea.splitLines] at h; exact ⟨rfl, h⟩
      | cons a b => simp [TextArea.splitLines] at h
    obtain ⟨rfl, rfl⟩ := this
    simp only [List.nil_append, TextArea.splitLines]
  | cons x xs ih =>
    intro ini last h
    rw [TextArea.splitLines] at h
    rw [List.cons_append, TextArea.splitLines]
    split at h
    · rename_i hx
      rw [if_pos hx]
      cases ini with
      | nil =>
        simp only [List.nil_append, List.cons.injEq] at h
        exact absurd h.2 (TextArea.splitLines_ne_nil xs)
      | cons a b =>
        simp only [List.cons_append, List.cons.injEq] at h
        rw [ih b last h.2, ← h.1]
        split <;> rfl
    · rename_i hx
      rw [if_neg hx]
      cases hsp : TextArea.splitLines xs with
      | nil => exact absurd hsp (TextArea.splitLines_ne_nil xs)
      | cons l ls =>
        rw [hsp] at h
        cases ini with
        | nil =>
          simp only [List.nil_append, List.cons.injEq] at h
          obtain ⟨h1, rfl⟩ := h
          rw [ih [] l hsp, ← h1]
          by_cases hc : c = '\n'
          · simp only [if_pos hc, List.nil_append]
          · simp only [if_neg hc, List.nil_append, List.cons_append]
        | cons a b =>
          simp only [List.cons_append, List.cons.injEq] at h
          obtain ⟨h1, rfl⟩ := h
          rw [ih (l :: b) last hsp, ← h1]
          by_cases hc : c = '\n'
          · simp only [if_pos hc, List.cons_append]
          · simp only [if_neg hc, List.cons_append]

theorem split_last (s : Str) : ∃ ini last, TextArea.splitLines s = ini ++ [last] :=
  ⟨_, _, (List.dropLast_concat_getLast (TextArea.splitLines_ne_nil s)).symm⟩

theorem split_length_snoc (s : Str) (c : Char) :
    (TextArea.splitLines s).length ≤ (TextArea.splitLines (s ++ [c])).length := by
  obtain ⟨ini, last, h⟩ := split_last s
  rw [split_snoc s c ini last h, h]
  split <;> simp

theorem split_length_mono (a b : Str) : (TextArea.splitLines a).length ≤ (TextArea.splitLines (a ++ b)).length := by
  induction b using Phoenix.snocInd with
  | nil => simp
  | append_singleton b c ih => rw [← List.append_assoc]; exact Nat.le_trans ih (split_length_snoc _ _)

theorem split_width_mono (a b : Str) (n : Nat) (h : ∀ l ∈ TextArea.splitLines (a ++ b), l.length ≤ n) :
    ∀ l ∈ TextArea.splitLines a, l.length ≤ n := by
  induction b using Phoenix.snocInd with
  | nil => simpa using h
  | append_singleton b c ih =>
    apply ih
    intro l hl
    rw [← List.append_assoc] at h
    obtain ⟨ini, last, e⟩ := split_last (a ++ b)
    rw [split_snoc _ c ini last e] at h
    rw [e] at hl
    split at h
    · exact h l (by
        rcases List.mem_append.1 hl with g | g
        · exact List.mem_append_left _ g
        · rw [List.mem_singleton.1 g]; simp)
    · rcases List.mem_append.1 hl with g | g
      · exact h l (List.mem_append_left _ g)
      · have := h (last ++ [c]) (by simp)
        rw [List.mem_singleton.1 g]
        rw [List.length_append] at this
        omega

theorem textKey_cmd (c : Char) : TextArea.keyCmd (textKey c).msg = if c = '\n' then .newline else .insert c := by
  unfold textKey charKey
  by_cases h1 : c = '\n'
  · subst h1; rfl
  · rw [if_neg h1, if_neg h1]
    split
    · rename_i h; subst h; rfl
    · rfl

theorem cursor_at_top {t : TextArea.TA} (h : t.scrollRow = 0) (hh : t.height = 24) (hr : t.row < 24) :
    t.ensureCursorVisible.scrollRow = 0 := by
  unfold TextArea.TA.ensureCursorVisible
  simp only [h, hh]
  rw [if_neg (show ¬ (t.row : Int) < 0 by omega), if_neg (show ¬ (t.row : Int) ≥ 0 + 24 by omega)]

theorem insert_last (ini : List TextArea.Line) (last : TextArea.Line) (c : Char) :
    TextArea.bufInsertChar (ini ++ [last]) ini.length last.length c = ini ++ [last ++ [c]] := by
  unfold TextArea.bufInsertChar TextArea.bufLine
  rw [if_neg (by simp)]
  simp

theorem newline_last (ini : List TextArea.Line) (last : TextArea.Line) :
    TextArea.bufInsertNewline (ini ++ [last]) ini.length last.length = ini ++ [last, []] := by
  unfold TextArea.bufInsertNewline TextArea.bufLine
  rw [if_neg (by simp)]
  have e : ini ++ [last] = (ini ++ [last]).take (ini.length + 1) := by rw [List.take_of_length_le (by simp)]
  simp
  rw [← e]; simp

theorem AtEnd.step {s : Str} {w : TextArea.Wid} (h : AtEnd s w) (c : Char)
    (hn : (TextArea.splitLines (s ++ [c])).length ≤ 24) :
    AtEnd (s ++ [c]) (w.step (.op (.key (textKey c).msg))) := by
  obtain ⟨ini, last, h1, h2, h3, h4⟩ := h.lines
  have hsn := split_snoc s c ini last h1
  rw [hsn] at hn
  show AtEnd (s ++ [c]) { w with ta := (w.ta.exec (TextArea.keyCmd (textKey c).msg)).1 }
  rw [textKey_cmd]
  by_cases hc : c = '\n'
  · rw [if_pos hc] at hsn hn ⊢
    have he : (w.ta.exec .newline).1 = (w.ta.withBuffer (ini ++ [last, []])).withCursor (ini.length + 1) 0 := by
      show w.ta.insertNewline = _
      unfold TextArea.TA.insertNewline
      rw [h.write, h.max, h2, h3, h4, newline_last]
      rfl
    rw [he]
    simp only [List.length_append, List.length_cons, List.length_nil] at hn
    refine ⟨⟨ini ++ [last], [], by rw [hsn]; simp, ?_, ?_, rfl⟩, ?_, h.height, h.write, h.max, h.numbers, h.cursor,
      h.placeholder⟩
    · show ini ++ [last, []] = _; simp
    · show ini.length + 1 = _; simp
    · exact cursor_at_top h.scroll h.height (by show ini.length + 1 < 24; omega)
  · rw [if_neg hc] at hsn hn ⊢
    have he : (w.ta.exec (.insert c)).1 =
        (w.ta.withBuffer (ini ++ [last ++ [c]])).withCursor ini.length (last.length + 1) := by
      show w.ta.insertChar c = _
      unfold TextArea.TA.insertChar
      rw [h.write, h2, h3, h4, insert_last]
      rfl
    rw [he]
    simp only [List.length_append, List.length_cons, List.length_nil] at hn
    refine ⟨⟨ini, last ++ [c], hsn, rfl, rfl, ?_⟩, ?_, h.height, h.write, h.max, h.numbers, h.cursor,
      h.placeholder⟩
    · show last.length + 1 = _; simp
    · exact cursor_at_top h.scroll h.height (by show ini.length < 24; omega)

theorem atEnd_after (cs : Str) (hn : (TextArea.splitLines cs).length ≤ 24) :
    AtEnd cs (areaAfter [] ((cs.map textKey).map Input.Key.msg)) := by
  induction cs using Phoenix.snocInd with
  | nil => exact ⟨⟨[], [], rfl, rfl, rfl, rfl⟩, rfl, rfl, rfl, rfl, rfl, rfl, rfl⟩
  | append_singleton cs c ih =>
    have := (ih (Nat.le_trans (split_length_snoc cs c) hn)).step c hn
    unfold areaAfter TextArea.Wid.run at this ⊢
    simp only [List.nil_append, List.map_append, List.map_cons, List.map_nil, List.foldl_append, List.foldl_cons,
      List.foldl_nil] at this ⊢
    exact this

/-- The picture of the whole text: every line, behind the last one the cursor. -/
theorem AtEnd.rows {s : Str} {w : TextArea.Wid} (h : AtEnd s w) (hn : (TextArea.splitLines s).length ≤ 24) :
    w.ta.window = TextArea.splitLines s ∧ w.ta.lines = TextArea.splitLines s ∧
    (areaRows w).length = (TextArea.splitLines s).length ∧
    (s ≠ [] → areaRows w = (TextArea.splitLines s).zipIdx.map fun p =>
      if p.2 + 1 = (TextArea.splitLines s).length then TextArea.plain p.1 ++ [(' ', true)] else TextArea.plain p.1) ∧
    (s = [] → areaRows w = [[]]) := by
  obtain ⟨ini, last, h1, h2, h3, h4⟩ := h.lines
  have hl : w.ta.lines = TextArea.splitLines s := by rw [h1, h2]
  have hw : w.ta.window = TextArea.splitLines s := by
    unfold TextArea.TA.window
    rw [h.scroll, h.height, hl]
    show ((TextArea.splitLines s).drop 0).take 24 = _
    rw [List.drop_zero, List.take_of_length_le hn]
  have hempty : w.ta.isEmpty = true ↔ s = [] := by
    unfold TextArea.TA.isEmpty
    rw [beq_iff_eq, hl]
    constructor
    · intro e
      have := TextArea.bufString_splitLines s
      rw [e] at this
      exact this.symm
    · intro e; rw [e]; rfl
  have hrows : s ≠ [] → areaRows w = (TextArea.splitLines s).zipIdx.map fun p =>
      if p.2 + 1 = (TextArea.splitLines s).length then TextArea.plain p.1 ++ [(' ', true)] else TextArea.plain p.1 := by
    intro hs
    unfold areaRows
    rw [if_neg (fun e => hs (hempty.1 e)), hw]
    apply List.map_congr_left
    intro p hp
    have hp' := List.mem_zipIdx_iff_getElem?.1 (show (p.1, p.2) ∈ _ from hp)
    unfold TextArea.Wid.rowCells
    rw [h.numbers, h.cursor, h.scroll, h3]
    have hlen : (TextArea.splitLines s).length = ini.length + 1 := by rw [h1]; simp
    rw [hlen]
    by_cases hi : p.2 = ini.length
    · have hp1 : p.1 = last := by
        rw [h1, hi] at hp'
        simpa using hp'.symm
      simp only [Bool.false_eq_true, if_false, List.nil_append]
      rw [if_pos (show p.2 + Int.toNat 0 = ini.length ∧ True from ⟨hi, trivial⟩), if_pos (show p.2 + 1 = _ by omega), h4, hp1,
        TextArea.marked_end last _ (Nat.le_refl _)]
    · simp only [Bool.false_eq_true, if_false, List.nil_append]
      rw [if_neg (show ¬ (p.2 + Int.toNat 0 = ini.length ∧ True) from fun e => hi e.1), if_neg (show ¬ p.2 + 1 = _ by omega)]
  refine ⟨hw, hl, ?_, hrows, ?_⟩
  · by_cases hs : s = []
    · unfold areaRows
      rw [if_pos (hempty.2 hs), hs]; rfl
    · rw [hrows hs]; simp
  · intro hs
    unfold areaRows
    rw [if_pos (hempty.2 hs)]

theorem textKey_supported {c : Char} (h : c = '\n' ∨ Typeable c) : (textKey c).Supported := by
  unfold textKey
  split
  · exact ⟨trivial, by intro n h; cases h⟩
  · rename_i hc
    rcases h with h | h
    · exact absurd h hc
    · exact charKey_supported h

theorem textKey_pieces (c : Char) : (textKey c).pieces = (keyBytes c).map .byte := by
  unfold textKey keyBytes
  split
  · rfl
  · rw [Input.Key.pieces, (charKey_bytes c).1, (charKey_bytes c).2]; rfl

/-- C199, typing a text.  The bytes of any text of printable one-column characters and line breaks (CR for Enter), in
chunks of any size, typed into a program around a new text area, when the text has at most 24 lines (the default
height), no more than the terminal has rows, and its lines are narrower than the terminal: when the input is read and
the program is idle the terminal shows exactly the lines of the text, a reverse blank as cursor behind the last one,
nothing below, and everything above as it was. -/
theorem C199_typed_text_partial {d : Dev Pen} {pc : Pen} (hr : Reverse d pc)
    (hd : ∀ c, c = ' ' ∨ ('0' ≤ c ∧ c ≤ '9') → d.tw c = 1)
    (gray : List Char → List Char) {t0 : TT Pen} (h0 : Ready d t0) {cap : Nat}
    (cs : Str) (hne : cs ≠ []) (hcs : ∀ c ∈ cs, c = '\n' ∨ (Typeable c ∧ Narrow d c))
    (hH : (splitLines cs).length ≤ d.H) (hn : (splitLines cs).length ≤ 24)
    (hw : ∀ l ∈ splitLines cs, l.length + 1 < d.W)
    (chunks : List (List Nat)) (hc : chunks.flatten = cs.flatMap keyBytes)
    {f : KeyScreen.St KeyMsg TextArea.Wid Pen}
    (h : KeyScreen.Reach (areaWidgetApp []) (areaView gray) (fun _ => none) cap id d t0 chunks f)
    (ho : f.s.others = []) (h1 : f.s.stolen = 0) (h2 : f.s.cancelled = false)
    (hidle : f.s.p.loop = .select) (hq : f.s.p.queue = []) (hend : f.s.ended = true) :
    (∀ i l, (splitLines cs)[i]? = some l → ∀ j, f.scr.2.rows (t0.row + i) j =
      if hj : j < l.length then ⟨[l[j]], d.p0, false⟩
      else if i + 1 = (splitLines cs).length ∧ j = l.length then ⟨[' '], pc, false⟩ else Cell.blank d.p0) ∧
    (∀ i, i < t0.row → f.scr.2.rows i = t0.rows i) ∧
    (∀ i, t0.row + (splitLines cs).length ≤ i → ∀ j, f.scr.2.rows i j = Cell.blank d.p0) := by
  have hsplit : ∀ s : Str, splitLines s = TextArea.splitLines s := by
    intro s
    induction s with
    | nil => rfl
    | cons c s ih =>
      rw [splitLines, TextArea.splitLines, ih]
      rfl
  rw [hsplit] at hH hn hw ⊢
  have htake : ∀ k, (((cs.map textKey).take k).map Input.Key.msg) = ((cs.take k).map textKey).map Input.Key.msg := by
    intro k; rw [← List.map_take]
  have hpre : ∀ k, (TextArea.splitLines (cs.take k)).length ≤ (TextArea.splitLines cs).length := by
    intro k
    have := split_length_mono (cs.take k) (cs.drop k)
    rwa [List.take_append_drop] at this
  have hat : ∀ k, AtEnd (cs.take k) (areaAfter [] (((cs.map textKey).take k).map Input.Key.msg)) := by
    intro k
    rw [htake]
    exact atEnd_after _ (Nat.le_trans (hpre k) hn)
  have hpos : 0 < d.W := by
    obtain ⟨ini, last, e⟩ := split_last cs
    have := hw last (by rw [e]; simp)
    omega
  have hmemc : ∀ (s : Str) l, l ∈ TextArea.splitLines s → ∀ c ∈ l, c ∈ s ∧ c ≠ '\n' := by
    intro s
    induction s with
    | nil => intro l hl c hc; simp [TextArea.splitLines] at hl; rw [hl] at hc; cases hc
    | cons x xs ih =>
      intro l hl c hc
      rw [TextArea.splitLines] at hl
      split at hl
      · rcases List.mem_cons.1 hl with rfl | hl
        · cases hc
        · obtain ⟨a, b⟩ := ih l hl c hc
          exact ⟨List.mem_cons_of_mem _ a, b⟩
      · rename_i hx
        cases hsp : TextArea.splitLines xs with
        | nil => exact absurd hsp (TextArea.splitLines_ne_nil xs)
        | cons y ys =>
          rw [hsp] at hl
          simp only [List.mem_cons] at hl
          rcases hl with rfl | hl
          · rcases List.mem_cons.1 hc with rfl | hc
            · exact ⟨List.mem_cons_self .., hx⟩
            · obtain ⟨a, b⟩ := ih y (by rw [hsp]; simp) c hc
              exact ⟨List.mem_cons_of_mem _ a, b⟩
          · obtain ⟨a, b⟩ := ih l (by rw [hsp]; simp [hl]) c hc
            exact ⟨List.mem_cons_of_mem _ a, b⟩
  have hfit : ∀ k, Fits d (areaAfter [] (((cs.map textKey).take k).map Input.Key.msg)) := by
    intro k
    have a := hat k
    obtain ⟨r1, r2, r3, r4, r5⟩ := a.rows (Nat.le_trans (hpre k) hn)
    refine ⟨by rw [a.height]; decide, by rw [r1]; exact TextArea.splitLines_ne_nil _,
      by rw [r3]; exact Nat.le_trans (hpre k) hH, ?_, ?_, fun _ => a.placeholder⟩
    · intro l hl c hcl
      rw [r2] at hl
      obtain ⟨m1, m2⟩ := hmemc _ l hl c hcl
      rcases hcs c (List.mem_of_mem_take m1) with e | e
      · exact absurd e m2
      · exact e.2
    · intro r hr'
      by_cases hs : cs.take k = []
      · rw [r5 hs, List.mem_singleton] at hr'
        rw [hr']; exact hpos
      · rw [r4 hs] at hr'
        obtain ⟨p, hp, rfl⟩ := List.mem_map.1 hr'
        have hp' := List.mem_of_getElem? (List.mem_zipIdx_iff_getElem?.1 (show (p.1, p.2) ∈ _ from hp))
        have hwd := split_width_mono (cs.take k) (cs.drop k) (d.W - 2) (by
          rw [List.take_append_drop]
          intro l hl
          have := hw l hl
          omega) p.1 hp'
        have hW2 : 2 ≤ d.W := by
          obtain ⟨ini, last, e⟩ := split_last cs
          have := hw last (by rw [e]; simp)
          omega
        have : (if p.2 + 1 = (TextArea.splitLines (cs.take k)).length then TextArea.plain p.1 ++ [(' ', true)]
            else TextArea.plain p.1).length ≤ p.1.length + 1 := by
          split <;> simp [TextArea.plain]
        omega
  have herase : ∀ k, NoErase (areaAfter [] (((cs.map textKey).take k).map Input.Key.msg))
      (areaAfter [] (((cs.map textKey).take (k + 1)).map Input.Key.msg)) := by
    intro k hlt
    exfalso
    rw [((hat k).rows (Nat.le_trans (hpre k) hn)).2.2.1, ((hat (k + 1)).rows (Nat.le_trans (hpre (k + 1)) hn)).2.2.1] at hlt
    have := split_length_mono (cs.take k) ((cs.drop k).take 1)
    have e : cs.take k ++ (cs.drop k).take 1 = cs.take (k + 1) := by rw [List.take_add]
    rw [e] at this
    omega
  have e : (chunks.map (·.map Input.Piece.byte)).map Input.bytesOf = chunks := by
    rw [List.map_map]
    conv => rhs; rw [← List.map_id chunks]
    apply List.map_congr_left
    intro x _
    exact Input.bytesOf_byte x
  obtain ⟨k, hm, hrows, habove, hbelow, hk⟩ := C199_area_screen_partial hr hd hpos gray [] h0 (cap := cap)
    (cs.map textKey)
    (by
      intro k hk
      obtain ⟨c, hc, rfl⟩ := List.mem_map.1 hk
      exact textKey_supported ((hcs c hc).imp id And.left))
    (chunks.map (·.map .byte)) (by
      rw [← List.map_flatten, hc, List.flatMap_map, List.map_flatMap]
      congr 1
      funext c
      exact (textKey_pieces c).symm)
    (by
      intro x hx
      simp only [List.mem_map] at hx
      obtain ⟨y, _, rfl⟩ := hx
      have := Input.EscLast.prepend (l := y) (b := []) (by intro a b h; simp at h)
      simpa using this) hfit herase
    (f := f) (by rw [e]; exact h) ho
  have hk := hk h1 h2 hidle hq hend
  rw [List.length_map] at hk
  obtain ⟨r1, r2, r3, r4, r5⟩ := (hat k).rows (Nat.le_trans (hpre k) hn)
  rw [List.take_of_length_le hk] at r1 r2 r3 r4 r5
  have r4 := r4 hne
  refine ⟨?_, habove, by rw [← r3]; exact hbelow⟩
  intro i l hl j
  have hrow := hrows i (if i + 1 = (TextArea.splitLines cs).length then TextArea.plain l ++ [(' ', true)]
    else TextArea.plain l) (by rw [r4, List.getElem?_map, List.getElem?_zipIdx, hl]; simp) j
  rw [hrow]
  unfold pic TextArea.plain
  by_cases hj : j < l.length
  · rw [dif_pos hj]
    split
    · rw [List.getElem?_append_left (by rw [List.length_map]; exact hj), List.getElem?_map,
        List.getElem?_eq_getElem hj]
      rfl
    · rw [List.getElem?_map, List.getElem?_eq_getElem hj]
      rfl
  · rw [dif_neg hj]
    by_cases hi : i + 1 = (TextArea.splitLines cs).length
    · rw [if_pos hi]
      by_cases hjl : j = l.length
      · rw [if_pos ⟨hi, hjl⟩, hjl, List.getElem?_append_right (by simp)]
        simp
      · rw [if_neg (fun e => hjl e.2), List.getElem?_eq_none (by simp; omega)]; rfl
    · rw [if_neg hi, if_neg (fun e => hi e.1), List.getElem?_eq_none (by simp; omega)]; rfl

/-- "a", Enter, "b" typed in one read. -/
example : ∃ f, KeyScreen.Reach (areaWidgetApp []) (areaView id) (fun _ => none) 100 id demoTall demoTop [[97, 13, 98]] f ∧
    f.scr.2.rows 0 0 = ⟨['a'], false, false⟩ ∧ f.scr.2.rows 0 1 = Cell.blank false ∧
    f.scr.2.rows 1 0 = ⟨['b'], false, false⟩ ∧ f.scr.2.rows 1 1 = ⟨[' '], true, false⟩ := by
  let a := areaWidgetApp []
  let chunks : List (List Nat) := [[97, 13, 98]]
  have r : Typing.Reach a 100 id chunks (Typing.start a chunks) := .start
  have r := Typing.Reach.step _ _ r (.read _ (some { type := .rune, rune := 'a' }) ⟨[13, 98], []⟩ rfl rfl rfl)
  have r := Typing.Reach.step _ _ r (.put _ { type := .rune, rune := 'a' } rfl rfl (by decide))
  have r := Typing.Reach.step _ _ r (.read _ (some { type := .enter }) ⟨[98], []⟩ rfl rfl rfl)
  have r := Typing.Reach.step _ _ r (.put _ { type := .enter } rfl rfl (by decide))
  have r := Typing.Reach.step _ _ r (.read _ (some { type := .rune, rune := 'b' }) ⟨[], []⟩ rfl rfl rfl)
  have r := Typing.Reach.step _ _ r (.put _ { type := .rune, rune := 'b' } rfl rfl (by decide))
  have r := Typing.Reach.step _ _ r (.eof _ rfl rfl rfl)
  have r := Typing.Reach.step _ _ r (.prog _ _ (.recv _ _ _ rfl rfl))
  have r := Typing.Reach.step _ _ r (.prog _ _ (.update _ _ rfl))
  have r := Typing.Reach.step _ _ r (.prog _ _ (.recv _ _ _ rfl rfl))
  have r := Typing.Reach.step _ _ r (.prog _ _ (.update _ _ rfl))
  have r := Typing.Reach.step _ _ r (.prog _ _ (.recv _ _ _ rfl rfl))
  have r := Typing.Reach.step _ _ r (.prog _ _ (.update _ _ rfl))
  obtain ⟨f, hf, e⟩ := KeyScreen.reach_of_typing a (areaView id) (fun _ => none) 100 id demoTall demoTop chunks r
  refine ⟨f, hf, ?_⟩
  obtain ⟨hrows, _, _⟩ := C199_typed_text_partial demoTall_reverse (fun _ _ => rfl) id demoTop_ready (cap := 100)
    ['a', '\n', 'b'] (by decide) (by
      intro c hc
      simp only [List.mem_cons, List.not_mem_nil, or_false] at hc
      rcases hc with rfl | rfl | rfl
      · exact Or.inr ⟨⟨by decide, by decide⟩, by decide⟩
      · exact Or.inl rfl
      · exact Or.inr ⟨⟨by decide, by decide⟩, by decide⟩) (by decide) (by decide) (by decide) chunks rfl
    (f := f) hf (by rw [e] <;> rfl) (by rw [e] <;> rfl) (by rw [e] <;> rfl) (by rw [e] <;> rfl) (by rw [e] <;> rfl)
    (by rw [e] <;> rfl)
  exact ⟨hrows 0 ['a'] rfl 0, hrows 0 ['a'] rfl 1, hrows 1 ['b'] rfl 0, hrows 1 ['b'] rfl 1⟩

end Phoenix.Editor
