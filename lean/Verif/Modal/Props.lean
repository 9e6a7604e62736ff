import Verif.Modal.Model
import Verif.Util
set_option linter.unusedVariables false
set_option linter.unusedSimpArgs false
/-
  C67  modal box shows its content          C68  modal focus
  C103 modal rows have the declared width    C104 modal rendering never panics
  C105 modal is centred in the current terminal
-/
namespace Phoenix.Modal

/-! ## Specification: what ends up on a terminal row -/

/-- The text shown on row `r` after the draws: the last one positioned on that row
    (all draws start in the same column). -/
def rowAt (ds : List Draw) (r : Int) : Option Bytes :=
  (ds.reverse.find? (fun d => d.row == r)).map (·.text)

theorem rowAt_append (a b : List Draw) (r : Int) :
    rowAt (a ++ b) r = (rowAt b r).or (rowAt a r) := by
  simp only [rowAt, List.reverse_append, List.find?_append]
  cases List.find? (fun d => d.row == r) b.reverse <;> simp

theorem rowAt_none (ds : List Draw) (r : Int) (h : ∀ d ∈ ds, d.row ≠ r) : rowAt ds r = none := by
  simp only [rowAt, Option.map_eq_none_iff, List.find?_eq_none, List.mem_reverse]
  intro d hd; simpa using h d hd

theorem rowAt_nil (r : Int) : rowAt [] r = none := rfl

theorem rowAt_single (d : Draw) (r : Int) :
    rowAt [d] r = if d.row = r then some d.text else none := by
  by_cases h : d.row = r <;> simp [rowAt, h]

theorem rowAt_pair (d e : Draw) (r : Int) :
    rowAt [d, e] r = if e.row = r then some e.text else if d.row = r then some d.text else none := by
  rw [show [d, e] = [d] ++ [e] from rfl, rowAt_append, rowAt_single, rowAt_single]
  by_cases h : e.row = r <;> simp [h]

/-! ## Padding -/

theorem repeatStr_some (s : Bytes) (n : Int) (h : 0 ≤ n) :
    repeatStr s n = some (List.replicate n.toNat s).flatten := by
  unfold repeatStr; rw [if_neg (by omega)]

/-- C67: a text field padded or cut to `width` is exactly `width` bytes; a text that fits
    is kept whole and followed by blanks. -/
theorem C67_pad_exact (t : Bytes) (w : Int) (h : 0 ≤ w) :
    ∃ u, padOrTruncate t w = some u ∧ (u.length : Int) = w ∧
      ((t.length : Int) ≤ w → u = t ++ List.replicate (w.toNat - t.length) 32) ∧
      (w < t.length → 3 < w → u = t.take (w.toNat - 3) ++ [46, 46, 46]) := by
  unfold padOrTruncate
  by_cases h1 : (t.length : Int) > w
  · rw [if_pos h1]
    by_cases h2 : w > 3
    · rw [if_pos h2]
      refine ⟨_, rfl, ?_, by omega, ?_⟩
      · simp; omega
      · intro _ _
        have : (w - 3).toNat = w.toNat - 3 := by omega
        rw [this]
    · rw [if_neg h2, if_neg (by omega)]
      refine ⟨_, rfl, ?_, by omega, by omega⟩
      simp; omega
  · rw [if_neg h1, repeatStr_some _ _ (by omega)]
    refine ⟨_, rfl, ?_, ?_, by omega⟩
    · simp [List.length_flatten]; omega
    · intro _
      have : (w - (t.length : Int)).toNat = w.toNat - t.length := by omega
      rw [this]
      simp [List.flatten_replicate_singleton]

theorem pad_some (t : Bytes) (w : Int) (h : 0 ≤ w) : ∃ u, padOrTruncate t w = some u :=
  let ⟨u, hu, _⟩ := C67_pad_exact t w h; ⟨u, hu⟩

theorem rule_some (l r : Bytes) (w : Int) (h : 2 ≤ w) :
    rule l r w = some (l ++ (List.replicate (w - 2).toNat hbar).flatten ++ r) := by
  simp only [rule, repeatStr_some _ _ (show 0 ≤ w - 2 by omega), Option.map_some]

/-! ## The pieces of the box -/

theorem contentDraws_spec (x sy w : Int) (hw : 4 ≤ w) (i : Nat) (ls : List Bytes) :
    ∃ ds, contentDraws x sy w i ls = some ds ∧
      (∀ d ∈ ds, sy + i ≤ d.row ∧ d.row < sy + i + ls.length ∧ d.col = x + 1) ∧
      (∀ (j : Nat) (l : Bytes), ls[j]? = some l →
        rowAt ds (sy + i + j) = barred (padOrTruncate l (w - 4))) := by
  induction ls generalizing i with
  | nil => exact ⟨[], rfl, by simp, by simp⟩
  | cons l ls ih =>
    obtain ⟨ds, h1, h2, h3⟩ := ih (i + 1)
    obtain ⟨u, hu⟩ := pad_some l (w - 4) (by omega)
    have hb : barred (padOrTruncate l (w - 4)) = some (vbar ++ [32] ++ u ++ [32] ++ vbar) := by
      rw [hu]; rfl
    refine ⟨⟨sy + i, x + 1, vbar ++ [32] ++ u ++ [32] ++ vbar⟩ :: ds, ?_, ?_, ?_⟩
    · simp only [contentDraws, hb, h1]
    · intro d hd
      rcases List.mem_cons.1 hd with rfl | hd
      · refine ⟨?_, ?_, rfl⟩
        · show sy + i ≤ sy + i; omega
        · show sy + i < sy + i + ((l :: ls).length : Int)
          simp only [List.length_cons]; omega
      · obtain ⟨a, b, c⟩ := h2 d hd
        refine ⟨by omega, ?_, c⟩
        simp only [List.length_cons]; omega
    · intro j l' hj
      rw [show ((⟨sy + i, x + 1, vbar ++ [32] ++ u ++ [32] ++ vbar⟩ : Draw) :: ds) =
        [⟨sy + i, x + 1, vbar ++ [32] ++ u ++ [32] ++ vbar⟩] ++ ds from rfl, rowAt_append]
      cases j with
      | zero =>
        simp only [List.getElem?_cons_zero, Option.some.injEq] at hj
        subst hj
        rw [rowAt_none ds]
        · rw [rowAt_single, hb]; simp
        · intro d hd; have := h2 d hd; omega
      | succ j =>
        simp only [List.getElem?_cons_succ] at hj
        have e := h3 j l' hj
        have e2 : sy + (i + 1 : Nat) + (j : Int) = sy + i + (j + 1 : Nat) := by push_cast; omega
        rw [e2] at e
        rw [e, rowAt_single, if_neg (by simp only []; omega)]
        simp

/-- The rendered box, decomposed (for a width that leaves room for text). -/
theorem box_eq (m : Modal) (x y : Int) (hw : 4 ≤ m.width) :
    ∃ td cd bd top bot,
      renderModalBox m x y =
        some ([⟨y + 1, x + 1, top⟩] ++ (td ++ (cd ++ (bd ++ ([⟨y + m.height - 1, x + 1, bot⟩] ++ []))))) ∧
      rule tl tr m.width = some top ∧ rule bl br m.width = some bot ∧
      titleDraws m x y = some td ∧ buttonDraws m x y = some bd ∧
      contentDraws x (contentStartY m y) m.width 0
        ((splitNL m.content).take (contentHeight m).toNat) = some cd := by
  obtain ⟨cd, hcd, _⟩ := contentDraws_spec x (contentStartY m y) m.width hw 0
    ((splitNL m.content).take (contentHeight m).toNat)
  have htd : ∃ td, titleDraws m x y = some td := by
    unfold titleDraws
    split
    · obtain ⟨u, hu⟩ := pad_some m.title (m.width - 4) (by omega)
      rw [hu, rule_some _ _ _ (by omega)]
      exact ⟨_, rfl⟩
    · exact ⟨_, rfl⟩
  have hbd : ∃ bd, buttonDraws m x y = some bd := by
    unfold buttonDraws
    split
    · obtain ⟨u, hu⟩ := pad_some (join2 (buttonParts m.focused 0 m.buttons)) (m.width - 4) (by omega)
      simp only [renderButtons]
      rw [hu, rule_some _ _ _ (by omega)]
      exact ⟨_, rfl⟩
    · exact ⟨_, rfl⟩
  obtain ⟨td, htd⟩ := htd
  obtain ⟨bd, hbd⟩ := hbd
  refine ⟨td, cd, bd, _, _, ?_, rule_some _ _ _ (by omega), rule_some _ _ _ (by omega), htd, hbd, hcd⟩
  simp only [renderModalBox, hcd, htd, hbd, frameDraw, rule_some _ _ _ (show 2 ≤ m.width by omega),
    Option.map_some, seqDraws]

theorem title_rows (m : Modal) (x y : Int) (td : List Draw) (h : titleDraws m x y = some td) :
    ∀ d ∈ td, m.title ≠ [] ∧ (d.row = y + 2 ∨ d.row = y + 3) := by
  unfold titleDraws at h
  split at h
  · rename_i ht
    split at h
    · cases h
      intro d hd
      simp at hd
      rcases hd with rfl | rfl <;> simp [ht]
    · cases h
  · cases h; simp

theorem button_rows (m : Modal) (x y : Int) (bd : List Draw) (h : buttonDraws m x y = some bd) :
    ∀ d ∈ bd, m.buttons ≠ [] ∧ (d.row = y + m.height - 3 ∨ d.row = y + m.height - 2) := by
  unfold buttonDraws at h
  split at h
  · rename_i ht
    split at h
    · cases h
      intro d hd
      simp at hd
      have : m.buttons ≠ [] := by intro e; simp [e] at ht
      rcases hd with rfl | rfl
      · exact ⟨this, Or.inl rfl⟩
      · refine ⟨this, Or.inr ?_⟩
        simp only []
        omega
    · cases h
  · cases h; simp

/-! ## C67 -/

/-- C67, full claim: the box covers exactly `height` rows, and every content line for which
    the box has room (`height` minus frame, title and button rows) is what its row shows. -/
def C67_statement : Prop :=
  ∀ (m : Modal) (x y : Int), 4 ≤ m.width → 8 ≤ m.height →
    ∃ ds, renderModalBox m x y = some ds ∧
      (∀ r, (rowAt ds r).isSome ↔ y + 1 ≤ r ∧ r ≤ y + m.height) ∧
      (∀ (i : Nat) (l : Bytes), (i : Int) < contentHeight m → (splitNL m.content)[i]? = some l →
        rowAt ds (contentStartY m y + i) = barred (padOrTruncate l (m.width - 4)))

/-- C67 is false: the default 40x10 box draws nothing on its tenth row. -/
theorem C67_rows_refuted : ¬ C67_statement := by
  intro h
  obtain ⟨ds, h1, h2, _⟩ := h (newWithTitle [] [104, 105]) 0 0 (by decide) (by decide)
  have := (h2 10).2 (by decide)
  have hds : ds = (renderModalBox (newWithTitle [] [104, 105]) 0 0).getD [] := by rw [h1]; rfl
  rw [hds] at this
  revert this
  decide +kernel

/-- C67 (rows): every row drawn lies between the first row and `height - 1` rows below the
    origin, and the draws all start in the box's column. -/
theorem C67_rows_within_partial (m : Modal) (x y : Int) (hw : 4 ≤ m.width) (hh : 4 ≤ m.height) :
    ∃ ds, renderModalBox m x y = some ds ∧
      (∀ d ∈ ds, y + 1 ≤ d.row ∧ d.row ≤ y + m.height - 1) ∧
      rowAt ds (y + m.height - 1) = rule bl br m.width := by
  obtain ⟨td, cd, bd, top, bot, h1, h2, h3, h4, h5, h6⟩ := box_eq m x y hw
  refine ⟨_, h1, ?_, ?_⟩
  · intro d hd
    obtain ⟨cd', e, hr, _⟩ := contentDraws_spec x (contentStartY m y) m.width hw 0
      ((splitNL m.content).take (contentHeight m).toNat)
    rw [h6] at e
    cases e
    simp only [List.mem_append, List.mem_singleton, List.append_nil] at hd
    rcases hd with rfl | hd | hd | hd | rfl
    · simp only []; omega
    · have := title_rows m x y td h4 d hd; omega
    · obtain ⟨a, b, _⟩ := hr d hd
      simp only [List.length_take] at b
      have hm := Nat.min_le_left (contentHeight m).toNat (splitNL m.content).length
      have hsy : contentStartY m y + contentHeight m = y + m.height - 2 := by
        unfold contentStartY contentHeight; split <;> omega
      have hge : y + 2 ≤ contentStartY m y := by unfold contentStartY; split <;> omega
      have hpos : 0 < (contentHeight m).toNat := by omega
      omega
    · have := button_rows m x y bd h5 d hd; omega
    · simp only []; omega
  · simp only [rowAt_append, rowAt_single, rowAt_nil, List.append_nil, h3]
    simp

/-- C67 (content): which content lines are visible.  Line `i` is what its row shows, except
    that with buttons present the last line the box has room for is covered by the rule
    above the buttons. -/
theorem C67_content_visible_partial (m : Modal) (x y : Int) (hw : 4 ≤ m.width) (i : Nat) (l : Bytes)
    (hi : (i : Int) < contentHeight m) (hl : (splitNL m.content)[i]? = some l) :
    ∃ ds, renderModalBox m x y = some ds ∧
      rowAt ds (contentStartY m y + i) =
        (if m.buttons ≠ [] ∧ (i : Int) = contentHeight m - 1 then rule ml mr m.width
         else barred (padOrTruncate l (m.width - 4))) := by
  obtain ⟨td, cd, bd, top, bot, h1, h2, h3, h4, h5, h6⟩ := box_eq m x y hw
  refine ⟨_, h1, ?_⟩
  obtain ⟨cd', e, hr, hv⟩ := contentDraws_spec x (contentStartY m y) m.width hw 0
    ((splitNL m.content).take (contentHeight m).toNat)
  rw [h6] at e
  cases e
  have hvi := hv i l (by rw [List.getElem?_take]; rw [if_pos (by omega)]; exact hl)
  have hvi : rowAt cd (contentStartY m y + i) = barred (padOrTruncate l (m.width - 4)) := by
    simpa using hvi
  obtain ⟨u, hu⟩ := pad_some l (m.width - 4) (by omega)
  have hsy : contentStartY m y + contentHeight m = y + m.height - 2 := by
    unfold contentStartY contentHeight; split <;> omega
  have hge : y + 2 ≤ contentStartY m y := by unfold contentStartY; split <;> omega
  have hbot : (if y + m.height - 1 = contentStartY m y + i then some bot else none) = none :=
    if_neg (by omega)
  have htop : (if y + 1 = contentStartY m y + i then some top else none) = none :=
    if_neg (by omega)
  simp only [rowAt_append, rowAt_single, rowAt_nil, List.append_nil]
  rw [hbot, htop, hvi, hu]
  simp only [Option.none_or, barred, Option.map_some]
  by_cases hb : m.buttons = []
  · have hbd : bd = [] := by
      unfold buttonDraws at h5
      rw [if_neg (by simp [hb])] at h5
      exact (Option.some.inj h5).symm
    rw [if_neg (fun h : m.buttons ≠ [] ∧ (i : Int) = contentHeight m - 1 => h.1 hb), hbd]
    simp [rowAt]
  · have hbd : ∃ t, bd = [⟨y + m.height - 3, x + 1, (ml ++ (List.replicate (m.width - 2).toNat hbar).flatten ++ mr)⟩,
        ⟨y + m.height - 3 + 1, x + 1, t⟩] := by
      unfold buttonDraws at h5
      rw [if_pos (List.length_pos_iff.2 hb)] at h5
      obtain ⟨v, hv'⟩ := pad_some (join2 (buttonParts m.focused 0 m.buttons)) (m.width - 4) (by omega)
      simp only [renderButtons] at h5
      rw [rule_some _ _ _ (by omega), hv'] at h5
      simp only [barred, Option.map_some, Option.some.injEq] at h5
      exact ⟨_, h5.symm⟩
    obtain ⟨t, hbd⟩ := hbd
    have hn : ¬ (y + m.height - 3 + 1 = contentStartY m y + i) := by omega
    rw [hbd, rowAt_pair, if_neg hn]
    by_cases hlast : (i : Int) = contentHeight m - 1
    · have hp : y + m.height - 3 = contentStartY m y + i := by omega
      rw [if_pos hp, if_pos (show m.buttons ≠ [] ∧ (i : Int) = contentHeight m - 1 from ⟨hb, hlast⟩),
        rule_some _ _ _ (by omega)]
      rfl
    · have hp : ¬ (y + m.height - 3 = contentStartY m y + i) := by omega
      rw [if_neg hp,
        if_neg (fun h : m.buttons ≠ [] ∧ (i : Int) = contentHeight m - 1 => hlast h.2)]
      simp

/-- C67, the visibility clause alone, is also false: five lines in a 10-row titled box with
    one button have room by the code's own count but the fourth is hidden. -/
theorem C67_hidden_line_refuted :
    ¬ ∀ (m : Modal) (x y : Int), 4 ≤ m.width → 8 ≤ m.height →
      ∃ ds, renderModalBox m x y = some ds ∧
      (∀ (i : Nat) (l : Bytes), (i : Int) < contentHeight m → (splitNL m.content)[i]? = some l →
        rowAt ds (contentStartY m y + i) = barred (padOrTruncate l (m.width - 4))) := by
  intro h
  let m : Modal := { newWithTitle [84] [97, 10, 98, 10, 99, 10, 100] with
    buttons := [⟨[79, 75], ['o'], [111]⟩] }
  obtain ⟨ds, h1, h2⟩ := h m 0 0 (by decide) (by decide)
  have := h2 3 [100] (by decide) (by decide)
  have hds : ds = (renderModalBox m 0 0).getD [] := by rw [h1]; rfl
  rw [hds] at this
  revert this
  decide +kernel

/-- C67 (title): with room (height at least 6) the title row shows the title. -/
theorem C67_title_visible_partial (m : Modal) (x y : Int) (hw : 4 ≤ m.width) (hh : 6 ≤ m.height)
    (ht : m.title ≠ []) :
    ∃ ds, renderModalBox m x y = some ds ∧
      rowAt ds (y + 2) = barred (padOrTruncate m.title (m.width - 4)) ∧
      rowAt ds (y + 1) = rule tl tr m.width := by
  obtain ⟨td, cd, bd, top, bot, h1, h2, h3, h4, h5, h6⟩ := box_eq m x y hw
  refine ⟨_, h1, ?_⟩
  obtain ⟨cd', e, hr, _⟩ := contentDraws_spec x (contentStartY m y) m.width hw 0
    ((splitNL m.content).take (contentHeight m).toNat)
  rw [h6] at e
  cases e
  have hsy : contentStartY m y = y + 4 := by unfold contentStartY; rw [if_pos ht]
  obtain ⟨u, hu⟩ := pad_some m.title (m.width - 4) (by omega)
  have htd : td = [⟨y + 2, x + 1, vbar ++ [32] ++ u ++ [32] ++ vbar⟩, ⟨y + 3, x + 1,
      (ml ++ (List.replicate (m.width - 2).toNat hbar).flatten ++ mr)⟩] := by
    unfold titleDraws at h4
    rw [if_pos ht, rule_some _ _ _ (by omega), hu] at h4
    simp only [barred, Option.map_some, Option.some.injEq] at h4
    exact h4.symm
  simp only [rowAt_append, rowAt_single, rowAt_nil, List.append_nil]
  constructor
  · rw [rowAt_none cd (y + 2) (by intro d hd; have := hr d hd; omega),
      rowAt_none bd (y + 2) (by intro d hd; have := button_rows m x y bd h5 d hd; omega),
      if_neg (by omega), htd, rowAt_pair, hu, if_neg (by simp only []; omega)]
    simp [barred]
  · rw [rowAt_none cd (y + 1) (by intro d hd; have := hr d hd; omega),
      rowAt_none bd (y + 1) (by intro d hd; have := button_rows m x y bd h5 d hd; omega),
      rowAt_none td (y + 1) (by intro d hd; have := title_rows m x y td h4 d hd; omega),
      if_neg (by omega), h2]
    simp

/-- C67 (buttons): with buttons, the row above the bottom rule shows them, the focused one
    in angle brackets. -/
theorem C67_buttons_visible (m : Modal) (x y : Int) (hw : 4 ≤ m.width) (hb : m.buttons ≠ []) :
    ∃ ds, renderModalBox m x y = some ds ∧
      rowAt ds (y + m.height - 2) =
        barred (padOrTruncate (join2 (buttonParts m.focused 0 m.buttons)) (m.width - 4)) := by
  obtain ⟨td, cd, bd, top, bot, h1, h2, h3, h4, h5, h6⟩ := box_eq m x y hw
  refine ⟨_, h1, ?_⟩
  obtain ⟨v, hv⟩ := pad_some (join2 (buttonParts m.focused 0 m.buttons)) (m.width - 4) (by omega)
  have hbd : bd = [⟨y + m.height - 3, x + 1, (ml ++ (List.replicate (m.width - 2).toNat hbar).flatten ++ mr)⟩,
      ⟨y + m.height - 3 + 1, x + 1, vbar ++ [32] ++ v ++ [32] ++ vbar⟩] := by
    unfold buttonDraws at h5
    rw [if_pos (List.length_pos_iff.2 hb)] at h5
    simp only [renderButtons] at h5
    rw [rule_some _ _ _ (by omega), hv] at h5
    simp only [barred, Option.map_some, Option.some.injEq] at h5
    exact h5.symm
  simp only [rowAt_append, rowAt_single, rowAt_nil, List.append_nil]
  rw [if_neg (by omega), hbd, rowAt_pair, hv]
  simp only []
  rw [if_pos (by omega)]
  rfl

theorem buttonParts_get (f : Int) (bs : List Button) (i : Int) (j : Nat) :
    (buttonParts f i bs)[j]? = (bs[j]?).map (buttonText (i + j == f)) := by
  induction bs generalizing i j with
  | nil => simp [buttonParts]
  | cons b bs ih =>
    cases j with
    | zero => simp [buttonParts]
    | succ j =>
      simp only [buttonParts, List.getElem?_cons_succ]
      rw [ih]
      have : i + 1 + (j : Int) = i + ((j + 1 : Nat) : Int) := by push_cast; omega
      rw [this]

/-- C67 (buttons): exactly the focused button is marked. -/
theorem C67_button_marks (m : Modal) (j : Nat) (b : Button) (h : m.buttons[j]? = some b) :
    (buttonParts m.focused 0 m.buttons)[j]? =
      some (if (j : Int) = m.focused then [60, 32] ++ b.label ++ [32, 62]
            else [91, 32] ++ b.label ++ [32, 93]) := by
  rw [buttonParts_get, h]
  by_cases e : (j : Int) = m.focused <;> simp [buttonText, e]

/-- C67: an invisible modal draws nothing. -/
theorem C67_invisible (m : Modal) (h : m.visible = false) : view m = some [] := by
  simp [view, h]

/-- A 12x9 titled modal with two lines and a button. -/
def exModal : Modal := { newWithTitle [84] [97, 10, 98] with
  width := 12, height := 9, visible := true, buttons := [⟨[79, 75], ['o'], [111]⟩] }

example : 4 ≤ exModal.width ∧ 6 ≤ exModal.height ∧ exModal.title ≠ [] ∧ exModal.buttons ≠ [] ∧
    ((1 : Nat) : Int) < contentHeight exModal ∧ (splitNL exModal.content)[1]? = some [98] := by decide

/-! ## C68 -/

/-- Modals obtained by any sequence of public operations. -/
def Reachable (fold : List Char → List Char → Bool) (m : Modal) : Prop :=
  ∃ (t c : Bytes) (ops : List Op), m = ops.foldl (apply fold) (newWithTitle t c)

/-- The focus is valid. -/
def FocusOk (m : Modal) : Prop :=
  0 ≤ m.focused ∧ (m.buttons = [] → m.focused = 0) ∧ (m.buttons ≠ [] → m.focused < m.buttons.length)

theorem focusNext_buttons (m : Modal) : (focusNext m).buttons = m.buttons := by
  unfold focusNext; split <;> rfl
theorem focusPrev_buttons (m : Modal) : (focusPrev m).buttons = m.buttons := by
  unfold focusPrev; (repeat' split) <;> rfl

theorem focusNext_focused (m : Modal) (h : FocusOk m) (hb : m.buttons ≠ []) :
    (focusNext m).focused = (m.focused + 1) % m.buttons.length := by
  have := List.length_pos_iff.2 hb
  unfold focusNext
  rw [if_neg (by omega)]
  exact Int.tmod_eq_emod_of_nonneg (by have := h.1; omega)

theorem focusPrev_focused (m : Modal) (h : FocusOk m) (hb : m.buttons ≠ []) :
    (focusPrev m).focused = (m.focused - 1) % m.buttons.length := by
  have hl := List.length_pos_iff.2 hb
  obtain ⟨h1, _, h3⟩ := h
  have h3 := h3 hb
  unfold focusPrev
  rw [if_neg (by omega)]
  split
  · have : m.focused = 0 := by omega
    rw [this]
    simp only []
    rw [show (0 : Int) - 1 = ((m.buttons.length : Int) - 1) + (m.buttons.length : Int) * (-1) by omega,
      Int.add_mul_emod_self_left, Int.emod_eq_of_lt (by omega) (by omega)]
  · simp only []
    rw [Int.emod_eq_of_lt (by omega) (by omega)]

theorem focusNext_ok (m : Modal) (h : FocusOk m) : FocusOk (focusNext m) := by
  by_cases hb : m.buttons = []
  · unfold focusNext; rw [if_pos (by simp [hb])]; exact h
  · have hl := List.length_pos_iff.2 hb
    have e := focusNext_focused m h hb
    have b1 := Int.emod_lt_of_pos (m.focused + 1) (show (0:Int) < m.buttons.length by omega)
    have b2 := Int.emod_nonneg (m.focused + 1) (show (m.buttons.length : Int) ≠ 0 by omega)
    unfold FocusOk
    rw [focusNext_buttons, e]
    exact ⟨b2, fun h => absurd h hb, fun _ => b1⟩

theorem focusPrev_ok (m : Modal) (h : FocusOk m) : FocusOk (focusPrev m) := by
  by_cases hb : m.buttons = []
  · unfold focusPrev; rw [if_pos (by simp [hb])]; exact h
  · have hl := List.length_pos_iff.2 hb
    have e := focusPrev_focused m h hb
    have b1 := Int.emod_lt_of_pos (m.focused - 1) (show (0:Int) < m.buttons.length by omega)
    have b2 := Int.emod_nonneg (m.focused - 1) (show (m.buttons.length : Int) ≠ 0 by omega)
    unfold FocusOk
    rw [focusPrev_buttons, e]
    exact ⟨b2, fun h => absurd h hb, fun _ => b1⟩

theorem update_ok (fold : List Char → List Char → Bool) (m : Modal) (msg : Msg) (h : FocusOk m) :
    FocusOk (update fold m msg).1 := by
  unfold update
  split
  · exact h
  · cases msg with
    | windowSize w hh => exact h
    | other => exact h
    | key k =>
      simp only [handleKeyPress]
      (repeat' split) <;> first | exact h | exact focusNext_ok m h | exact focusPrev_ok m h

theorem apply_ok (fold : List Char → List Char → Bool) (m : Modal) (o : Op) (h : FocusOk m) :
    FocusOk (apply fold m o) := by
  cases o <;> simp only [apply]
  case buttons bs =>
    refine ⟨Int.le_refl _, fun _ => rfl, ?_⟩
    intro hb
    have := List.length_pos_iff.2 hb
    simp only [] at this ⊢
    omega
  case update msg => exact update_ok fold m msg h
  all_goals exact h

/-- C68: whatever the history, the focused index is valid whenever there are buttons
    (and 0 otherwise), so the focused button exists. -/
theorem C68_focus_valid (fold : List Char → List Char → Bool) (m : Modal) (h : Reachable fold m) :
    FocusOk m ∧ (m.buttons ≠ [] → ∃ b, focusedButton m = some b ∧ m.buttons[m.focused.toNat]? = some b) := by
  have ok : FocusOk m := by
    obtain ⟨t, c, ops, rfl⟩ := h
    have : ∀ (ops : List Op) (m : Modal), FocusOk m → FocusOk (ops.foldl (apply fold) m) := by
      intro ops
      induction ops with
      | nil => intro m h; exact h
      | cons o os ih => intro m h; exact ih _ (apply_ok fold m o h)
    exact this ops _ ⟨Int.le_refl _, fun _ => rfl, fun h => absurd rfl h⟩
  refine ⟨ok, ?_⟩
  intro hb
  obtain ⟨h1, _, h3⟩ := ok
  have h3 := h3 hb
  have hl : m.focused.toNat < m.buttons.length := by omega
  refine ⟨m.buttons[m.focused.toNat], ?_, List.getElem?_eq_getElem hl⟩
  unfold focusedButton
  rw [if_neg (by omega), List.getElem?_eq_getElem hl]

/-- `k` presses of "next". -/
def pressNext : Nat → Modal → Modal
  | 0, m => m
  | k + 1, m => pressNext k (focusNext m)

theorem next_iter (m : Modal) (h : FocusOk m) (hb : m.buttons ≠ []) (k : Nat) :
    FocusOk (pressNext k m) ∧ (pressNext k m).buttons = m.buttons ∧
    (pressNext k m).focused = (m.focused + k) % m.buttons.length := by
  induction k generalizing m with
  | zero =>
    have := h.2.2 hb
    refine ⟨h, rfl, ?_⟩
    simp only [pressNext]
    have h1 := h.1
    rw [Int.emod_eq_of_lt (by omega) (by omega)]
    simp
  | succ k ih =>
    have hb' : (focusNext m).buttons ≠ [] := by rw [focusNext_buttons]; exact hb
    obtain ⟨a, b, c⟩ := ih (focusNext m) (focusNext_ok m h) hb'
    rw [focusNext_buttons] at b c
    refine ⟨a, b, ?_⟩
    simp only [pressNext]
    rw [c, focusNext_focused m h hb, Int.emod_add_emod]
    congr 1
    push_cast
    omega

/-- C68: `k` presses of "next" move the focus by `k` cyclically, so every button is reached
    in fewer than `n` presses and `n` presses return to the start. -/
theorem C68_next_cycles (fold : List Char → List Char → Bool) (m : Modal) (h : Reachable fold m)
    (hb : m.buttons ≠ []) :
    (∀ k : Nat, (pressNext k m).focused = (m.focused + k) % m.buttons.length) ∧
    (pressNext m.buttons.length m).focused = m.focused ∧
    (∀ j : Nat, j < m.buttons.length →
      ∃ k < m.buttons.length, (pressNext k m).focused = j) := by
  have ok := (C68_focus_valid fold m h).1
  have key := fun k => (next_iter m ok hb k).2.2
  obtain ⟨h1, _, h3⟩ := ok
  have h3 := h3 hb
  refine ⟨key, ?_, ?_⟩
  · rw [key, Int.add_emod_right, Int.emod_eq_of_lt h1 h3]
  · intro j hj
    by_cases hle : m.focused ≤ j
    · refine ⟨((j : Int) - m.focused).toNat, by omega, ?_⟩
      rw [key, Int.toNat_of_nonneg (by omega), show m.focused + ((j : Int) - m.focused) = j by omega]
      exact Int.emod_eq_of_lt (by omega) (by omega)
    · refine ⟨((j : Int) - m.focused + m.buttons.length).toNat, by omega, ?_⟩
      rw [key, Int.toNat_of_nonneg (by omega),
        show m.focused + ((j : Int) - m.focused + m.buttons.length) = j + m.buttons.length by omega,
        Int.add_emod_right]
      exact Int.emod_eq_of_lt (by omega) (by omega)

/-- C68: next and previous undo each other, on the whole modal. -/
theorem C68_next_prev_inverse (fold : List Char → List Char → Bool) (m : Modal) (h : Reachable fold m) :
    focusPrev (focusNext m) = m ∧ focusNext (focusPrev m) = m := by
  have ok := (C68_focus_valid fold m h).1
  by_cases hb : m.buttons = []
  · constructor <;> simp [focusNext, focusPrev, hb]
  · have hl := List.length_pos_iff.2 hb
    obtain ⟨h1, _, h3⟩ := id ok
    have h3 := h3 hb
    have ext : ∀ a b : Modal, { a with focused := 0 } = { b with focused := 0 } →
        a.focused = b.focused → a = b := by
      intro a b h1 h2
      cases a; cases b
      simp only [Modal.mk.injEq] at h1 ⊢
      simp only [] at h2
      simp [h1, h2]
    have fn : ∀ a : Modal, { focusNext a with focused := 0 } = { a with focused := 0 } := by
      intro a; unfold focusNext; split <;> rfl
    have fp : ∀ a : Modal, { focusPrev a with focused := 0 } = { a with focused := 0 } := by
      intro a; unfold focusPrev; (repeat' split) <;> rfl
    constructor
    · apply ext
      · rw [fp, fn]
      · have hb' : (focusNext m).buttons ≠ [] := by rw [focusNext_buttons]; exact hb
        rw [focusPrev_focused _ (focusNext_ok m ok) hb', focusNext_buttons, focusNext_focused m ok hb,
          Int.emod_sub_emod, show m.focused + 1 - 1 = m.focused by omega]
        exact Int.emod_eq_of_lt h1 h3
    · apply ext
      · rw [fn, fp]
      · have hb' : (focusPrev m).buttons ≠ [] := by rw [focusPrev_buttons]; exact hb
        rw [focusNext_focused _ (focusPrev_ok m ok) hb', focusPrev_buttons, focusPrev_focused m ok hb,
          Int.emod_add_emod, show m.focused - 1 + 1 = m.focused by omega]
        exact Int.emod_eq_of_lt h1 h3

/-- C68: an invisible modal ignores every message: no change, no command. -/
theorem C68_invisible_ignores (fold : List Char → List Char → Bool) (m : Modal) (msg : Msg)
    (h : m.visible = false) : update fold m msg = (m, none) := by
  simp [update, h]

/-- C68: the default keys of a visible modal: Esc hides it (and presses nothing), Tab and
    right arrow move on, Shift+Tab and left arrow move back, Enter presses the focused
    button and changes nothing. -/
theorem C68_default_keys (fold : List Char → List Char → Bool) (m : Modal)
    (hr : Reachable fold m) (hv : m.visible = true) (hk : m.kb = defaultKeyBindings) :
    update fold m (.key { type := .esc }) = (hide m, none) ∧
    update fold m (.key { type := .tab }) = (focusNext m, none) ∧
    update fold m (.key { type := .right }) = (focusNext m, none) ∧
    update fold m (.key { type := .tab, shift := true }) = (focusPrev m, none) ∧
    update fold m (.key { type := .left }) = (focusPrev m, none) ∧
    (m.buttons ≠ [] → ∃ b, m.buttons[m.focused.toNat]? = some b ∧
      update fold m (.key { type := .enter }) = (m, some b.action)) := by
  have e1 : (KeyMsg.str { type := .esc }) = "esc".toList := by decide
  have e2 : (KeyMsg.str { type := .tab }) = "tab".toList := by decide
  have e3 : (KeyMsg.str { type := .right }) = "→".toList := by decide
  have e4 : (KeyMsg.str { type := .tab, shift := true }) = "shift+tab".toList := by decide
  have e5 : (KeyMsg.str { type := .left }) = "←".toList := by decide
  have e6 : (KeyMsg.str { type := .enter }) = "enter".toList := by decide
  refine ⟨?_, ?_, ?_, ?_, ?_, ?_⟩
  · simp [update, hv, handleKeyPress, e1, hk, matchesKey, defaultKeyBindings]
  · simp [update, hv, handleKeyPress, e2, hk, matchesKey, defaultKeyBindings]
  · simp [update, hv, handleKeyPress, e3, hk, matchesKey, defaultKeyBindings]
  · simp [update, hv, handleKeyPress, e4, hk, matchesKey, defaultKeyBindings]
  · simp [update, hv, handleKeyPress, e5, hk, matchesKey, defaultKeyBindings]
  · intro hb
    obtain ⟨b, hb1, hb2⟩ := (C68_focus_valid fold m hr).2 hb
    refine ⟨b, hb2, ?_⟩
    simp [update, hv, handleKeyPress, e6, hk, matchesKey, defaultKeyBindings, hb1]

theorem shortcut_spec (fold : List Char → List Char → Bool) (k : List Char) (bs : List Button) :
    (shortcut fold k bs = none ∧ ∀ b ∈ bs, fold k b.key = false) ∨
    ∃ (i : Nat) (b : Button), bs[i]? = some b ∧ fold k b.key = true ∧
      (∀ (j : Nat) (c : Button), j < i → bs[j]? = some c → fold k c.key = false) ∧
      shortcut fold k bs = some b.action := by
  induction bs with
  | nil => left; exact ⟨rfl, by simp⟩
  | cons b bs ih =>
    by_cases h : fold k b.key = true
    · right
      refine ⟨0, b, rfl, h, by omega, ?_⟩
      simp [shortcut, h]
    · have hf : fold k b.key = false := by simpa using h
      rcases ih with ⟨h1, h2⟩ | ⟨i, c, h1, h2, h3, h4⟩
      · left
        refine ⟨by simp [shortcut, hf, h1], ?_⟩
        intro d hd
        rcases List.mem_cons.1 hd with rfl | hd
        · exact hf
        · exact h2 d hd
      · right
        refine ⟨i + 1, c, by simpa using h1, h2, ?_, by simp [shortcut, hf, h4]⟩
        intro j d hj hd
        cases j with
        | zero => simp at hd; subst hd; exact hf
        | succ j => exact h3 j d (by omega) (by simpa using hd)

/-- C68: a key that is bound to nothing else presses the first button whose shortcut it
    matches, or nothing if there is none; the modal itself does not change. -/
theorem C68_shortcut_first_match (fold : List Char → List Char → Bool) (m : Modal) (k : KeyMsg)
    (hv : m.visible = true)
    (hn : k.str ∉ m.kb.close ∧ k.str ∉ m.kb.nextButton ∧ k.str ∉ m.kb.previousButton ∧
      k.str ∉ m.kb.activateButton) :
    (update fold m (.key k)).1 = m ∧
    (((update fold m (.key k)).2 = none ∧ ∀ b ∈ m.buttons, fold k.str b.key = false) ∨
     ∃ (i : Nat) (b : Button), m.buttons[i]? = some b ∧ fold k.str b.key = true ∧
      (∀ (j : Nat) (c : Button), j < i → m.buttons[j]? = some c → fold k.str c.key = false) ∧
      (update fold m (.key k)).2 = some b.action) := by
  have nm : ∀ l : List (List Char), k.str ∉ l → matchesKey k.str l = false := by
    intro l hl
    simp only [matchesKey, List.any_eq_false, beq_iff_eq]
    intro x hx e
    exact hl (e ▸ hx)
  have e : update fold m (.key k) = (m, shortcut fold k.str m.buttons) := by
    simp [update, hv, handleKeyPress, nm _ hn.1, nm _ hn.2.1, nm _ hn.2.2.1, nm _ hn.2.2.2]
  rw [e]
  exact ⟨rfl, shortcut_spec fold k.str m.buttons⟩

example : Reachable (· == ·) ([Op.buttons [⟨[89], ['y'], [1]⟩, ⟨[78], ['n'], [2]⟩], Op.show,
    Op.update (.key { type := .tab })].foldl (apply (· == ·)) (newWithTitle [] [])) ∧
    ([Op.buttons [⟨[89], ['y'], [1]⟩, ⟨[78], ['n'], [2]⟩], Op.show,
    Op.update (.key { type := .tab })].foldl (apply (· == ·)) (newWithTitle [] [])).focused = 1 :=
  ⟨⟨[], [], _, rfl⟩, by decide⟩

/-! ## C103: row widths -/

/-- Terminal cells taken by UTF-8 text made of one-cell characters: the bytes that are not
    continuation bytes. -/
def cells (t : Bytes) : Nat := t.countP (fun b => b < 0x80 || 0xC0 ≤ b)

/-- C103, full claim: every drawn row is exactly `width` cells wide. -/
def C103_statement : Prop :=
  ∀ (m : Modal) (x y : Int), 4 ≤ m.width →
    ∃ ds, renderModalBox m x y = some ds ∧ ∀ d ∈ ds, (cells d.text : Int) = m.width

/-- C103 is false for non-ASCII text: the row of "é" is one cell short. -/
theorem C103_refuted : ¬ C103_statement := by
  intro h
  obtain ⟨ds, h1, h2⟩ := h (newWithTitle [] [0xC3, 0xA9]) 0 0 (by decide)
  have hds : ds = (renderModalBox (newWithTitle [] [0xC3, 0xA9]) 0 0).getD [] := by rw [h1]; rfl
  rw [hds] at h2
  revert h2
  decide +kernel

/-- ASCII text. -/
def Ascii (t : Bytes) : Prop := ∀ b ∈ t, b < 0x80

theorem cells_append (a b : Bytes) : cells (a ++ b) = cells a + cells b := by
  simp [cells, List.countP_append]

theorem cells_ascii (t : Bytes) (h : Ascii t) : cells t = t.length := by
  unfold cells
  rw [List.countP_eq_length]
  intro b hb
  simp [h b hb]

theorem cells_hbars (n : Nat) : cells (List.replicate n hbar).flatten = n := by
  induction n with
  | zero => rfl
  | succ n ih =>
    rw [List.replicate_succ, List.flatten_cons, cells_append, ih]
    have : cells hbar = 1 := by decide
    omega

theorem pad_ascii (t u : Bytes) (w : Int) (hw : 0 ≤ w) (ha : Ascii t) (h : padOrTruncate t w = some u) :
    Ascii u ∧ (u.length : Int) = w := by
  obtain ⟨u', h1, h2, h3, h4⟩ := C67_pad_exact t w hw
  rw [h] at h1
  cases h1
  refine ⟨?_, h2⟩
  by_cases hl : (t.length : Int) ≤ w
  · rw [h3 hl]
    intro b hb
    rcases List.mem_append.1 hb with hb | hb
    · exact ha b hb
    · rw [(List.mem_replicate.1 hb).2]; decide
  · by_cases h5 : 3 < w
    · rw [h4 (by omega) h5]
      intro b hb
      rcases List.mem_append.1 hb with hb | hb
      · exact ha b (List.mem_of_mem_take hb)
      · simp at hb; subst hb; decide
    · unfold padOrTruncate at h
      rw [if_pos (by omega), if_neg (by omega), if_neg (by omega)] at h
      cases h
      intro b hb
      exact ha b (List.mem_of_mem_take hb)

theorem barred_cells (t r : Bytes) (w : Int) (hw : 4 ≤ w) (ha : Ascii t)
    (h : barred (padOrTruncate t (w - 4)) = some r) : (cells r : Int) = w := by
  unfold barred at h
  obtain ⟨u, hu⟩ := pad_some t (w - 4) (by omega)
  rw [hu] at h
  obtain ⟨a, b⟩ := pad_ascii t u (w - 4) (by omega) ha hu
  simp only [Option.map_some, Option.some.injEq] at h
  subst h
  simp only [cells_append, cells_ascii u a]
  have e1 : cells vbar = 1 := by decide
  have e2 : cells [32] = 1 := by decide
  omega

theorem rule_cells (l r t : Bytes) (w : Int) (hw : 4 ≤ w) (hl : cells l = 1) (hr : cells r = 1)
    (h : rule l r w = some t) : (cells t : Int) = w := by
  rw [rule_some _ _ _ (by omega)] at h
  cases h
  simp only [cells_append, cells_hbars, hl, hr]
  omega

theorem contentDraws_cells (x sy w : Int) (hw : 4 ≤ w) (i : Nat) (ls : List Bytes) (ds : List Draw)
    (ha : ∀ l ∈ ls, Ascii l) (h : contentDraws x sy w i ls = some ds) :
    ∀ d ∈ ds, (cells d.text : Int) = w := by
  induction ls generalizing i ds with
  | nil => simp only [contentDraws, Option.some.injEq] at h; subst h; simp
  | cons l ls ih =>
    simp only [contentDraws] at h
    split at h
    · rename_i t ds' e1 e2
      cases h
      intro d hd
      rcases List.mem_cons.1 hd with rfl | hd
      · exact barred_cells l t w hw (ha l (by simp)) e1
      · exact ih (i + 1) ds' (fun l' h' => ha l' (by simp [h'])) e2 d hd
    · cases h

theorem splitNL_ne (t : Bytes) : splitNL t ≠ [] := by
  cases t with
  | nil => simp [splitNL]
  | cons c cs => simp only [splitNL]; split <;> simp

theorem splitNL_ascii (t : Bytes) (h : Ascii t) : ∀ l ∈ splitNL t, Ascii l := by
  induction t with
  | nil => simp [splitNL, Ascii]
  | cons c cs ih =>
    have ih := ih (fun b hb => h b (by simp [hb]))
    simp only [splitNL]
    split
    · intro l hl
      rcases List.mem_cons.1 hl with rfl | hl
      · simp [Ascii]
      · exact ih l hl
    · intro l hl
      obtain ⟨a, as, e⟩ := List.exists_cons_of_ne_nil (splitNL_ne cs)
      rw [e] at hl ih
      simp only [List.headD_cons, List.tail_cons] at hl
      rcases List.mem_cons.1 hl with rfl | hl
      · intro b hb
        rcases List.mem_cons.1 hb with rfl | hb
        · exact h _ (by simp)
        · exact ih a (by simp) b hb
      · exact ih l (by simp [hl])

theorem join2_ascii (ps : List Bytes) (h : ∀ p ∈ ps, Ascii p) : Ascii (join2 ps) := by
  induction ps with
  | nil => simp [join2, Ascii]
  | cons p ps ih =>
    cases ps with
    | nil => simpa [join2] using h p (by simp)
    | cons q rest =>
      have ih := ih (fun p' hp => h p' (List.mem_cons_of_mem _ hp))
      simp only [join2]
      intro b hb
      simp only [List.mem_append] at hb
      rcases hb with (hb | hb) | hb
      · exact h p (by simp) b hb
      · simp at hb; subst hb; decide
      · exact ih b hb

theorem buttonParts_ascii (f i : Int) (bs : List Button) (h : ∀ b ∈ bs, Ascii b.label) :
    ∀ p ∈ buttonParts f i bs, Ascii p := by
  induction bs generalizing i with
  | nil => simp [buttonParts]
  | cons b bs ih =>
    intro p hp
    rcases List.mem_cons.1 hp with rfl | hp
    · have hb := h b (by simp)
      intro c hc
      unfold buttonText at hc
      split at hc <;> simp only [List.mem_append, List.mem_cons, List.not_mem_nil, or_false] at hc <;>
        rcases hc with (hc | hc) | hc
      all_goals first
        | exact hb c hc
        | (rcases hc with rfl | rfl <;> decide)
    · exact ih (i + 1) (fun b' hb => h b' (by simp [hb])) p hp

/-- C103 (ASCII): with ASCII title, content and labels every drawn row is exactly `width`
    cells wide, whatever the lengths. -/
theorem C103_ascii_rows_partial (m : Modal) (x y : Int) (hw : 4 ≤ m.width)
    (ht : Ascii m.title) (hc : Ascii m.content) (hb : ∀ b ∈ m.buttons, Ascii b.label) :
    ∃ ds, renderModalBox m x y = some ds ∧ ∀ d ∈ ds, (cells d.text : Int) = m.width := by
  obtain ⟨td, cd, bd, top, bot, h1, h2, h3, h4, h5, h6⟩ := box_eq m x y hw
  refine ⟨_, h1, ?_⟩
  intro d hd
  simp only [List.mem_append, List.mem_singleton, List.append_nil] at hd
  rcases hd with rfl | hd | hd | hd | rfl
  · exact rule_cells _ _ _ _ hw (by decide) (by decide) h2
  · unfold titleDraws at h4
    split at h4
    · split at h4
      · rename_i t s e1 e2
        cases h4
        simp only [List.mem_cons, List.not_mem_nil, or_false] at hd
        rcases hd with rfl | rfl
        · exact barred_cells _ _ _ hw ht e1
        · exact rule_cells _ _ _ _ hw (by decide) (by decide) e2
      · cases h4
    · cases h4; simp at hd
  · refine contentDraws_cells x _ m.width hw 0 _ cd ?_ h6 d hd
    intro l hl
    exact splitNL_ascii _ hc l (List.mem_of_mem_take hl)
  · unfold buttonDraws at h5
    split at h5
    · split at h5
      · rename_i s t e1 e2
        cases h5
        simp only [List.mem_cons, List.not_mem_nil, or_false] at hd
        rcases hd with rfl | rfl
        · exact rule_cells _ _ _ _ hw (by decide) (by decide) e1
        · exact barred_cells _ _ _ hw (join2_ascii _ (buttonParts_ascii _ _ _ hb)) e2
      · cases h5
    · cases h5; simp at hd
  · exact rule_cells _ _ _ _ hw (by decide) (by decide) h3

example : 4 ≤ exModal.width ∧ exModal.title.all (· < 0x80) = true ∧
    exModal.content.all (· < 0x80) = true := by decide

/-! ## C104: no panic -/

/-- C104, full claim: rendering never panics, whatever the size asked for. -/
def C104_statement : Prop := ∀ m : Modal, (view m).isSome

/-- C104 is false: a visible modal of width 3 panics. -/
theorem C104_refuted : ¬ C104_statement := by
  intro h
  have := h { newWithTitle [] [104] with width := 3, visible := true }
  revert this
  decide

/-- C104 (width at least 4): no panic for any height, content, title, buttons, position and
    terminal size. -/
theorem C104_wide_enough_partial (m : Modal) (hw : 4 ≤ m.width) : (view m).isSome := by
  unfold view
  split
  · rfl
  · obtain ⟨td, cd, bd, top, bot, h1, _⟩ :=
      box_eq m (calculatePosition m).1 (calculatePosition m).2 hw
    rw [h1]; rfl

/-- C104: and it always panics for a visible modal narrower than its frame. -/
theorem C104_narrow_panics (m : Modal) (hv : m.visible = true) (hw : m.width < 2) : view m = none := by
  have hr : ∀ l r, rule l r m.width = none := by
    intro l r
    unfold rule repeatStr
    rw [if_pos (by omega)]
    rfl
  simp [view, hv, renderModalBox, frameDraw, hr, seqDraws]

/-! ## C105: centring -/

/-- C105: the centred position: never negative; when the terminal is at least as large as
    the modal, the modal fits and the two margins differ by at most one. -/
theorem C105_centered_margins (tw th mw mh : Int) :
    0 ≤ (centerPosition tw th mw mh).1 ∧ 0 ≤ (centerPosition tw th mw mh).2 ∧
    (mw ≤ tw → (centerPosition tw th mw mh).1 + mw ≤ tw ∧
      0 ≤ (tw - mw - (centerPosition tw th mw mh).1) - (centerPosition tw th mw mh).1 ∧
      (tw - mw - (centerPosition tw th mw mh).1) - (centerPosition tw th mw mh).1 ≤ 1) ∧
    (mh ≤ th → (centerPosition tw th mw mh).2 + mh ≤ th ∧
      0 ≤ (th - mh - (centerPosition tw th mw mh).2) - (centerPosition tw th mw mh).2 ∧
      (th - mh - (centerPosition tw th mw mh).2) - (centerPosition tw th mw mh).2 ≤ 1) := by
  have key : ∀ t k : Int, 0 ≤ (if (t - k).tdiv 2 < 0 then 0 else (t - k).tdiv 2) ∧
      (k ≤ t → (if (t - k).tdiv 2 < 0 then 0 else (t - k).tdiv 2) = (t - k) / 2) := by
    intro t k
    constructor
    · split <;> omega
    · intro h
      rw [Int.tdiv_eq_ediv_of_nonneg (by omega), if_neg (by omega)]
  obtain ⟨a1, a2⟩ := key tw mw
  obtain ⟨b1, b2⟩ := key th mh
  simp only [centerPosition]
  refine ⟨a1, b1, ?_, ?_⟩
  · intro h; rw [a2 h]; omega
  · intro h; rw [b2 h]; omega

/-- C105, full claim: after the application has forwarded the terminal size, a centred
    modal shown to the user is centred for that size. -/
def C105_statement : Prop :=
  ∀ (fold : List Char → List Char → Bool) (m : Modal) (w h : Int), m.position = none →
    calculatePosition («show» (update fold m (.windowSize w h)).1) =
      centerPosition w h m.width m.height

/-- C105 is false: a size message that arrives while the modal is hidden is lost. -/
theorem C105_refuted : ¬ C105_statement := by
  intro h
  have := h (· == ·) (newWithTitle [] []) 200 60 rfl
  revert this
  decide

/-- C105 (visible): a size message that arrives while the modal is visible is honoured. -/
theorem C105_visible_partial (fold : List Char → List Char → Bool) (m : Modal) (w h : Int)
    (hp : m.position = none) (hv : m.visible = true) :
    calculatePosition («show» (update fold m (.windowSize w h)).1) =
      centerPosition w h m.width m.height := by
  simp [update, hv, «show», calculatePosition, hp]

/-- C105: an explicit position is used as given. -/
theorem C105_explicit_position (fold : List Char → List Char → Bool) (m : Modal) (x y : Int) :
    calculatePosition (apply fold m (.position x y)) = (x, y) := rfl

example : (newWithTitle [] []).position = none ∧ («show» (newWithTitle [] [])).visible = true := by
  decide

/-! ## Settings -/

theorem update_settings (fold : List Char → List Char → Bool) (m : Modal) (msg : Msg) :
    (update fold m msg).1.title = m.title ∧ (update fold m msg).1.content = m.content ∧ (update fold m msg).1.width = m.width ∧
    (update fold m msg).1.height = m.height ∧ (update fold m msg).1.position = m.position ∧ (update fold m msg).1.dim = m.dim ∧
    (update fold m msg).1.kb = m.kb ∧ (update fold m msg).1.buttons = m.buttons := by
  unfold update
  split
  · simp
  · cases msg with
    | windowSize w h => simp
    | other => simp
    | key k =>
      simp only [handleKeyPress, hide, focusNext, focusPrev]
      (repeat' split) <;> simp

/-- C105: after any history of calls and messages, size, position (explicit, or centred), buttons, the
    dimming switch and the key bindings are what was last set, and title and content are those of the
    constructor; no message changes them. -/
theorem C105_settings (fold : List Char → List Char → Bool) (t c : Bytes) (ops : List Op) :
    let m := ops.foldl (apply fold) (newWithTitle t c)
    m.title = t ∧ m.content = c ∧
    (m.width, m.height) = lastSaid (fun | .size w h => some (w, h) | _ => none) (40, 10) ops ∧
    m.position = lastSaid (fun | .position x y => some (some (x, y)) | .centered => some none | _ => none) none ops ∧
    m.buttons = lastSaid (fun | .buttons bs => some bs | _ => none) [] ops ∧
    m.dim = lastSaid (fun | .dim b => some b | _ => none) false ops ∧
    m.kb = lastSaid (fun | .keyBindings kb => some kb | _ => none) defaultKeyBindings ops := by
  have hu := update_settings fold
  refine ⟨?_, ?_, foldl_last (apply fold) (fun m : Modal => (m.width, m.height)) _ ?_ ops _,
    foldl_last (apply fold) Modal.position _ ?_ ops _, foldl_last (apply fold) Modal.buttons _ ?_ ops _,
    foldl_last (apply fold) Modal.dim _ ?_ ops _, foldl_last (apply fold) Modal.kb _ ?_ ops _⟩
  · have := foldl_last (apply fold) Modal.title (fun _ => none) ?_ ops (newWithTitle t c)
    · rw [this]; unfold lastSaid; rw [List.filterMap_eq_nil_iff.2 (fun _ _ => rfl)]; rfl
    · intro s op; cases op <;> first | rfl | exact (hu s _).1
  · have := foldl_last (apply fold) Modal.content (fun _ => none) ?_ ops (newWithTitle t c)
    · rw [this]; unfold lastSaid; rw [List.filterMap_eq_nil_iff.2 (fun _ _ => rfl)]; rfl
    · intro s op; cases op <;> first | rfl | exact (hu s _).2.1
  · intro s op; cases op <;> first | rfl | (simp only [apply, (hu s _).2.2.1, (hu s _).2.2.2.1]; rfl)
  · intro s op; cases op <;> first | rfl | exact (hu s _).2.2.2.2.1
  · intro s op; cases op <;> first | rfl | exact (hu s _).2.2.2.2.2.2.2
  · intro s op; cases op <;> first | rfl | exact (hu s _).2.2.2.2.2.1
  · intro s op; cases op <;> first | rfl | exact (hu s _).2.2.2.2.2.2.1

/-- C68: a modal is visible exactly if it was shown and not closed since: it starts hidden, Show and
    Hide set it, and among the messages only a close key changes it, to hidden. -/
theorem C68_visibility (fold : List Char → List Char → Bool) (t c : Bytes) (m : Modal) (msg : Msg) :
    (newWithTitle t c).visible = false ∧ (apply fold m .show).visible = true ∧ (apply fold m .hide).visible = false ∧
    ((update fold m msg).1.visible = false ↔ m.visible = false ∨ ∃ k, msg = .key k ∧ ∃ s ∈ m.kb.close, k.str = s) := by
  refine ⟨rfl, rfl, rfl, ?_⟩
  cases hv : m.visible with
  | false => simp [update, hv]
  | true =>
    have e : update fold m msg = (match msg with
      | .windowSize w h => ({ m with termW := w, termH := h }, none)
      | .key k => handleKeyPress fold m k
      | .other => (m, none)) := by cases msg <;> simp [update, hv]
    rw [e]
    cases msg with
    | windowSize w h => simp [hv]
    | other => simp [hv]
    | key k =>
      simp only [Msg.key.injEq, exists_eq_left', Bool.true_eq_false, false_or]
      by_cases h : matchesKey k.str m.kb.close = true
      · simp only [handleKeyPress, h, if_true, hide, true_iff]
        simp only [matchesKey, List.any_eq_true, beq_iff_eq] at h
        exact h
      · have h' : ¬ ∃ s ∈ m.kb.close, k.str = s := by
          intro h'; apply h; simpa [matchesKey] using h'
        simp only [h', iff_false]
        simp only [handleKeyPress, focusNext, focusPrev, h]
        (repeat' split) <;> simp_all

example : ([Op.size 20 5, .position 3 4, .update .other, .centered, .size 30 8].foldl (apply (· == ·)) (newWithTitle [84] [97])).position = none ∧
    ([Op.size 20 5, .position 3 4, .update .other, .centered, .size 30 8].foldl (apply (· == ·)) (newWithTitle [84] [97])).width = 30 := by decide

end Phoenix.Modal
