import Verif.TextArea.Lemmas
/- Effect of each TextArea command in zipper form (helper lemmas). -/
namespace Phoenix.TextArea

/-! ### moves -/

@[simp] theorem tryMove_lines (t : TA) (r c) : (t.tryMove r c).1.lines = t.lines := by
  unfold TA.tryMove; split
  · rfl
  · dsimp only; split <;> rfl

theorem tryMove_cases (t : TA) (r c) :
    (t.tryMove r c = (t.withCursor r c, [.moved t.pos ⟨r, c⟩]) ∧
      (∀ v, t.validator = some v → v t.pos ⟨r, c⟩ = true)) ∨
    (t.tryMove r c = (t, [.boundary ⟨r, c⟩]) ∧ ∃ v, t.validator = some v ∧ v t.pos ⟨r, c⟩ = false) := by
  unfold TA.tryMove; split
  · rename_i h; left; simp [h]
  · rename_i v h
    by_cases hv : v t.pos ⟨r, c⟩
    · left; simp [hv, h]
    · right; simp [hv, h]

theorem tryMove_inBounds {t : TA} (h : t.InBounds) {r c : Nat} (hr : r < t.lines.length)
    (hc : c ≤ (bufLine t.lines r).length) : (t.tryMove r c).1.InBounds := by
  rcases tryMove_cases t r c with ⟨e, _⟩ | ⟨e, _⟩ <;> rw [e]
  · exact ⟨hr, hc⟩
  · exact h

theorem moveCursor_inBounds {t : TA} (h : t.InBounds) {r c : Nat} (hr : r < t.lines.length)
    (hc : c ≤ (bufLine t.lines r).length) : (t.moveCursor r c).1.InBounds := by
  unfold TA.moveCursor; split
  · exact h
  · exact tryMove_inBounds h hr hc

theorem moveLeft_inBounds {t : TA} (h : t.InBounds) : t.moveLeft.1.InBounds := by
  obtain ⟨h1, h2⟩ := id h
  unfold TA.moveLeft; split
  · exact tryMove_inBounds h h1 (by omega)
  · split
    · exact tryMove_inBounds h (by omega) (Nat.le_refl _)
    · exact h

theorem moveRight_inBounds {t : TA} (h : t.InBounds) : t.moveRight.1.InBounds := by
  obtain ⟨h1, h2⟩ := id h
  unfold TA.moveRight; split
  · rename_i hc; exact tryMove_inBounds h h1 (by unfold TA.currentLine at hc; omega)
  · split
    · exact tryMove_inBounds h (by omega) (Nat.zero_le _)
    · exact h

theorem moveUp_inBounds {t : TA} (h : t.InBounds) : t.moveUp.1.InBounds := by
  obtain ⟨h1, h2⟩ := id h
  unfold TA.moveUp; split
  · split
    · exact h
    · dsimp only; split <;> exact h
  · refine tryMove_inBounds h (by omega) ?_
    split <;> omega

theorem moveDown_inBounds {t : TA} (h : t.InBounds) : t.moveDown.1.InBounds := by
  obtain ⟨h1, h2⟩ := id h
  unfold TA.moveDown; split
  · split
    · exact h
    · dsimp only; split <;> exact h
  · refine tryMove_inBounds h (by omega) ?_
    split <;> omega

theorem moveToLineStart_inBounds {t : TA} (h : t.InBounds) : t.moveToLineStart.1.InBounds := by
  obtain ⟨h1, h2⟩ := id h
  unfold TA.moveToLineStart; split
  · exact moveCursor_inBounds h h1 (Nat.zero_le _)
  · split
    · exact moveCursor_inBounds h h1 (Nat.zero_le _)
    · split
      · rename_i c hc
        have := (firstAccepted_spec hc)
        exact moveCursor_inBounds h h1 (by have := this.2.2.1; unfold TA.currentLine at this; omega)
      · exact h

theorem moveToBufferEnd_inBounds {t : TA} (h : t.InBounds) : t.moveToBufferEnd.1.InBounds :=
  moveCursor_inBounds h (by have := h.1; omega) (Nat.le_refl _)

theorem forwardWord_inBounds {t : TA} (h : t.InBounds) : t.forwardWord.1.InBounds := by
  have h1 := scanFwd_bounds (fun c => !isWordBoundary c) t.currentLine (t.currentLine.length - t.col) t.col h.2
  exact moveCursor_inBounds h h.1 (scanFwd_bounds _ _ _ _ h1.2).2

theorem backwardWord_le (line : Line) (n : Nat) : scanBackWord line (scanBackOn line n) ≤ n :=
  Nat.le_trans (scanBackWord_le _ _) (scanBackOn_le _ _)

theorem backwardWord_inBounds {t : TA} (h : t.InBounds) : t.backwardWord.1.InBounds := by
  unfold TA.backwardWord; split
  · exact h
  · refine moveCursor_inBounds h h.1 ?_
    have := backwardWord_le t.currentLine (t.col - 1)
    have := h.2
    omega

/-! ### edits in zipper form -/

theorem zip_insertChar {t : TA} {pre a b post} (h : ZipAt t pre a b post) (ch : Char)
    (hro : t.readOnly = false) : ZipAt (t.insertChar ch) pre (a ++ [ch]) b post := by
  constructor
  · simp [TA.insertChar, hro, h.lines, h.row, h.col, insertChar_zip]
  · simp [TA.insertChar, hro, h.row]
  · simp [TA.insertChar, hro, h.col]

theorem zip_insertNewline {t : TA} {pre a b post} (h : ZipAt t pre a b post)
    (hro : t.readOnly = false) (hm : ¬ (t.maxLines > 0 ∧ (t.lines.length : Int) ≥ t.maxLines)) :
    ZipAt t.insertNewline (pre ++ [a]) [] b post := by
  rw [TA.insertNewline, if_neg (by simp [hro]), if_neg hm]
  constructor
  · simp [h.lines, h.row, h.col, insertNewline_zip]
  · simp [h.row]
  · simp

/-- Joining a line with its predecessor. -/
theorem zip_backspace_join {t : TA} {pre p b post} (h : ZipAt t (pre ++ [p]) [] b post)
    (hro : t.readOnly = false)
    (hv : ∀ v, t.validator = some v → v t.pos ⟨pre.length, p.length⟩ = true) :
    ZipAt t.deleteCharBackward.1 pre p b post := by
  have hrow : t.row = pre.length + 1 := by rw [h.row]; simp
  have hcol : t.col = 0 := by rw [h.col]; rfl
  have hl : t.lines = pre ++ p :: b :: post := by rw [h.lines]; simp
  have hb : bufLine t.lines (t.row - 1) = p := by rw [hrow, hl]; exact bufLine_mid _ _ _
  have hcur : t.currentLine = b := by rw [h.currentLine]; rfl
  rw [TA.deleteCharBackward, if_neg (by simp [hro]), if_neg (by omega)]
  simp only [hcol, hb, Nat.lt_irrefl, if_false, gt_iff_lt]
  have hr1 : t.row - 1 = pre.length := by omega
  rw [if_neg]
  · constructor
    · simp only [wc_lines, wb_lines, hcur, hl, hrow, Nat.add_sub_cancel, join_zip]
    · simp [hr1]
    · simp
  · rw [hr1]
    split
    · simp
    · rename_i v hv'; simp [hv v hv']

theorem zip_backspace_char {t : TA} {pre a c b post} (h : ZipAt t pre (a ++ [c]) b post)
    (hro : t.readOnly = false)
    (hv : ∀ v, t.validator = some v → v t.pos ⟨pre.length, a.length⟩ = true) :
    ZipAt t.deleteCharBackward.1 pre a b post := by
  have hcol : t.col = a.length + 1 := by rw [h.col]; simp
  have hl : t.lines = pre ++ (a ++ c :: b) :: post := by rw [h.lines]; simp
  have hc1 : t.col - 1 = a.length := by omega
  have hpos : t.col > 0 := by omega
  rw [TA.deleteCharBackward, if_neg (by simp [hro]), if_neg (by omega)]
  simp only [hpos, if_true]
  rw [if_neg]
  · constructor
    · simp only [wc_lines, wb_lines, hl, h.row, hc1, deleteChar_zip]
    · simp [h.row]
    · simp [hc1]
  · rw [h.row, hc1]
    split
    · simp
    · rename_i v hv'; simp [hv v hv']

theorem zip_backspace_start {t : TA} {b post} (h : ZipAt t [] [] b post) :
    t.deleteCharBackward.1 = t := by
  have h1 := h.row; have h2 := h.col
  simp at h1 h2
  unfold TA.deleteCharBackward
  split
  · rfl
  · simp [h1, h2]

theorem deleteCharBackward_blocked {t : TA} {v : Pos → Pos → Bool} (hv : t.validator = some v)
    (hb : v t.pos (if t.col > 0 then ⟨t.row, (t.col : Int) - 1⟩
      else ⟨(t.row : Int) - 1, (bufLine t.lines (t.row - 1)).length⟩) = false) :
    t.deleteCharBackward.1 = t := by
  unfold TA.deleteCharBackward
  split
  · rfl
  · split
    · rfl
    · rename_i h1 h2
      by_cases hc : t.col > 0
      · have e : ((t.col - 1 : Nat) : Int) = (t.col : Int) - 1 := by omega
        simp [hc, e, hv, hb] at hb ⊢
        simp [hb]
      · have e : ((t.row - 1 : Nat) : Int) = (t.row : Int) - 1 := by omega
        simp [hc, e, hv, hb] at hb ⊢
        simp [hb]

theorem zip_deleteForward_char {t : TA} {pre a c b post} (h : ZipAt t pre a (c :: b) post)
    (hro : t.readOnly = false) : ZipAt t.deleteCharForward pre a b post := by
  have hcl := h.currentLine
  rw [TA.deleteCharForward, if_neg (by simp [hro]), if_neg (by rw [hcl, h.col]; simp)]
  constructor
  · simp [h.lines, h.row, h.col, deleteChar_zip]
  · simp [h.row]
  · simp [h.col]

theorem zip_deleteForward_join {t : TA} {pre a n post} (h : ZipAt t pre a [] (n :: post))
    (hro : t.readOnly = false) : ZipAt t.deleteCharForward pre a n post := by
  have hcl := h.currentLine
  have hl : t.lines = pre ++ a :: n :: post := by rw [h.lines]; simp
  rw [TA.deleteCharForward, if_neg (by simp [hro]), if_pos (by rw [hcl, h.col]; simp),
    if_pos (by rw [hl, h.row]; simp)]
  constructor
  · simp only [wc_lines, wb_lines, hcl, List.append_nil, hl, h.row, bufLine_mid1, join_zip]
  · simp [h.row]
  · simp [h.col]

theorem zip_deleteForward_end {t : TA} {pre a} (h : ZipAt t pre a [] []) :
    t.deleteCharForward = t := by
  have hcl := h.currentLine
  unfold TA.deleteCharForward
  split
  · rfl
  · rw [if_pos (by rw [hcl, h.col]; simp), if_neg (by rw [h.lines, h.row]; simp)]

/-! ### kills -/

theorem killLine_text {t : TA} {pre a b post} (h : ZipAt t pre a b post) (hb : b ≠ [])
    (hro : t.readOnly = false) :
    t.killLine.lines = pre ++ a :: post ∧ t.killLine.killRing = t.killRing.kill b := by
  have hcl := h.currentLine
  have : 0 < b.length := List.length_pos_iff.2 hb
  rw [TA.killLine, if_neg (by simp [hro]), if_neg (by rw [hcl, h.col]; simp; omega)]
  refine ⟨?_, ?_⟩
  · simp only [wk_lines, wb_lines, h.lines, h.row, h.col, deleteToLineEnd_zip _ _ _ _ hb]
  · simp [hcl, h.col]

theorem killLine_join {t : TA} {pre a n post} (h : ZipAt t pre a [] (n :: post))
    (hro : t.readOnly = false) :
    t.killLine.lines = pre ++ (a ++ n) :: post ∧ t.killLine.killRing = t.killRing.kill ['\n'] := by
  have hcl := h.currentLine
  have hl : t.lines = pre ++ a :: n :: post := by rw [h.lines]; simp
  rw [TA.killLine, if_neg (by simp [hro]), if_pos (by rw [hcl, h.col]; simp),
    if_pos (by rw [hl, h.row]; simp)]
  refine ⟨?_, by simp⟩
  simp only [wk_lines, wb_lines, hcl, List.append_nil, hl, h.row, bufLine_mid1, join_zip]

theorem killLine_end {t : TA} {pre a} (h : ZipAt t pre a [] []) : t.killLine = t := by
  have hcl := h.currentLine
  unfold TA.killLine
  split
  · rfl
  · rw [if_pos (by rw [hcl, h.col]; simp), if_neg (by rw [h.lines, h.row]; simp)]

theorem killWord_text {t : TA} {pre a b post} (h : ZipAt t pre a b post)
    (hro : t.readOnly = false) (hw : b.takeWhile (fun c => !isWordBoundary c) ≠ []) :
    t.killWord.lines = pre ++ (a ++ b.dropWhile (fun c => !isWordBoundary c)) :: post ∧
    t.killWord.killRing = t.killRing.kill (b.takeWhile (fun c => !isWordBoundary c)) := by
  have hcl := h.currentLine
  have hs : scanFwd (fun c => !isWordBoundary c) t.currentLine (t.currentLine.length - t.col) t.col
      = a.length + (b.takeWhile (fun c => !isWordBoundary c)).length := by
    rw [hcl, h.col]; exact scanFwd_eq _ _ _ _ (by simp)
  have hpos : 0 < (b.takeWhile (fun c => !isWordBoundary c)).length := List.length_pos_iff.2 hw
  rw [TA.killWord, if_neg (by simp [hro])]
  simp only [hs]
  rw [if_neg (by rw [h.col]; omega)]
  have hsplit : b = b.takeWhile (fun c => !isWordBoundary c) ++ b.dropWhile (fun c => !isWordBoundary c) :=
    List.takeWhile_append_dropWhile.symm
  refine ⟨?_, ?_⟩
  · simp only [wk_lines, wb_lines, h.lines, h.row, h.col, Nat.add_sub_cancel_left]
    conv => lhs; rw [hsplit]
    conv => lhs; rw [← hsplit]
    have := deleteCharN_zip pre a (b.takeWhile (fun c => !isWordBoundary c))
      (b.dropWhile (fun c => !isWordBoundary c)) post
    rw [← hsplit] at this
    exact this
  · simp only [wk_killRing, hcl, h.col]
    congr 1
    simp only [List.take_append, List.drop_append]
    have e : List.take (List.takeWhile (fun c => !isWordBoundary c) b).length b
        = List.takeWhile (fun c => !isWordBoundary c) b :=
      (List.prefix_iff_eq_take.1 (List.takeWhile_prefix _)).symm
    simp [e, List.take_of_length_le]

theorem killWord_none {t : TA} {pre a b post} (h : ZipAt t pre a b post)
    (hw : b.takeWhile (fun c => !isWordBoundary c) = []) : t.killWord = t := by
  have hcl := h.currentLine
  have hs : scanFwd (fun c => !isWordBoundary c) t.currentLine (t.currentLine.length - t.col) t.col
      = a.length + (b.takeWhile (fun c => !isWordBoundary c)).length := by
    rw [hcl, h.col]; exact scanFwd_eq _ _ _ _ (by simp)
  unfold TA.killWord
  split
  · rfl
  · simp only [hs, hw, List.length_nil, Nat.add_zero]
    rw [if_pos h.col]

/-- KillWordBackward removes the characters between the new and the old column. -/
theorem zip_killWordBack {t : TA} {pre a b post} (h : ZipAt t pre a b post)
    (hro : t.readOnly = false) (ha : a ≠ []) :
    ∃ a₁ m, a = a₁ ++ m ∧ m ≠ [] ∧
      a₁.length = scanBackWord t.currentLine (scanBackOn t.currentLine (t.col - 1)) ∧
      ZipAt t.killWordBackward pre a₁ b post ∧
      t.killWordBackward.killRing = t.killRing.kill m := by
  have hcl := h.currentLine
  have hlen : 0 < a.length := List.length_pos_iff.2 ha
  have hle := backwardWord_le t.currentLine (t.col - 1)
  have hcc := h.col
  generalize hc : scanBackWord t.currentLine (scanBackOn t.currentLine (t.col - 1)) = c at *
  have ha12 : (a.take c).length = c := by simp; omega
  have hm : (a.drop c).length = t.col - c := by simp; omega
  refine ⟨a.take c, a.drop c, by simp, ?_, ha12, ?_⟩
  · intro e; rw [e] at hm; simp at hm; omega
  · rw [TA.killWordBackward, if_neg (by simp [hro]), if_neg (by omega)]
    simp only [hc]
    rw [if_neg (by omega)]
    refine ⟨⟨?_, by simp [h.row], by simp; omega⟩, ?_⟩
    · simp only [wk_lines, wc_lines, wb_lines, h.lines, h.row]
      have := deleteCharN_zip pre (a.take c) (a.drop c) b post
      rw [ha12, hm] at this
      rw [← List.append_assoc, List.take_append_drop] at this
      exact this
    · simp only [wk_killRing, hcl, h.col]
      congr 1
      simp

/-! ### yank -/

theorem yankLoop_zip (text : List Char) : ∀ (pre : List Line) (a b : Line) (post : List Line),
    ∃ pre' a', yankLoop (pre ++ (a ++ b) :: post) pre.length a.length text
        = (pre' ++ (a' ++ b) :: post, pre'.length, a'.length) ∧
      fb pre' a' = fb pre a ++ text ∧
      pre'.length = pre.length + text.count '\n' ∧
      (∀ l ∈ pre', '\n' ∈ l → l ∈ pre ∨ '\n' ∈ a) ∧ ('\n' ∈ a' → '\n' ∈ a) := by
  induction text with
  | nil => intro pre a b post; exact ⟨pre, a, rfl, by simp, by simp, fun l h _ => .inl h, id⟩
  | cons ch cs ih =>
    intro pre a b post
    by_cases hch : ch = '\n'
    · subst hch
      obtain ⟨pre', a', h1, h2, h3, h4, h5⟩ := ih (pre ++ [a]) [] b post
      refine ⟨pre', a', ?_, ?_, ?_, ?_, ?_⟩
      · simp only [yankLoop, if_true, insertNewline_zip]
        simpa using h1
      · rw [h2]; simp [fb]
      · rw [h3]; simp; omega
      · intro l hl hn
        rcases h4 l hl hn with h | h
        · rcases List.mem_append.1 h with h | h
          · exact .inl h
          · simp at h; subst h; exact .inr hn
        · simp at h
      · intro h; have := h5 h; simp at this
    · obtain ⟨pre', a', h1, h2, h3, h4, h5⟩ := ih pre (a ++ [ch]) b post
      have e : ∀ _ : Unit, '\n' ∈ a ++ [ch] → ('\n' ∈ a) := by
        intro _ hx
        rcases List.mem_append.1 hx with h | h
        · exact h
        · simp at h; exact absurd h.symm hch
      refine ⟨pre', a', ?_, ?_, ?_, ?_, fun h => e () (h5 h)⟩
      · simp only [yankLoop, if_neg hch, insertChar_zip]
        simpa using h1
      · rw [h2]; simp [fb]
      · rw [h3]; simp [List.count_cons, hch]
      · intro l hl hn
        rcases h4 l hl hn with h | h
        · exact .inl h
        · exact .inr (e () h)

theorem zip_yank {t : TA} {pre a b post} (h : ZipAt t pre a b post) (hro : t.readOnly = false)
    (hne : t.killRing.yank ≠ []) :
    ∃ pre' a', ZipAt t.yank pre' a' b post ∧ fb pre' a' = fb pre a ++ t.killRing.yank ∧
      pre'.length = pre.length + t.killRing.yank.count '\n' := by
  obtain ⟨pre', a', h1, h2, h3, _⟩ := yankLoop_zip t.killRing.yank pre a b post
  refine ⟨pre', a', ?_, h2, h3⟩
  rw [TA.yank, if_neg (by simp [hro]), if_neg hne]
  simp only [h.lines, h.row, h.col, h1]
  exact ⟨rfl, rfl, rfl⟩

/-! ### bounds for every command -/

theorem inBounds_zero {t : TA} {l : Line} {ls : List Line} (h : t.lines = l :: ls) (hr : t.row = 0)
    (hc : t.col = 0) : t.InBounds := by
  constructor
  · rw [h, hr]; simp
  · rw [hc]; simp

theorem inBounds_of_zero {t : TA} (h : t.lines ≠ []) (hr : t.row = 0) (hc : t.col = 0) :
    t.InBounds := by
  cases hl : t.lines with
  | nil => exact absurd hl h
  | cons l ls => exact inBounds_zero hl hr hc

theorem killLine_inBounds {t : TA} (h : t.InBounds) : t.killLine.InBounds := by
  obtain ⟨pre, a, b, post, hz⟩ := h.zip
  by_cases hro : t.readOnly
  · have : t.killLine = t := by simp [TA.killLine, hro]
    rwa [this]
  · simp only [Bool.not_eq_true] at hro
    by_cases hb : b = []
    · subst hb
      cases post with
      | nil => rwa [killLine_end hz]
      | cons n post =>
        refine inBounds_of_zero (by rw [(killLine_join hz hro).1]; simp) ?_ ?_ <;>
        · have hcl := hz.currentLine
          have hl : t.lines = pre ++ a :: n :: post := by rw [hz.lines]; simp
          rw [TA.killLine, if_neg (by simp [hro]), if_pos (by rw [hcl, hz.col]; simp),
            if_pos (by rw [hl, hz.row]; simp)]
          rfl
    · refine inBounds_of_zero (by rw [(killLine_text hz hb hro).1]; simp) ?_ ?_ <;>
      · have hcl := hz.currentLine
        have : 0 < b.length := List.length_pos_iff.2 hb
        rw [TA.killLine, if_neg (by simp [hro]), if_neg (by rw [hcl, hz.col]; simp; omega)]
        rfl

theorem killWord_inBounds {t : TA} (h : t.InBounds) : t.killWord.InBounds := by
  obtain ⟨pre, a, b, post, hz⟩ := h.zip
  by_cases hro : t.readOnly
  · have : t.killWord = t := by simp [TA.killWord, hro]
    rwa [this]
  · simp only [Bool.not_eq_true] at hro
    by_cases hw : b.takeWhile (fun c => !isWordBoundary c) = []
    · rwa [killWord_none hz hw]
    · have hl := (killWord_text hz hro hw).1
      unfold TA.killWord at hl ⊢
      rw [if_neg (by simp [hro])] at hl ⊢
      dsimp only at hl ⊢
      split
      · exact h
      · rename_i hne
        rw [if_neg hne] at hl
        exact inBounds_of_zero (by rw [hl]; simp) rfl rfl

theorem deleteCharBackward_inBounds {t : TA} (h : t.InBounds) : t.deleteCharBackward.1.InBounds := by
  obtain ⟨pre, a, b, post, hz⟩ := h.zip
  by_cases hro : t.readOnly
  · have : t.deleteCharBackward.1 = t := by simp [TA.deleteCharBackward, hro]
    rwa [this]
  · simp only [Bool.not_eq_true] at hro
    rcases List.eq_nil_or_concat a with rfl | ⟨a, c, rfl⟩
    · rcases List.eq_nil_or_concat pre with rfl | ⟨pre, p, rfl⟩
      · rwa [zip_backspace_start hz]
      · by_cases hv : ∀ v, t.validator = some v → v t.pos ⟨pre.length, p.length⟩ = true
        · simp only [List.concat_eq_append] at hz
          exact (zip_backspace_join hz hro hv).inBounds
        · simp only [Classical.not_forall] at hv
          obtain ⟨v, hv, hf⟩ := hv
          rw [deleteCharBackward_blocked hv]
          · exact h
          · have h1 := hz.row; have h2 := hz.col
            simp only [List.concat_eq_append, List.length_append, List.length_nil,
              List.length_cons] at h1 h2
            rw [if_neg (by omega)]
            have e : bufLine t.lines (t.row - 1) = p := by
              rw [h1, hz.lines]; simp; exact bufLine_mid _ _ _
            rw [e]
            have : ((t.row : Int) - 1) = (pre.length : Int) := by omega
            rw [this]; simpa using hf
    · simp only [List.concat_eq_append] at hz
      by_cases hv : ∀ v, t.validator = some v → v t.pos ⟨pre.length, a.length⟩ = true
      · exact (zip_backspace_char hz hro hv).inBounds
      · simp only [Classical.not_forall] at hv
        obtain ⟨v, hv, hf⟩ := hv
        rw [deleteCharBackward_blocked hv]
        · exact h
        · have h1 := hz.row; have h2 := hz.col
          simp only [List.length_append, List.length_nil, List.length_cons] at h1 h2
          rw [if_pos (by omega)]
          have : ((t.col : Int) - 1) = (a.length : Int) := by omega
          rw [this, h1]; simpa using hf

theorem deleteCharForward_inBounds {t : TA} (h : t.InBounds) : t.deleteCharForward.InBounds := by
  obtain ⟨pre, a, b, post, hz⟩ := h.zip
  by_cases hro : t.readOnly
  · have : t.deleteCharForward = t := by simp [TA.deleteCharForward, hro]
    rwa [this]
  · simp only [Bool.not_eq_true] at hro
    cases b with
    | nil =>
      cases post with
      | nil => rwa [zip_deleteForward_end hz]
      | cons n post => exact (zip_deleteForward_join hz hro).inBounds
    | cons c b => exact (zip_deleteForward_char hz hro).inBounds

theorem insertNewline_inBounds {t : TA} (h : t.InBounds) : t.insertNewline.InBounds := by
  obtain ⟨pre, a, b, post, hz⟩ := h.zip
  by_cases hro : t.readOnly
  · have : t.insertNewline = t := by simp [TA.insertNewline, hro]
    rwa [this]
  · simp only [Bool.not_eq_true] at hro
    by_cases hm : t.maxLines > 0 ∧ (t.lines.length : Int) ≥ t.maxLines
    · have : t.insertNewline = t := by rw [TA.insertNewline, if_neg (by simp [hro]), if_pos hm]
      rwa [this]
    · exact (zip_insertNewline hz hro hm).inBounds

theorem insertChar_inBounds {t : TA} (h : t.InBounds) (c : Char) : (t.insertChar c).InBounds := by
  obtain ⟨pre, a, b, post, hz⟩ := h.zip
  by_cases hro : t.readOnly
  · have : t.insertChar c = t := by simp [TA.insertChar, hro]
    rwa [this]
  · simp only [Bool.not_eq_true] at hro
    exact (zip_insertChar hz c hro).inBounds

theorem killWordBackward_inBounds {t : TA} (h : t.InBounds) : t.killWordBackward.InBounds := by
  obtain ⟨pre, a, b, post, hz⟩ := h.zip
  by_cases hro : t.readOnly
  · have : t.killWordBackward = t := by simp [TA.killWordBackward, hro]
    rwa [this]
  · simp only [Bool.not_eq_true] at hro
    by_cases ha : a = []
    · have hc := hz.col
      rw [ha] at hc
      have : t.killWordBackward = t := by
        rw [TA.killWordBackward, if_neg (by simp [hro]), if_pos (by simpa using hc)]
      rwa [this]
    · obtain ⟨a₁, m, _, _, _, hz', _⟩ := zip_killWordBack hz hro ha
      exact hz'.inBounds

theorem yank_inBounds {t : TA} (h : t.InBounds) : t.yank.InBounds := by
  obtain ⟨pre, a, b, post, hz⟩ := h.zip
  by_cases hro : t.readOnly
  · have : t.yank = t := by simp [TA.yank, hro]
    rwa [this]
  · simp only [Bool.not_eq_true] at hro
    by_cases hne : t.killRing.yank = []
    · have : t.yank = t := by rw [TA.yank, if_neg (by simp [hro]), if_pos hne]
      rwa [this]
    · obtain ⟨pre', a', hz', _⟩ := zip_yank hz hro hne
      exact hz'.inBounds

theorem exec_inBounds {t : TA} (h : t.InBounds) (c : Cmd) : (t.exec c).1.InBounds := by
  cases c with
  | lineStart => exact moveToLineStart_inBounds h
  | lineEnd => exact moveCursor_inBounds h h.1 (Nat.le_refl _)
  | up => exact moveUp_inBounds h
  | down => exact moveDown_inBounds h
  | right => exact moveRight_inBounds h
  | left => exact moveLeft_inBounds h
  | bufStart => exact moveCursor_inBounds h (Nat.lt_of_le_of_lt (Nat.zero_le _) h.1) (Nat.zero_le _)
  | bufEnd => exact moveToBufferEnd_inBounds h
  | fwdWord => exact forwardWord_inBounds h
  | backWord => exact backwardWord_inBounds h
  | killLine => exact killLine_inBounds h
  | killToStart => exact killLine_inBounds (moveToLineStart_inBounds h)
  | killWord => exact killWord_inBounds h
  | killWordBack => exact killWordBackward_inBounds h
  | yank => exact yank_inBounds h
  | delFwd => exact deleteCharForward_inBounds h
  | delBack => exact deleteCharBackward_inBounds h
  | newline => exact insertNewline_inBounds h
  | insert c => exact insertChar_inBounds h c
  | none => exact h

theorem setCursorPosition_inBounds {t : TA} (h : t.lines ≠ []) (r c : Int) :
    (t.setCursorPosition r c).InBounds := by
  have : 0 < t.lines.length := List.length_pos_iff.2 h
  unfold TA.setCursorPosition
  refine ⟨?_, ?_⟩
  · dsimp only; split
    · omega
    · split <;> omega
  · dsimp only
    generalize (bufLine t.lines _).length = n
    split
    · omega
    · split <;> omega

theorem step_inBounds {t : TA} (h : t.InBounds) (o : Op) : (t.step o).1.InBounds := by
  have hne : t.lines ≠ [] := by
    intro e; have := h.1; rw [e] at this; simp at this
  cases o with
  | key m => exact exec_inBounds h _
  | size | maxLines | maxChars | wrap | readOnly | onMovement => exact h
  | setValue s => exact inBounds_of_zero (splitLines_ne_nil s) rfl rfl
  | moveCursorToEnd => exact ⟨by have := h.1; show t.lines.length - 1 < t.lines.length; omega, Nat.le_refl _⟩
  | setCursorPosition r c => exact setCursorPosition_inBounds hne r c

theorem run_inBounds {t : TA} (h : t.InBounds) (ops : List Op) : (t.run ops).InBounds := by
  induction ops generalizing t with
  | nil => exact h
  | cons o ops ih => exact ih (step_inBounds h o)

end Phoenix.TextArea
