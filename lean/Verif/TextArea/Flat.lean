import Verif.TextArea.Ops
/- Relating commands to the flat editor (helper lemmas). -/
namespace Phoenix.TextArea

theorem flat_take {t : TA} {pre a b post} (h : ZipAt t pre a b post) :
    t.flat.text.take t.flat.pos = fb pre a := by rw [h.flat]; simp
theorem flat_drop {t : TA} {pre a b post} (h : ZipAt t pre a b post) :
    t.flat.text.drop t.flat.pos = fa b post := by rw [h.flat]; simp

theorem fb_snoc (pre : List Line) (a : Line) (c : Char) : fb pre (a ++ [c]) = fb pre a ++ [c] := by
  simp [fb]
theorem fb_newline (pre : List Line) (a : Line) : fb (pre ++ [a]) [] = fb pre a ++ ['\n'] := by
  simp [fb]
theorem fa_cons (b : Line) (post : List Line) (c : Char) : fa (c :: b) post = c :: fa b post := by
  simp [fa]
theorem fa_newline (b : Line) (post : List Line) : fa [] (b :: post) = '\n' :: fa b post := by
  simp [fa]

theorem flat_insert {t : TA} (h : t.InBounds) (hro : t.readOnly = false) (c : Char) :
    (t.insertChar c).flat = t.flat.insert c := by
  obtain ⟨pre, a, b, post, hz⟩ := h.zip
  rw [(zip_insertChar hz c hro).flat, Flat.insert, flat_take hz, flat_drop hz, hz.flat]
  simp [fb_snoc]

theorem flat_newline {t : TA} (h : t.InBounds) (hro : t.readOnly = false)
    (hm : ¬ (t.maxLines > 0 ∧ (t.lines.length : Int) ≥ t.maxLines)) :
    t.insertNewline.flat = t.flat.insert '\n' := by
  obtain ⟨pre, a, b, post, hz⟩ := h.zip
  rw [(zip_insertNewline hz hro hm).flat, Flat.insert, flat_take hz, flat_drop hz, hz.flat]
  simp [fb_newline]

theorem flat_delete {t : TA} (h : t.InBounds) (hro : t.readOnly = false) :
    t.deleteCharForward.flat = t.flat.delete := by
  obtain ⟨pre, a, b, post, hz⟩ := h.zip
  have hd : t.flat.text.drop (t.flat.pos + 1) = (fa b post).drop 1 := by
    rw [← flat_drop hz, List.drop_drop]
  rw [Flat.delete, flat_take hz, hd]
  cases b with
  | cons c b =>
    rw [(zip_deleteForward_char hz hro).flat, hz.flat]; simp [fa_cons]
  | nil =>
    cases post with
    | nil => rw [zip_deleteForward_end hz, hz.flat]; simp [fa]
    | cons n post =>
      rw [(zip_deleteForward_join hz hro).flat, hz.flat]; simp [fa_newline]

theorem flat_backspace {t : TA} (h : t.InBounds) (hro : t.readOnly = false)
    (hv : t.validator = none) : t.deleteCharBackward.1.flat = t.flat.backspace := by
  obtain ⟨pre, a, b, post, hz⟩ := h.zip
  have key : ∀ (x : List Char) (c : Char) (f : Flat), f = ⟨x ++ [c] ++ fa b post, x.length + 1⟩ →
      f.backspace = ⟨x ++ fa b post, x.length⟩ := by
    intro x c f hf
    rw [hf, Flat.backspace, if_neg (by simp)]
    simp [List.take_append, List.drop_append, List.drop_of_length_le]
  rcases List.eq_nil_or_concat a with rfl | ⟨a, c, rfl⟩
  · rcases List.eq_nil_or_concat pre with rfl | ⟨pre, p, rfl⟩
    · rw [zip_backspace_start hz, hz.flat]; simp [Flat.backspace, fb]
    · simp only [List.concat_eq_append] at hz
      rw [(zip_backspace_join hz hro (by simp [hv])).flat]
      rw [key (fb pre p) '\n' t.flat]
      rw [hz.flat, fb_newline]; simp
  · simp only [List.concat_eq_append] at hz
    rw [(zip_backspace_char hz hro (by simp [hv])).flat]
    rw [key (fb pre a) c t.flat]
    rw [hz.flat, fb_snoc]; simp

theorem tryMove_none {t : TA} (hv : t.validator = none) (r c : Nat) :
    (t.tryMove r c).1 = t.withCursor r c := by
  simp [TA.tryMove, hv]

theorem moveCursor_none {t : TA} (hv : t.validator = none) (r c : Nat) :
    (t.moveCursor r c).1.lines = t.lines ∧ (t.moveCursor r c).1.row = r ∧
      (t.moveCursor r c).1.col = c := by
  unfold TA.moveCursor; split
  · rename_i h; simp [h.1, h.2]
  · simp [tryMove_none hv]

theorem flat_left {t : TA} (h : t.InBounds) (hv : t.validator = none) :
    t.moveLeft.1.flat = t.flat.left := by
  obtain ⟨pre, a, b, post, hz⟩ := h.zip
  have hr := hz.row; have hc := hz.col; have hl := hz.lines
  rcases List.eq_nil_or_concat a with rfl | ⟨a, c, rfl⟩
  · rcases List.eq_nil_or_concat pre with rfl | ⟨pre, p, rfl⟩
    · have : t.moveLeft.1 = t := by simp at hr hc; simp [TA.moveLeft, hr, hc]
      rw [this, hz.flat, Flat.left]; simp [fb]
    · simp only [List.concat_eq_append, List.length_append, List.length_cons, List.length_nil] at hr hc hz hl
      have hz' : ZipAt t.moveLeft.1 pre p [] (b :: post) := by
        have e : bufLine t.lines (t.row - 1) = p := by
          rw [hl, hr]; simp; exact bufLine_mid _ _ _
        unfold TA.moveLeft
        rw [if_neg (by omega), if_pos (by omega), tryMove_none hv, e]
        exact ⟨by simp [hl], by simp [hr], by simp⟩
      rw [hz'.flat, Flat.left, hz.flat, fb_newline, fa_newline]; simp
  · simp only [List.concat_eq_append, List.length_append, List.length_cons, List.length_nil] at hr hc hz hl
    have hz' : ZipAt t.moveLeft.1 pre a (c :: b) post := by
      unfold TA.moveLeft
      rw [if_pos (by omega), tryMove_none hv]
      exact ⟨by simp [hl], by simp [hr], by simp [hc]⟩
    rw [hz'.flat, Flat.left, hz.flat, fb_snoc, fa_cons]; simp

theorem flat_right {t : TA} (h : t.InBounds) (hv : t.validator = none) :
    t.moveRight.1.flat = t.flat.right := by
  obtain ⟨pre, a, b, post, hz⟩ := h.zip
  have hr := hz.row; have hc := hz.col; have hl := hz.lines; have hcl := hz.currentLine
  cases b with
  | cons c b =>
    have hz' : ZipAt t.moveRight.1 pre (a ++ [c]) b post := by
      unfold TA.moveRight
      rw [if_pos (by rw [hcl, hc]; simp), tryMove_none hv]
      exact ⟨by simp [hl], by simp [hr], by simp [hc]⟩
    rw [hz'.flat, Flat.right, hz.flat, fb_snoc, fa_cons]; simp
  | nil =>
    cases post with
    | nil =>
      have : t.moveRight.1 = t := by
        unfold TA.moveRight
        rw [if_neg (by rw [hcl, hc]; simp), if_neg (by rw [hl, hr]; simp)]
      rw [this, hz.flat, Flat.right]; simp [fa]
    | cons n post =>
      have hz' : ZipAt t.moveRight.1 (pre ++ [a]) [] n post := by
        unfold TA.moveRight
        rw [if_neg (by rw [hcl, hc]; simp), if_pos (by rw [hl, hr]; simp), tryMove_none hv]
        exact ⟨by simp [hl], by simp [hr], by simp⟩
      rw [hz'.flat, Flat.right, hz.flat, fb_newline, fa_newline]; simp

theorem flat_home {t : TA} (hne : t.lines ≠ []) (hv : t.validator = none) :
    t.moveToBufferStart.1.flat = t.flat.home := by
  obtain ⟨h1, h2, h3⟩ := moveCursor_none hv 0 0
  have _ := hne
  simp only [TA.flat, TA.value, TA.moveToBufferStart, h1, h2, h3, Flat.home, offset]
  simp

theorem flat_toEnd {t : TA} (hne : t.lines ≠ []) (hv : t.validator = none) :
    t.moveToBufferEnd.1.flat = t.flat.toEnd := by
  obtain ⟨ls, l, hl⟩ : ∃ ls l, t.lines = ls ++ [l] := by
    rcases List.eq_nil_or_concat t.lines with h | ⟨ls, l, h⟩
    · exact absurd h hne
    · exact ⟨ls, l, by simpa using h⟩
  have hlast : t.lines.length - 1 = ls.length := by rw [hl]; simp
  have hbl : bufLine t.lines (t.lines.length - 1) = l := by rw [hlast, hl]; exact bufLine_mid _ _ _
  obtain ⟨h1, h2, h3⟩ := moveCursor_none hv (t.lines.length - 1) (bufLine t.lines (t.lines.length - 1)).length
  have hz : ZipAt t.moveToBufferEnd.1 ls l [] [] :=
    ⟨by rw [TA.moveToBufferEnd, h1, hl]; simp, by rw [TA.moveToBufferEnd, h2, hlast],
      by rw [TA.moveToBufferEnd, h3, hbl]⟩
  rw [hz.flat, Flat.toEnd]
  have : t.flat.text = fb ls l ++ fa [] [] := by
    show bufString t.lines = _
    have := bufString_split ls l [] []
    rw [← this, hl]; simp
  rw [this]; simp [fa]

theorem takeWhile_append_of_all {p : Char → Bool} {a b : List Char} (h : ∀ c ∈ a, p c = true) :
    (a ++ b).takeWhile p = a ++ b.takeWhile p := by
  rw [List.takeWhile_append_of_pos h]

theorem flat_lineEnd {t : TA} (h : t.InBounds) (hc : t.LinesClean) (hv : t.validator = none) :
    t.moveToLineEnd.1.flat = t.flat.lineEnd := by
  obtain ⟨pre, a, b, post, hz⟩ := h.zip
  have hcl := hz.currentLine
  obtain ⟨h1, h2, h3⟩ := moveCursor_none hv t.row t.currentLine.length
  have hz' : ZipAt t.moveToLineEnd.1 pre (a ++ b) [] post :=
    ⟨by rw [TA.moveToLineEnd, h1, hz.lines]; simp, by rw [TA.moveToLineEnd, h2, hz.row],
      by rw [TA.moveToLineEnd, h3, hcl]⟩
  have hclean : '\n' ∉ a ++ b := hc _ (by rw [hz.lines]; simp)
  have hrest : t.flat.restOfLine = b := by
    rw [Flat.restOfLine, flat_drop hz, fa, List.takeWhile_append_of_pos]
    · cases post <;> simp
    · intro c hcb
      have : c ≠ '\n' := by
        rintro rfl; exact hclean (List.mem_append.2 (.inr hcb))
      simpa using this
  rw [Flat.lineEnd, hrest, hz'.flat, hz.flat]
  simp [fb, fa]; omega

theorem flatMap_rev_takeWhile (pre : List Line) :
    ((pre.flatMap (· ++ ['\n'])).reverse.takeWhile (fun c => decide (c ≠ '\n'))) = [] := by
  rcases List.eq_nil_or_concat pre with rfl | ⟨pre, p, rfl⟩
  · simp
  · simp

theorem flat_lineStart {t : TA} (h : t.InBounds) (hc : t.LinesClean) (hv : t.validator = none) :
    t.moveToLineStart.1.flat = t.flat.lineStart := by
  obtain ⟨pre, a, b, post, hz⟩ := h.zip
  obtain ⟨h1, h2, h3⟩ := moveCursor_none hv t.row 0
  have e : t.moveToLineStart = t.moveCursor t.row 0 := by simp [TA.moveToLineStart, hv]
  have hz' : ZipAt t.moveToLineStart.1 pre [] (a ++ b) post :=
    ⟨by rw [e, h1, hz.lines]; simp, by rw [e, h2, hz.row], by rw [e, h3]; rfl⟩
  have hclean : '\n' ∉ a ++ b := hc _ (by rw [hz.lines]; simp)
  have hrest : ((t.flat.text.take t.flat.pos).reverse.takeWhile (fun c => decide (c ≠ '\n'))) = a.reverse := by
    rw [flat_take hz, fb, List.reverse_append, List.takeWhile_append_of_pos, flatMap_rev_takeWhile]
    · simp
    · intro c hca
      have : c ≠ '\n' := by
        rintro rfl; exact hclean (List.mem_append.2 (.inl (List.mem_reverse.1 hca)))
      simpa using this
  rw [Flat.lineStart, hrest, hz'.flat, hz.flat]
  simp [fb, fa]

/-! ### clean lines -/

theorem zip_clean {t : TA} {pre a b post} (h : ZipAt t pre a b post) :
    t.LinesClean ↔ (∀ l ∈ pre, '\n' ∉ l) ∧ '\n' ∉ a ∧ '\n' ∉ b ∧ ∀ l ∈ post, '\n' ∉ l := by
  unfold TA.LinesClean; rw [h.lines]
  simp only [List.mem_append, List.mem_cons]
  constructor
  · intro H
    exact ⟨fun l hl => H l (.inl hl), fun hx => H (a ++ b) (.inr (.inl rfl)) (by simp [hx]),
      fun hx => H (a ++ b) (.inr (.inl rfl)) (by simp [hx]), fun l hl => H l (.inr (.inr hl))⟩
  · rintro ⟨h1, h2, h3, h4⟩ l (hl | rfl | hl)
    · exact h1 l hl
    · simp [h2, h3]
    · exact h4 l hl

theorem clean_of_lines {t t' : TA} (h : t'.lines = t.lines) : t.LinesClean → t'.LinesClean := by
  unfold TA.LinesClean; rw [h]; exact id

theorem moveCursor_lines (t : TA) (r c) : (t.moveCursor r c).1.lines = t.lines := by
  unfold TA.moveCursor; split <;> simp

theorem nav_lines (t : TA) {c : Cmd} (h : c.IsNav) : (t.exec c).1.lines = t.lines := by
  cases c <;> simp only [Cmd.IsNav] at h
  case lineStart =>
    show t.moveToLineStart.1.lines = _
    unfold TA.moveToLineStart; split
    · exact moveCursor_lines _ _ _
    · split
      · exact moveCursor_lines _ _ _
      · split
        · exact moveCursor_lines _ _ _
        · rfl
  case lineEnd => exact moveCursor_lines _ _ _
  case up =>
    show t.moveUp.1.lines = _
    unfold TA.moveUp; split
    · split
      · rfl
      · dsimp only; split <;> rfl
    · exact tryMove_lines _ _ _
  case down =>
    show t.moveDown.1.lines = _
    unfold TA.moveDown; split
    · split
      · rfl
      · dsimp only; split <;> rfl
    · exact tryMove_lines _ _ _
  case right =>
    show t.moveRight.1.lines = _
    unfold TA.moveRight; split
    · exact tryMove_lines _ _ _
    · split
      · exact tryMove_lines _ _ _
      · rfl
  case left =>
    show t.moveLeft.1.lines = _
    unfold TA.moveLeft; split
    · exact tryMove_lines _ _ _
    · split
      · exact tryMove_lines _ _ _
      · rfl
  case bufStart => exact moveCursor_lines _ _ _
  case bufEnd => exact moveCursor_lines _ _ _
  case fwdWord => exact moveCursor_lines _ _ _
  case backWord =>
    show t.backwardWord.1.lines = _
    unfold TA.backwardWord; split
    · rfl
    · exact moveCursor_lines _ _ _

/-- Everything except typing a raw newline rune keeps the lines free of newlines. -/
theorem exec_clean {t : TA} (h : t.InBounds) (hc : t.LinesClean) (c : Cmd)
    (hn : c ≠ .insert '\n') : (t.exec c).1.LinesClean := by
  by_cases hnav : c.IsNav
  · exact clean_of_lines (nav_lines t hnav) hc
  by_cases hro : t.readOnly
  · have hkl : t.moveToLineStart.1.killLine = t.moveToLineStart.1 := by
      have : t.moveToLineStart.1.readOnly = t.readOnly := by
        have hmc : ∀ r c, (t.moveCursor r c).1.readOnly = t.readOnly := by
          intro r c; unfold TA.moveCursor; split
          · rfl
          · rcases tryMove_cases t r c with ⟨e, _⟩ | ⟨e, _⟩ <;> rw [e] <;> rfl
        unfold TA.moveToLineStart; split
        · exact hmc _ _
        · split
          · exact hmc _ _
          · split
            · exact hmc _ _
            · rfl
      simp [TA.killLine, this, hro]
    cases c <;> simp only [Cmd.IsNav, not_true_eq_false] at hnav
    case killToStart =>
      show t.moveToLineStart.1.killLine.LinesClean
      rw [hkl]; exact clean_of_lines (nav_lines t (c := .lineStart) trivial) hc
    all_goals
      simp [TA.exec, TA.killLine, TA.killWord, TA.killWordBackward, TA.yank, TA.deleteCharForward,
        TA.deleteCharBackward, TA.insertNewline, TA.insertChar, hro]
      exact hc
  simp only [Bool.not_eq_true] at hro
  have kl : ∀ t : TA, t.InBounds → t.LinesClean → t.readOnly = false → t.killLine.LinesClean := by
    intro t h hc hro
    obtain ⟨pre, a, b, post, hz⟩ := h.zip
    obtain ⟨c1, c2, c3, c4⟩ := (zip_clean hz).1 hc
    intro l hl
    by_cases hb : b = []
    · subst hb
      cases post with
      | nil => rw [killLine_end hz] at hl; exact hc l hl
      | cons n post =>
        rw [(killLine_join hz hro).1] at hl
        simp only [List.mem_append, List.mem_cons] at hl
        rcases hl with hl | rfl | hl
        · exact c1 l hl
        · have := c4 n (by simp); simp [c2, this]
        · exact c4 l (by simp [hl])
    · rw [(killLine_text hz hb hro).1] at hl
      simp only [List.mem_append, List.mem_cons] at hl
      rcases hl with hl | rfl | hl
      · exact c1 l hl
      · exact c2
      · exact c4 l hl
  obtain ⟨pre, a, b, post, hz⟩ := h.zip
  obtain ⟨c1, c2, c3, c4⟩ := (zip_clean hz).1 hc
  cases c <;> simp only [Cmd.IsNav, not_true_eq_false] at hnav
  case killLine => exact kl t h hc hro
  case killToStart =>
    have hl := nav_lines t (c := .lineStart) trivial
    refine kl _ (moveToLineStart_inBounds h) (clean_of_lines hl hc) ?_
    have hmc : ∀ r c, (t.moveCursor r c).1.readOnly = t.readOnly := by
      intro r c; unfold TA.moveCursor; split
      · rfl
      · rcases tryMove_cases t r c with ⟨e, _⟩ | ⟨e, _⟩ <;> rw [e] <;> rfl
    unfold TA.moveToLineStart; split
    · rw [hmc, hro]
    · split
      · rw [hmc, hro]
      · split
        · rw [hmc, hro]
        · exact hro
  case killWord =>
    show t.killWord.LinesClean
    by_cases hw : b.takeWhile (fun c => !isWordBoundary c) = []
    · rw [killWord_none hz hw]; exact hc
    · intro l hl
      rw [(killWord_text hz hro hw).1] at hl
      simp only [List.mem_append, List.mem_cons] at hl
      rcases hl with hl | rfl | hl
      · exact c1 l hl
      · intro hx
        rcases List.mem_append.1 hx with hx | hx
        · exact c2 hx
        · exact c3 ((List.dropWhile_sublist _).subset hx)
      · exact c4 l hl
  case killWordBack =>
    show t.killWordBackward.LinesClean
    by_cases ha : a = []
    · have hcol := hz.col; rw [ha] at hcol
      have : t.killWordBackward = t := by
        rw [TA.killWordBackward, if_neg (by simp [hro]), if_pos (by simpa using hcol)]
      rw [this]; exact hc
    · obtain ⟨a₁, m, rfl, _, _, hz', _⟩ := zip_killWordBack hz hro ha
      refine (zip_clean hz').2 ⟨c1, fun hx => c2 (by simp [hx]), c3, c4⟩
  case yank =>
    show t.yank.LinesClean
    by_cases hne : t.killRing.yank = []
    · have : t.yank = t := by rw [TA.yank, if_neg (by simp [hro]), if_pos hne]
      rw [this]; exact hc
    · obtain ⟨pre', a', h1, h2, h3, h4, h5⟩ := yankLoop_zip t.killRing.yank pre a b post
      have hz' : ZipAt t.yank pre' a' b post := by
        rw [TA.yank, if_neg (by simp [hro]), if_neg hne]
        simp only [hz.lines, hz.row, hz.col, h1]
        exact ⟨rfl, rfl, rfl⟩
      refine (zip_clean hz').2 ⟨?_, fun hx => c2 (h5 hx), c3, c4⟩
      intro l hl hx
      rcases h4 l hl hx with h | h
      · exact c1 l h hx
      · exact c2 h
  case delFwd =>
    show t.deleteCharForward.LinesClean
    cases b with
    | cons c b =>
      exact (zip_clean (zip_deleteForward_char hz hro)).2 ⟨c1, c2, fun hx => c3 (by simp [hx]), c4⟩
    | nil =>
      cases post with
      | nil => rw [zip_deleteForward_end hz]; exact hc
      | cons n post =>
        exact (zip_clean (zip_deleteForward_join hz hro)).2
          ⟨c1, c2, c4 n (by simp), fun l hl => c4 l (by simp [hl])⟩
  case delBack =>
    show t.deleteCharBackward.1.LinesClean
    by_cases hb : t.deleteCharBackward.1 = t
    · rw [hb]; exact hc
    · rcases List.eq_nil_or_concat a with rfl | ⟨a, c, rfl⟩
      · rcases List.eq_nil_or_concat pre with rfl | ⟨pre, p, rfl⟩
        · exact absurd (zip_backspace_start hz) hb
        · have hz0 := hz
          simp only [List.concat_eq_append] at hz c1
          have hv : ∀ v, t.validator = some v → v t.pos ⟨pre.length, p.length⟩ = true := by
            intro v hv
            by_cases hf : v t.pos ⟨pre.length, p.length⟩ = true
            · exact hf
            · exfalso; apply hb; apply deleteCharBackward_blocked hv
              have h1 := hz.row; have h2 := hz.col
              simp only [List.length_append, List.length_nil, List.length_cons] at h1 h2
              rw [if_neg (by omega)]
              have e : bufLine t.lines (t.row - 1) = p := by
                rw [h1, hz.lines]; simp; exact bufLine_mid _ _ _
              rw [e]
              have : ((t.row : Int) - 1) = (pre.length : Int) := by omega
              rw [this]; simpa using hf
          exact (zip_clean (zip_backspace_join hz hro hv)).2
            ⟨fun l hl => c1 l (by simp [hl]), c1 p (by simp), c3, c4⟩
      · simp only [List.concat_eq_append] at hz c2
        have hv : ∀ v, t.validator = some v → v t.pos ⟨pre.length, a.length⟩ = true := by
          intro v hv
          by_cases hf : v t.pos ⟨pre.length, a.length⟩ = true
          · exact hf
          · exfalso; apply hb; apply deleteCharBackward_blocked hv
            have h1 := hz.row; have h2 := hz.col
            simp only [List.length_append, List.length_nil, List.length_cons] at h1 h2
            rw [if_pos (by omega)]
            have : ((t.col : Int) - 1) = (a.length : Int) := by omega
            rw [this, h1]; simpa using hf
        exact (zip_clean (zip_backspace_char hz hro hv)).2
          ⟨c1, fun hx => c2 (by simp [hx]), c3, c4⟩
  case newline =>
    show t.insertNewline.LinesClean
    by_cases hm : t.maxLines > 0 ∧ (t.lines.length : Int) ≥ t.maxLines
    · have : t.insertNewline = t := by rw [TA.insertNewline, if_neg (by simp [hro]), if_pos hm]
      rw [this]; exact hc
    · refine (zip_clean (zip_insertNewline hz hro hm)).2 ⟨?_, by simp, c3, c4⟩
      intro l hl
      simp only [List.mem_append, List.mem_singleton] at hl
      rcases hl with hl | rfl
      · exact c1 l hl
      · exact c2
  case insert ch =>
    show (t.insertChar ch).LinesClean
    refine (zip_clean (zip_insertChar hz ch hro)).2 ⟨c1, ?_, c3, c4⟩
    intro hx
    rcases List.mem_append.1 hx with hx | hx
    · exact c2 hx
    · simp at hx; exact hn (by rw [hx])
  case none => exact hc

/-- For clean lines, Lines() is Split(Value()). -/
theorem splitLines_bufString (ls : List Line) (hne : ls ≠ []) (hc : ∀ l ∈ ls, '\n' ∉ l) :
    splitLines (bufString ls) = ls := by
  have one : ∀ (l : Line) (rest : List Char) (r : List Line), '\n' ∉ l →
      splitLines ('\n' :: rest) = [] :: r → splitLines (l ++ '\n' :: rest) = l :: r := by
    intro l
    induction l with
    | nil => intro rest r _ h; simpa using h
    | cons c l ih =>
      intro rest r hl h
      simp only [List.mem_cons, not_or] at hl
      have := ih rest r hl.2 h
      rw [List.cons_append, splitLines, if_neg (fun e => hl.1 e.symm), this]
  have two : ∀ l : Line, '\n' ∉ l → splitLines l = [l] := by
    intro l
    induction l with
    | nil => intro _; rfl
    | cons c l ih =>
      intro hl
      simp only [List.mem_cons, not_or] at hl
      rw [splitLines, if_neg (fun e => hl.1 e.symm), ih hl.2]
  induction ls with
  | nil => exact absurd rfl hne
  | cons l ls ih =>
    cases ls with
    | nil => simpa [bufString] using two l (hc l (by simp))
    | cons l' ls =>
      rw [bufString]
      apply one l _ _ (hc l (by simp))
      rw [splitLines, if_pos rfl, ih (by simp) (fun x hx => hc x (by simp [hx]))]

end Phoenix.TextArea
