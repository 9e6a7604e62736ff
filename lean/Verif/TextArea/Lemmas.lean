import Verif.TextArea.Spec
/- Helper lemmas for the TextArea theorems. -/
namespace Phoenix.TextArea

/-- text in front of the cursor -/
def fb (pre : List Line) (a : Line) : List Char := pre.flatMap (· ++ ['\n']) ++ a
/-- text behind the cursor -/
def fa (b : Line) (post : List Line) : List Char := b ++ post.flatMap ('\n' :: ·)

theorem bufString_cons (l : Line) (ls : List Line) :
    bufString (l :: ls) = l ++ ls.flatMap ('\n' :: ·) := by
  induction ls generalizing l with
  | nil => simp [bufString]
  | cons x xs ih => simp [bufString, ih x]

theorem bufString_zip (pre : List Line) (l : Line) (post : List Line) :
    bufString (pre ++ l :: post) = pre.flatMap (· ++ ['\n']) ++ l ++ post.flatMap ('\n' :: ·) := by
  induction pre with
  | nil => simp [bufString_cons]
  | cons x xs ih =>
    cases xs with
    | nil => simp [bufString_cons]
    | cons y ys => simp only [List.cons_append, bufString] at *; rw [ih]; simp

theorem bufString_split (pre : List Line) (a b : Line) (post : List Line) :
    bufString (pre ++ (a ++ b) :: post) = fb pre a ++ fa b post := by
  rw [bufString_zip]; simp [fb, fa]

theorem offset_split (pre : List Line) (l : Line) (post : List Line) (n : Nat) :
    offset (pre ++ l :: post) pre.length n = (pre.flatMap (· ++ ['\n'])).length + n := by
  simp [offset, List.length_flatMap]

theorem offset_zip (pre : List Line) (a b : Line) (post : List Line) :
    offset (pre ++ (a ++ b) :: post) pre.length a.length = (fb pre a).length := by
  rw [offset_split]; simp [fb]

theorem bufLine_mid (pre : List Line) (l : Line) (post : List Line) :
    bufLine (pre ++ l :: post) pre.length = l := by
  simp [bufLine, List.getD]

theorem bufLine_mid1 (pre : List Line) (l l' : Line) (post : List Line) :
    bufLine (pre ++ l :: l' :: post) (pre.length + 1) = l' := by
  have := bufLine_mid (pre ++ [l]) l' post
  simpa using this

theorem insertChar_zip (pre : List Line) (a b : Line) (post : List Line) (ch : Char) :
    bufInsertChar (pre ++ (a ++ b) :: post) pre.length a.length ch
      = pre ++ (a ++ ch :: b) :: post := by
  rw [bufInsertChar, if_neg (by simp)]
  simp only [bufLine_mid]
  rw [if_neg (by simp)]; simp

theorem deleteChar_zip (pre : List Line) (a b : Line) (post : List Line) (ch : Char) :
    bufDeleteChar (pre ++ (a ++ ch :: b) :: post) pre.length a.length
      = pre ++ (a ++ b) :: post := by
  rw [bufDeleteChar, if_neg (by simp)]
  simp only [bufLine_mid]
  rw [if_neg (by simp)]; simp [List.drop_append, List.drop_of_length_le]

theorem insertNewline_zip (pre : List Line) (a b : Line) (post : List Line) :
    bufInsertNewline (pre ++ (a ++ b) :: post) pre.length a.length
      = pre ++ a :: b :: post := by
  rw [bufInsertNewline, if_neg (by simp)]
  simp only [bufLine_mid]
  rw [if_neg (by simp)]
  simp [List.take_append, List.drop_append, List.take_of_length_le, List.drop_of_length_le]

theorem join_zip (pre : List Line) (l l' : Line) (post : List Line) (x : Line) :
    bufDeleteLine (bufSetLine (pre ++ l :: l' :: post) pre.length x) (pre.length + 1)
      = pre ++ x :: post := by
  have h1 : bufSetLine (pre ++ l :: l' :: post) pre.length x = pre ++ x :: l' :: post := by
    rw [bufSetLine, if_neg (by simp)]; simp
  rw [h1, bufDeleteLine, if_neg (by simp), if_neg (by simp; omega)]
  have h2 : pre ++ x :: l' :: post = (pre ++ [x]) ++ l' :: post := by simp
  have h3 : pre.length + 1 = (pre ++ [x]).length := by simp
  rw [h2, h3, List.take_left', List.drop_append]
  · simp
  · rfl

theorem deleteToLineEnd_zip (pre : List Line) (a b : Line) (post : List Line) (hb : b ≠ []) :
    bufDeleteToLineEnd (pre ++ (a ++ b) :: post) pre.length a.length = pre ++ a :: post := by
  have : 0 < b.length := List.length_pos_iff.2 hb
  rw [bufDeleteToLineEnd, if_neg (by simp)]
  simp only [bufLine_mid]
  rw [if_neg (by simp; omega)]; simp

theorem deleteCharN_zip (pre : List Line) (a m b : Line) (post : List Line) :
    deleteCharN (pre ++ (a ++ (m ++ b)) :: post) pre.length a.length m.length
      = pre ++ (a ++ b) :: post := by
  induction m with
  | nil => rfl
  | cons c m ih =>
    simp only [List.cons_append, List.length_cons, deleteCharN, deleteChar_zip, ih]

/-- Decomposition of a buffer around an in-bounds cursor. -/
theorem decompose {ls : List Line} {row col : Nat} (hr : row < ls.length)
    (hc : col ≤ (bufLine ls row).length) :
    ∃ pre a b post, ls = pre ++ (a ++ b) :: post ∧ row = pre.length ∧ col = a.length := by
  refine ⟨ls.take row, (bufLine ls row).take col, (bufLine ls row).drop col, ls.drop (row + 1),
    ?_, ?_, ?_⟩
  · rw [List.take_append_drop]
    have : bufLine ls row = ls[row] := by simp [bufLine, List.getD, hr]
    rw [this, ← List.drop_eq_getElem_cons hr, List.take_append_drop]
  · simp; omega
  · simp; omega

theorem bufLine_eq_getElem {ls : List Line} {row : Nat} (h : row < ls.length) :
    bufLine ls row = ls[row] := by simp [bufLine, List.getD, h]

/-- A text area in zipper form. -/
structure ZipAt (t : TA) (pre : List Line) (a b : Line) (post : List Line) : Prop where
  lines : t.lines = pre ++ (a ++ b) :: post
  row : t.row = pre.length
  col : t.col = a.length

theorem TA.InBounds.zip {t : TA} (h : t.InBounds) : ∃ pre a b post, ZipAt t pre a b post := by
  obtain ⟨pre, a, b, post, h1, h2, h3⟩ := decompose h.1 h.2
  exact ⟨pre, a, b, post, ⟨h1, h2, h3⟩⟩

theorem ZipAt.inBounds {t : TA} {pre a b post} (h : ZipAt t pre a b post) : t.InBounds := by
  constructor
  · rw [h.lines, h.row]; simp
  · rw [h.lines, h.row, h.col, bufLine_mid]; simp

theorem ZipAt.currentLine {t : TA} {pre a b post} (h : ZipAt t pre a b post) :
    t.currentLine = a ++ b := by
  rw [TA.currentLine, h.lines, h.row, bufLine_mid]

theorem ZipAt.flat {t : TA} {pre a b post} (h : ZipAt t pre a b post) :
    t.flat = ⟨fb pre a ++ fa b post, (fb pre a).length⟩ := by
  simp only [TA.flat, TA.value, h.lines, h.row, h.col, bufString_split, offset_zip]

/-! field lemmas -/
@[simp] theorem ecv_lines (t : TA) : t.ensureCursorVisible.lines = t.lines := rfl
@[simp] theorem ecv_row (t : TA) : t.ensureCursorVisible.row = t.row := rfl
@[simp] theorem ecv_col (t : TA) : t.ensureCursorVisible.col = t.col := rfl
@[simp] theorem wc_lines (t : TA) (r c) : (t.withCursor r c).lines = t.lines := rfl
@[simp] theorem wc_row (t : TA) (r c) : (t.withCursor r c).row = r := rfl
@[simp] theorem wc_col (t : TA) (r c) : (t.withCursor r c).col = c := rfl
@[simp] theorem wc_readOnly (t : TA) (r c) : (t.withCursor r c).readOnly = t.readOnly := rfl
@[simp] theorem wc_validator (t : TA) (r c) : (t.withCursor r c).validator = t.validator := rfl
@[simp] theorem wc_killRing (t : TA) (r c) : (t.withCursor r c).killRing = t.killRing := rfl
@[simp] theorem wc_maxLines (t : TA) (r c) : (t.withCursor r c).maxLines = t.maxLines := rfl
@[simp] theorem wc_height (t : TA) (r c) : (t.withCursor r c).height = t.height := rfl
@[simp] theorem wb_lines (t : TA) (ls) : (t.withBuffer ls).lines = ls := rfl
@[simp] theorem wb_row (t : TA) (ls) : (t.withBuffer ls).row = 0 := rfl
@[simp] theorem wb_col (t : TA) (ls) : (t.withBuffer ls).col = 0 := rfl
@[simp] theorem wb_readOnly (t : TA) (ls) : (t.withBuffer ls).readOnly = t.readOnly := rfl
@[simp] theorem wb_killRing (t : TA) (ls) : (t.withBuffer ls).killRing = t.killRing := rfl
@[simp] theorem wb_maxLines (t : TA) (ls) : (t.withBuffer ls).maxLines = t.maxLines := rfl
@[simp] theorem wb_height (t : TA) (ls) : (t.withBuffer ls).height = t.height := rfl
@[simp] theorem wb_validator (t : TA) (ls) : (t.withBuffer ls).validator = t.validator := rfl
@[simp] theorem wk_lines (t : TA) (k) : (t.withKillRing k).lines = t.lines := rfl
@[simp] theorem wk_row (t : TA) (k) : (t.withKillRing k).row = t.row := rfl
@[simp] theorem wk_col (t : TA) (k) : (t.withKillRing k).col = t.col := rfl
@[simp] theorem wk_killRing (t : TA) (k) : (t.withKillRing k).killRing = k := rfl
@[simp] theorem wk_readOnly (t : TA) (k) : (t.withKillRing k).readOnly = t.readOnly := rfl
@[simp] theorem wk_validator (t : TA) (k) : (t.withKillRing k).validator = t.validator := rfl
@[simp] theorem wk_maxLines (t : TA) (k) : (t.withKillRing k).maxLines = t.maxLines := rfl

/-! scanning -/
theorem scanFwd_bounds (p : Char → Bool) (line : Line) (fuel col : Nat) (h : col ≤ line.length) :
    col ≤ scanFwd p line fuel col ∧ scanFwd p line fuel col ≤ line.length := by
  induction fuel generalizing col with
  | zero => simp [scanFwd, h]
  | succ n ih =>
    unfold scanFwd
    split
    · simp [h]
    · rename_i c hc
      have hlt : col < line.length := by
        rcases Nat.lt_or_ge col line.length with h' | h'
        · exact h'
        · rw [List.getElem?_eq_none h'] at hc; cases hc
      split
      · have := ih (col + 1) hlt; omega
      · omega

/-- `scanFwd` with enough fuel is the length of the longest accepted run. -/
theorem scanFwd_eq (p : Char → Bool) (a b : Line) (fuel : Nat) (h : b.length ≤ fuel) :
    scanFwd p (a ++ b) fuel a.length = a.length + (b.takeWhile p).length := by
  induction fuel generalizing a b with
  | zero =>
    have : b = [] := List.length_eq_zero_iff.1 (by omega)
    subst this; simp [scanFwd]
  | succ n ih =>
    cases b with
    | nil => simp [scanFwd]
    | cons c b =>
      simp only [scanFwd]
      rw [List.getElem?_append_right (Nat.le_refl _)]
      simp only [Nat.sub_self, List.getElem?_cons_zero]
      by_cases hp : p c
      · have := ih (a ++ [c]) b (by simp at h; omega)
        simp only [List.append_assoc, List.cons_append, List.nil_append, List.length_append,
          List.length_cons, List.length_nil] at this
        simp only [hp, if_true, List.takeWhile_cons_of_pos, List.length_cons]
        rw [this]; omega
      · simp [hp]

theorem scanBackOn_le (line : Line) (n : Nat) : scanBackOn line n ≤ n := by
  induction n with
  | zero => simp [scanBackOn]
  | succ n ih => unfold scanBackOn; split <;> omega

theorem scanBackWord_le (line : Line) (n : Nat) : scanBackWord line n ≤ n := by
  induction n with
  | zero => simp [scanBackWord]
  | succ n ih => unfold scanBackWord; split <;> omega

theorem splitLines_ne_nil (s : List Char) : splitLines s ≠ [] := by
  induction s with
  | nil => simp [splitLines]
  | cons c cs ih =>
    unfold splitLines; split
    · simp
    · split <;> simp

/-- strings.Join inverts strings.Split -/
theorem bufString_splitLines (s : List Char) : bufString (splitLines s) = s := by
  induction s with
  | nil => rfl
  | cons c cs ih =>
    unfold splitLines
    split
    · rename_i h
      cases hs : splitLines cs with
      | nil => exact absurd hs (splitLines_ne_nil cs)
      | cons l ls => rw [hs] at ih; simp [bufString, ih, h]
    · cases hs : splitLines cs with
      | nil => exact absurd hs (splitLines_ne_nil cs)
      | cons l ls =>
        rw [hs] at ih
        rw [bufString_cons] at ih
        simp only [bufString_cons, List.cons_append, ih]

theorem splitLines_clean (s : List Char) : ∀ l ∈ splitLines s, '\n' ∉ l := by
  induction s with
  | nil => simp [splitLines]
  | cons c cs ih =>
    unfold splitLines
    split
    · simp only [List.mem_cons, forall_eq_or_imp]; exact ⟨by simp, ih⟩
    · rename_i h
      cases hs : splitLines cs with
      | nil => exact absurd hs (splitLines_ne_nil cs)
      | cons l ls =>
        rw [hs] at ih
        simp only [List.mem_cons, forall_eq_or_imp] at ih ⊢
        refine ⟨?_, ih.2⟩
        rintro (h' | h')
        · exact h h'.symm
        · exact ih.1 h'

theorem firstAccepted_spec {v : Pos → Pos → Bool} {src : Pos} {row fuel c0 c : Nat}
    (h : firstAccepted v src row fuel c0 = some c) :
    v src ⟨row, c⟩ = true ∧ c0 ≤ c ∧ c < c0 + fuel ∧ ∀ d, c0 ≤ d → d < c → v src ⟨row, d⟩ = false := by
  induction fuel generalizing c0 with
  | zero => simp [firstAccepted] at h
  | succ n ih =>
    unfold firstAccepted at h
    split at h
    · rename_i hv; cases h; exact ⟨hv, by omega, by omega, fun d _ _ => by omega⟩
    · rename_i hv
      obtain ⟨h1, h2, h3, h4⟩ := ih h
      refine ⟨h1, by omega, by omega, fun d hd hd' => ?_⟩
      rcases Nat.eq_or_lt_of_le hd with rfl | hlt
      · simpa using hv
      · exact h4 d hlt hd'

theorem firstAccepted_none {v : Pos → Pos → Bool} {src : Pos} {row fuel c0 : Nat}
    (h : firstAccepted v src row fuel c0 = none) :
    ∀ d, c0 ≤ d → d < c0 + fuel → v src ⟨row, d⟩ = false := by
  induction fuel generalizing c0 with
  | zero => intro d _ _; omega
  | succ n ih =>
    unfold firstAccepted at h
    split at h
    · cases h
    · rename_i hv
      intro d hd hd'
      rcases Nat.eq_or_lt_of_le hd with rfl | hlt
      · simpa using hv
      · exact ih h d hlt (by omega)

end Phoenix.TextArea
