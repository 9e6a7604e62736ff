import Verif.Modal.ViewProps
import Verif.Tea.InlineTermProps
/-
C218: a modal drawn by the inline renderer on a terminal that obeys cursor positioning.

The View of a modal is a sequence of lines, each of which says where it wants to be (`ESC [ row ; col H`,
components/modal/modal.go:336-388). The terminal of `InlineTermModel` knows no such sequence; here it is added.
-/
set_option linter.unusedVariables false
set_option linter.unusedSimpArgs false
set_option linter.unusedSectionVars false
namespace Phoenix.ModalScreen
open Phoenix.Inline

variable {Pen : Type}

/-! ### The terminal -/

/-- Parameter `i` of CSI row ; col H, 1 if missing or 0.
Environment: the terminal (ECMA-48 CUP), receiver of components/modal/modal.go:340-385. -/
def cup (acc : Str) (i : Nat) : Nat :=
  max 1 ((Dec.parseNat ((Dec.split 59 (acc.map Char.toNat)).getD i [])).getD 1)

/-- One character received by a terminal that knows cursor positioning.
Environment: the terminal (ECMA-48 CUP), receiver of components/modal/modal.go:340-385. -/
def stepH (d : Dev Pen) (t : TT Pen) (c : Char) : TT Pen :=
  match t.ps with
  | .csi acc =>
    if c = 'H' then
      { t with row := t.top + min (d.H - 1) (cup acc 0 - 1), col := min (d.W - 1) (cup acc 1 - 1), pend := false, ps := .normal }
    else t.step d c
  | _ => t.step d c

/-- Environment: the terminal (ECMA-48 CUP), receiver of components/modal/modal.go:340-385. -/
def feedH (d : Dev Pen) (t : TT Pen) (s : Str) : TT Pen := s.foldl (stepH d) t

/-! ### The view -/

/-- A line that says where it wants to be, 1-based as in the escape sequence. -/
structure Placed where
  row : Nat
  col : Nat
  text : Str
  deriving DecidableEq

/-- What renderModalBox computed, its text decoded: components/modal/modal.go:336-388. -/
def Placed.draw (p : Placed) : Modal.Draw := ⟨p.row, p.col, p.text.flatMap String.utf8EncodeChar⟩

/-- `fmt.Sprintf("\x1b[%d;%dH", row, col)`. components/modal/modal.go:340, 346, 351, 368, 375, 379, 384. -/
def goto (r c : Nat) : Str :=
  [ESC, '['] ++ ((Dec.nat r).map Char.ofNat ++ (';' :: (Dec.nat c).map Char.ofNat)) ++ ['H']

/-- The line without its newline. components/modal/modal.go:340-385. -/
def Placed.line (p : Placed) : Str := goto p.row p.col ++ p.text

/-- The string of the box. components/modal/modal.go:336-388. -/
def spell (ps : List Placed) : Str := ps.flatMap fun p => p.line ++ ['\n']

/-! ### Specification -/

/-- The line fits: on the screen but not in its last row; its characters are visible and one column wide. -/
def Fits (d : Dev Pen) (p : Placed) : Prop :=
  1 ≤ p.row ∧ p.row < d.H ∧ 1 ≤ p.col ∧ p.text ≠ [] ∧ p.col - 1 + p.text.length ≤ d.W ∧
  ∀ c ∈ p.text, c ≠ ESC ∧ isCtl c = false ∧ d.tw c = 1

/-- The line is on the screen, where it wanted to be. -/
def Shown (t : TT Pen) (p : Placed) : Prop :=
  ∀ (k : Nat) (c : Char), p.text[k]? = some c → (t.rows (t.top + (p.row - 1)) (p.col - 1 + k)).ch = [c]

/-- A line that lies in the same row as none of those after it, nor just below the last one. -/
def Clear (ps : List Placed) (i : Nat) (p : Placed) : Prop :=
  (∀ (j : Nat) (q : Placed), i < j → ps[j]? = some q → q.row ≠ p.row) ∧ ∀ q, ps.getLast? = some q → p.row ≠ q.row + 1

/-- The renderer before the first frame of a program: components/modal is used in tea/internal/infrastructure/renderer/inline.go:60-66. -/
def fresh (w h : Int) : R := { width := w, height := h }

/-! ### Proofs -/

theorem feedH_append (d : Dev Pen) (t : TT Pen) (a b : Str) : feedH d t (a ++ b) = feedH d (feedH d t a) b :=
  List.foldl_append

theorem stepH_other (d : Dev Pen) (t : TT Pen) (c : Char) (h : ∀ acc, t.ps ≠ .csi acc) : stepH d t c = t.step d c := by
  unfold stepH
  split
  · rename_i acc e; exact absurd e (h acc)
  · rfl

theorem stepH_ne (d : Dev Pen) (t : TT Pen) (c : Char) (h : c ≠ 'H') : stepH d t c = t.step d c := by
  unfold stepH
  split
  · rw [if_neg h]
  · rfl

theorem feedH_ne (d : Dev Pen) : ∀ (s : Str) (t : TT Pen), (∀ c ∈ s, c ≠ 'H') → feedH d t s = t.feed d s
  | [], t, _ => rfl
  | c :: cs, t, h => by
    show feedH d (stepH d t c) cs = TT.feed d (t.step d c) cs
    rw [stepH_ne d t c (h c (List.mem_cons_self ..)), feedH_ne d cs _ fun x hx => h x (List.mem_cons_of_mem _ hx)]

theorem digits_ne (n : Nat) (c : Char) (hc : c ∈ (Dec.nat n).map Char.ofNat) : isFinal c = false := by
  obtain ⟨b, hb, rfl⟩ := List.mem_map.1 hc
  exact (digit_char (Dec.nat_digits n b hb)).2

theorem digits_back (n : Nat) : ((Dec.nat n).map Char.ofNat).map Char.toNat = Dec.nat n := by
  rw [List.map_map]
  conv => rhs; rw [← List.map_id (Dec.nat n)]
  apply List.map_congr_left
  intro b hb
  exact (digit_char (Dec.nat_digits n b hb)).1

theorem no_semi (n : Nat) : 59 ∉ Dec.nat n := by
  intro h
  exact absurd (Dec.nat_digits n 59 h) (by decide)

theorem goto_step (d : Dev Pen) (t : TT Pen) (hp : t.ps = .normal) (r c : Nat) (hr : 1 ≤ r) (hc : 1 ≤ c) (hH : r ≤ d.H)
    (hW : c ≤ d.W) : feedH d t (goto r c) = { t with row := t.top + (r - 1), col := c - 1, pend := false } := by
  have e1 : feedH d t [ESC, '['] = { t with ps := .csi [] } := by
    obtain ⟨rows, row, col, top, pend, pen, ps⟩ := t
    simp only at hp
    subst hp
    rfl
  have hf : ∀ x ∈ (Dec.nat r).map Char.ofNat ++ (';' :: (Dec.nat c).map Char.ofNat), isFinal x = false := by
    intro x hx
    rcases List.mem_append.1 hx with hx | hx
    · exact digits_ne r x hx
    · rcases List.mem_cons.1 hx with rfl | hx
      · decide
      · exact digits_ne c x hx
  have hs : ((Dec.nat r).map Char.ofNat ++ (';' :: (Dec.nat c).map Char.ofNat)).map Char.toNat = Dec.nat r ++ 59 :: Dec.nat c := by
    rw [List.map_append, List.map_cons, digits_back, digits_back]
    rfl
  have hsplit : Dec.split 59 (Dec.nat r ++ 59 :: Dec.nat c) = [Dec.nat r, Dec.nat c] := by
    rw [Dec.split_append (no_semi r), Dec.split_none (no_semi c)]
  have c0 : cup ((Dec.nat r).map Char.ofNat ++ (';' :: (Dec.nat c).map Char.ofNat)) 0 = r := by
    unfold cup
    rw [hs, hsplit]
    show max 1 ((Dec.parseNat (Dec.nat r)).getD 1) = r
    rw [Dec.parse_nat]
    show max 1 r = r
    omega
  have c1 : cup ((Dec.nat r).map Char.ofNat ++ (';' :: (Dec.nat c).map Char.ofNat)) 1 = c := by
    unfold cup
    rw [hs, hsplit]
    show max 1 ((Dec.parseNat (Dec.nat c)).getD 1) = c
    rw [Dec.parse_nat]
    show max 1 c = c
    omega
  unfold goto
  have hH' : ∀ x ∈ (Dec.nat r).map Char.ofNat ++ (';' :: (Dec.nat c).map Char.ofNat), x ≠ 'H' := by
    intro x hx hh
    have := hf x hx
    rw [hh] at this
    exact absurd this (by decide)
  rw [feedH_append, feedH_append, e1, feedH_ne d _ _ hH', feed_csi_params d _ _ [] rfl hf]
  have e2 : ∀ u : TT Pen, feedH d u ['H'] = stepH d u 'H' := fun _ => rfl
  rw [e2]
  unfold stepH
  simp only [List.nil_append, if_true]
  rw [c0, c1, show min (d.H - 1) (r - 1) = r - 1 by omega, show min (d.W - 1) (c - 1) = c - 1 by omega]
  obtain ⟨rows, row, col, top, pend, pen, ps⟩ := t
  simp only at hp
  subst hp
  rfl

theorem setRow_setRow (rows : Nat → Nat → Cell Pen) (r : Nat) (a b : Nat → Cell Pen) :
    setRow (setRow rows r a) r b = setRow rows r b := by
  funext i; unfold setRow; split <;> rfl

theorem setRow_same (rows : Nat → Nat → Cell Pen) (r : Nat) : setRow rows r (rows r) = rows := by
  funext i; unfold setRow; split
  · rename_i h; rw [h]
  · rfl

theorem setRow_at (rows : Nat → Nat → Cell Pen) (r : Nat) (a : Nat → Cell Pen) : setRow rows r a r = a := by
  unfold setRow; rw [if_pos rfl]

theorem setRow_ne (rows : Nat → Nat → Cell Pen) (r i : Nat) (a : Nat → Cell Pen) (h : i ≠ r) : setRow rows r a i = rows i := by
  unfold setRow; rw [if_neg h]

/-- Visible characters one column wide, none reaching the last column. -/
theorem text_step (d : Dev Pen) : ∀ (s : Str) (t : TT Pen), t.ps = .normal → t.pend = false → t.col + s.length < d.W →
    (∀ c ∈ s, c ≠ ESC ∧ isCtl c = false ∧ d.tw c = 1) →
    ∃ cells, feedH d t s = { t with rows := setRow t.rows t.row cells, col := t.col + s.length } ∧
      (∀ (k : Nat) (c : Char), s[k]? = some c → cells (t.col + k) = ⟨[c], t.pen, false⟩) ∧
      (s ≠ [] → (cells (t.col + s.length)).cont = false) ∧
      ((t.rows t.row t.col).cont = false → ∀ j, j < t.col → cells j = t.rows t.row j)
  | [], t, hp, hn, hl, hs => by
    refine ⟨t.rows t.row, ?_, fun k c h => (by cases h), fun h => absurd rfl h, fun _ j _ => rfl⟩
    rw [setRow_same]
    rfl
  | c :: cs, t, hp, hn, hl, hs => by
    obtain ⟨g1, g2, g3⟩ := hs c (List.mem_cons_self ..)
    simp only [List.length_cons] at hl
    have e : stepH d t c = { t with rows := setRow t.rows t.row (place (t.rows t.row) t.col 1 c t.pen), col := t.col + 1 } := by
      rw [stepH_other d t c (by intro acc h; rw [hp] at h; cases h)]
      have n1 : c ≠ '\r' := by rintro rfl; exact absurd g2 (by decide)
      have n2 : c ≠ '\n' := by rintro rfl; exact absurd g2 (by decide)
      unfold TT.step
      rw [hp]
      simp only [g1, n1, n2, g2, if_false, Bool.false_eq_true]
      unfold TT.put
      rw [g3, if_neg (by decide), if_neg (by rw [hn]; simp; omega)]
      unfold TT.putAt
      rw [if_pos (by omega)]
      obtain ⟨rows, row, col, top, pend, pen, ps⟩ := t
      simp only at hn hp
      subst hn
      subst hp
      rfl
    obtain ⟨cells, h1, h2, h3, h4⟩ := text_step d cs (stepH d t c) (by rw [e]; exact hp) (by rw [e]; exact hn)
      (by rw [e]; show t.col + 1 + cs.length < d.W; omega) (fun x hx => hs x (List.mem_cons_of_mem _ hx))
    rw [e] at h1 h2 h3 h4
    simp only [setRow_at, setRow_setRow] at h1 h2 h3 h4
    have hcont : (place (t.rows t.row) t.col 1 c t.pen (t.col + 1)).cont = false := by
      unfold place
      rw [if_neg (by omega), if_neg (by omega)]
      cases hh : (t.rows t.row (t.col + 1)).cont with
      | true => rw [if_pos ⟨rfl, rfl⟩]; rfl
      | false =>
        rw [if_neg (by simp), if_neg (by omega)]
        exact hh
    have h4 := h4 hcont
    refine ⟨cells, ?_, ?_, ?_, ?_⟩
    · show feedH d (stepH d t c) cs = _
      rw [e, h1]
      simp only [List.length_cons, Nat.add_assoc, Nat.add_comm 1]
    · intro k x hk
      cases k with
      | zero =>
        simp only [List.getElem?_cons_zero, Option.some.injEq] at hk
        subst hk
        rw [Nat.add_zero, h4 t.col (by omega)]
        unfold place
        rw [if_pos rfl]
      | succ k =>
        rw [List.getElem?_cons_succ] at hk
        have := h2 k x hk
        rw [show t.col + (k + 1) = t.col + 1 + k by omega]
        exact this
    · intro _
      simp only [List.length_cons]
      cases cs with
      | nil =>
        have hb : cells = place (t.rows t.row) t.col 1 c t.pen := by
          have h1' : (feedH d { t with rows := setRow t.rows t.row (place (t.rows t.row) t.col 1 c t.pen), col := t.col + 1 } []).rows t.row
              = cells := by rw [h1]; exact setRow_at ..
          rw [← h1']
          exact setRow_at t.rows t.row _
        rw [hb]; exact hcont
      | cons y ys =>
        have := h3 (by simp)
        rw [show t.col + ((y :: ys).length + 1) = t.col + 1 + (y :: ys).length by omega]
        exact this
    · intro hc j hj
      rw [h4 j (by omega)]
      unfold place
      rw [if_neg (by omega), if_neg (by omega), if_neg (by omega), if_neg (by rw [hc]; simp)]

/-- Visible characters the last of which is written in the last column. -/
theorem text_full (d : Dev Pen) (s : Str) (t : TT Pen) (hp : t.ps = .normal) (hn : t.pend = false) (hne : s ≠ [])
    (hl : t.col + s.length = d.W) (hs : ∀ c ∈ s, c ≠ ESC ∧ isCtl c = false ∧ d.tw c = 1) :
    ∃ cells, feedH d t s = { t with rows := setRow t.rows t.row cells, col := d.W - 1, pend := true } ∧
      (∀ (k : Nat) (c : Char), s[k]? = some c → t.col + k < d.W - 1 → cells (t.col + k) = ⟨[c], t.pen, false⟩) ∧
      (cells (d.W - 1)).cont = false := by
  obtain ⟨s', c, rfl⟩ : ∃ s' c, s = s' ++ [c] := ⟨s.dropLast, s.getLast hne, (List.dropLast_concat_getLast hne).symm⟩
  simp only [List.length_append, List.length_cons, List.length_nil] at hl
  obtain ⟨cells, h1, h2, h3, h4⟩ := text_step d s' t hp hn (by omega) (fun x hx => hs x (List.mem_append_left _ hx))
  obtain ⟨g1, g2, g3⟩ := hs c (by simp)
  have e : ∀ u : TT Pen, u.ps = .normal → u.pend = false → u.col = d.W - 1 → 0 < d.W → stepH d u c =
      { u with rows := setRow u.rows u.row (place (u.rows u.row) u.col 1 c u.pen), col := d.W - 1, pend := true } := by
    intro u hp hn hc hW
    rw [stepH_other d u c (by intro acc h; rw [hp] at h; cases h)]
    have n1 : c ≠ '\r' := by rintro rfl; exact absurd g2 (by decide)
    have n2 : c ≠ '\n' := by rintro rfl; exact absurd g2 (by decide)
    unfold TT.step
    rw [hp]
    simp only [g1, n1, n2, g2, if_false, Bool.false_eq_true]
    unfold TT.put
    rw [g3, if_neg (by decide), if_neg (by rw [hn]; simp; omega)]
    unfold TT.putAt
    rw [if_neg (by omega)]
    obtain ⟨rows, row, col, top, pend, pen, ps⟩ := u
    simp only at hn hp
    subst hn
    subst hp
    rfl
  refine ⟨place cells (t.col + s'.length) 1 c t.pen, ?_, ?_, ?_⟩
  · rw [feedH_append, h1]
    have e2 : ∀ u : TT Pen, feedH d u [c] = stepH d u c := fun _ => rfl
    rw [e2, e]
    · simp only [setRow_at, setRow_setRow]
    · exact hp
    · exact hn
    · show t.col + s'.length = d.W - 1
      omega
    · omega
  · intro k x hk hlt
    have hk2 : k < s'.length := by omega
    rw [List.getElem?_append_left hk2] at hk
    unfold place
    rw [if_neg (by omega), if_neg (by omega), if_neg (by omega)]
    have hc : (cells (t.col + s'.length)).cont = false := h3 (by intro h; rw [h] at hk2; exact absurd hk2 (by simp))
    rw [if_neg (by rw [hc]; simp)]
    exact h2 k x hk
  · unfold place
    rw [if_pos (by omega)]

/-- A whole line of the frame. -/
theorem line_step (d : Dev Pen) (t : TT Pen) (hp : t.ps = .normal) (p : Placed) (hf : Fits d p) :
    ∃ cells, feedH d t (p.line ++ (Out.bytes .el ++ Out.bytes .crlf)) =
        { t with rows := setRow t.rows (t.top + (p.row - 1)) cells, row := t.top + p.row, col := 0, pend := false } ∧
      (∀ (k : Nat) (c : Char), p.text[k]? = some c → p.col - 1 + k < d.W - 1 → cells (p.col - 1 + k) = ⟨[c], t.pen, false⟩) ∧
      ∀ j, min (p.col - 1 + p.text.length) (d.W - 1) ≤ j → cells j = Cell.blank t.pen := by
  obtain ⟨f1, f2, f3, f4, f5, f6⟩ := hf
  have hlen : 0 < p.text.length := List.length_pos_iff.2 f4
  unfold Placed.line
  rw [List.append_assoc, feedH_append, feedH_append, feedH_append, goto_step d t hp p.row p.col f1 f3 (by omega) (by omega)]
  obtain ⟨cells, col, pend, h1, h2, h3, hcol⟩ : ∃ cells col pend,
      feedH d { t with row := t.top + (p.row - 1), col := p.col - 1, pend := false } p.text =
        { t with rows := setRow t.rows (t.top + (p.row - 1)) cells, row := t.top + (p.row - 1), col := col, pend := pend } ∧
      (∀ (k : Nat) (c : Char), p.text[k]? = some c → p.col - 1 + k < d.W - 1 → cells (p.col - 1 + k) = ⟨[c], t.pen, false⟩) ∧
      (cells col).cont = false ∧ col = min (p.col - 1 + p.text.length) (d.W - 1) := by
    by_cases hlt : p.col - 1 + p.text.length < d.W
    · obtain ⟨cells, h1, h2, h3, _⟩ := text_step d p.text { t with row := t.top + (p.row - 1), col := p.col - 1, pend := false } hp rfl hlt f6
      exact ⟨cells, _, _, h1, fun k c hk _ => h2 k c hk, h3 f4, by simp only; omega⟩
    · obtain ⟨cells, h1, h2, h3⟩ := text_full d p.text { t with row := t.top + (p.row - 1), col := p.col - 1, pend := false } hp rfl f4
        (by simp only; omega) f6
      exact ⟨cells, _, _, h1, h2, h3, by omega⟩
  rw [h1]
  rw [feedH_ne d (Out.bytes .el) _ (by decide), feedH_ne d (Out.bytes .crlf) _ (by decide), el_step d, crlf_step d]
  rotate_left
  · exact hp
  · exact hp
  simp only [setRow_at, setRow_setRow]
  refine ⟨eraseFrom cells col t.pen, ?_, ?_, ?_⟩
  · unfold TT.lf
    rw [if_pos (by simp only; omega)]
    simp only [show t.top + (p.row - 1) + 1 = t.top + p.row by omega]
  · intro k c hk hk2
    rw [← h2 k c hk hk2]
    have hlt : k < p.text.length := (List.getElem?_eq_some_iff.1 hk).1
    unfold eraseFrom
    rw [if_neg (by omega), if_neg (by rw [h3]; simp)]
  · intro j hj
    unfold eraseFrom
    rw [if_pos (by omega)]

/-- All lines of the box. -/
theorem lines_step (d : Dev Pen) : ∀ (ps : List Placed) (t : TT Pen), t.ps = .normal → (∀ p ∈ ps, Fits d p) →
    ∃ rows row, feedH d t (ps.flatMap fun p => p.line ++ (Out.bytes .el ++ Out.bytes .crlf)) =
        { t with rows := rows, row := row, col := if ps = [] then t.col else 0, pend := if ps = [] then t.pend else false } ∧
      (ps = [] → row = t.row) ∧ (∀ q, ps.getLast? = some q → row = t.top + q.row) ∧
      (∀ i, (∀ p ∈ ps, i ≠ t.top + (p.row - 1)) → rows i = t.rows i) ∧
      ∀ (i : Nat) (p : Placed), ps[i]? = some p → (∀ (j : Nat) (q : Placed), i < j → ps[j]? = some q → q.row ≠ p.row) →
        (∀ (k : Nat) (c : Char), p.text[k]? = some c → p.col - 1 + k < d.W - 1 → rows (t.top + (p.row - 1)) (p.col - 1 + k) = ⟨[c], t.pen, false⟩) ∧
        ∀ j, min (p.col - 1 + p.text.length) (d.W - 1) ≤ j → rows (t.top + (p.row - 1)) j = Cell.blank t.pen
  | [], t, hp, hf => ⟨t.rows, t.row, rfl, fun _ => rfl, fun q h => (by cases h), fun i _ => rfl, fun i p h => (by cases h)⟩
  | p :: ps, t, hp, hf => by
    obtain ⟨cells, h1, h2, h3⟩ := line_step d t hp p (hf p (List.mem_cons_self ..))
    obtain ⟨rows, row, g1, g2, g3, g4, g5⟩ := lines_step d ps
      { t with rows := setRow t.rows (t.top + (p.row - 1)) cells, row := t.top + p.row, col := 0, pend := false } hp
      (fun q hq => hf q (List.mem_cons_of_mem _ hq))
    have hr := (hf p (List.mem_cons_self ..)).1
    simp only at g1 g2 g3 g4 g5
    refine ⟨rows, row, ?_, fun h => (by cases h), ?_, ?_, ?_⟩
    · rw [List.flatMap_cons, feedH_append, h1, g1]
      simp only [reduceCtorEq, if_false, ite_self]
    · intro q hq
      cases ps with
      | nil =>
        simp only [List.getLast?_singleton, Option.some.injEq] at hq
        subst hq
        exact g2 rfl
      | cons a as =>
        rw [List.getLast?_cons_cons] at hq
        exact g3 q hq
    · intro i hi
      rw [g4 i (fun q hq => hi q (List.mem_cons_of_mem _ hq)), setRow_ne _ _ _ _ (hi p (List.mem_cons_self ..))]
    · intro i q hq hl
      cases i with
      | zero =>
        simp only [List.getElem?_cons_zero, Option.some.injEq] at hq
        subst hq
        have hrow : rows (t.top + (p.row - 1)) = cells := by
          rw [g4, setRow_at]
          intro q hq hh
          obtain ⟨j, hj⟩ := List.mem_iff_getElem?.1 hq
          have := hl (j + 1) q (by omega) (by rw [List.getElem?_cons_succ]; exact hj)
          have hr2 := (hf q (List.mem_cons_of_mem _ hq)).1
          omega
        rw [hrow]
        exact ⟨h2, h3⟩
      | succ i =>
        rw [List.getElem?_cons_succ] at hq
        exact g5 i q hq fun j x hj hx => hl (j + 1) x (by omega) (by rw [List.getElem?_cons_succ]; exact hx)

/-! ### Frames -/

theorem goto_no_nl (r c : Nat) : '\n' ∉ goto r c := by
  have key : ∀ n, '\n' ∉ (Dec.nat n).map Char.ofNat := by
    intro n h
    obtain ⟨b, hb, e⟩ := List.mem_map.1 h
    have h1 := (digit_char (Dec.nat_digits n b hb)).1
    rw [e] at h1
    have := Dec.nat_digits n b hb
    rw [← h1] at this
    exact absurd this (by decide)
  unfold goto
  intro h
  rcases List.mem_append.1 h with h | h
  · rcases List.mem_append.1 h with h | h
    · exact absurd h (by decide)
    · rcases List.mem_append.1 h with h | h
      · exact key r h
      · rcases List.mem_cons.1 h with h | h
        · exact absurd h (by decide)
        · exact key c h
  · exact absurd h (by decide)

theorem line_no_nl (d : Dev Pen) (p : Placed) (hf : Fits d p) : '\n' ∉ p.line := by
  intro h
  rcases List.mem_append.1 h with h | h
  · exact goto_no_nl _ _ h
  · have := (hf.2.2.2.2.2 _ h).2.1
    exact absurd this (by decide)

theorem split_spell (d : Dev Pen) : ∀ (ps : List Placed), (∀ p ∈ ps, Fits d p) →
    splitLines (spell ps) = ps.map Placed.line ++ [[]]
  | [], _ => rfl
  | p :: ps, h => by
    have ih := split_spell d ps fun q hq => h q (List.mem_cons_of_mem _ hq)
    unfold spell at ih ⊢
    rw [List.flatMap_cons, List.append_assoc, List.singleton_append,
      Phoenix.Editor.splitLines_cons_nl _ _ (line_no_nl d p (h p (List.mem_cons_self ..))), ih]
    rfl

theorem emit_spell (rw : Char → Nat) (r : R) : ∀ (ps : List Placed), (∀ p ∈ ps, r.cut rw p.line = p.line) →
    bytes (r.emit rw (ps.map Placed.line ++ [[]]) []) =
      (ps.flatMap fun p => p.line ++ (Out.bytes .el ++ Out.bytes .crlf)) ++ Out.bytes .el
  | [], _ => by
    have hc : r.cut rw [] = [] := by
      unfold R.cut truncateLine visualWidth
      split
      · split
        · rfl
        · rfl
      · rfl
    show bytes (R.emit rw r [[]] []) = _
    unfold R.emit
    rw [hc]
    rfl
  | p :: ps, h => by
    have ih := emit_spell rw r ps fun q hq => h q (List.mem_cons_of_mem _ hq)
    show bytes (R.emit rw r (p.line :: (ps.map Placed.line ++ [[]])) []) = _
    unfold R.emit
    rw [h p (List.mem_cons_self ..)]
    simp only [List.head?_nil, reduceCtorEq, if_false, List.tail_nil, List.append_eq_nil_iff, List.cons_ne_nil, and_false]
    rw [bytes_append, bytes_append, bytes_append, bytes_text, ih, List.flatMap_cons]
    simp only [List.append_assoc]
    rfl

/-- The first frame, received. -/
theorem first_frame (rw : Char → Nat) (d : Dev Pen) (ps : List Placed) (w h : Int) (t : TT Pen) (hp : t.ps = .normal)
    (hne : ps ≠ []) (hf : ∀ p ∈ ps, Fits d p) (hh : h ≤ 0 ∨ (ps.length : Int) + 1 ≤ h)
    (hw : w ≤ 0 ∨ ∀ p ∈ ps, (visualWidth rw p.line : Int) ≤ w) (q : Placed) (hq : ps.getLast? = some q) :
    ∃ rows, feedH d t (bytes ((fresh w h).render rw (spell ps)).2) =
        { t with rows := setRow rows (t.top + q.row) (eraseFrom (rows (t.top + q.row)) 0 t.pen), row := t.top + q.row, col := 0,
                 pend := false } ∧
      ((fresh w h).render rw (spell ps)).1 =
        { width := w, height := h, linesRendered := ps.length + 1, lastView := spell ps, lastLines := ps.map Placed.line ++ [[]] } ∧
      (∀ i, (∀ p ∈ ps, i ≠ t.top + (p.row - 1)) → rows i = t.rows i) ∧
      ∀ (i : Nat) (p : Placed), ps[i]? = some p → (∀ (j : Nat) (q : Placed), i < j → ps[j]? = some q → q.row ≠ p.row) →
        (∀ (k : Nat) (c : Char), p.text[k]? = some c → p.col - 1 + k < d.W - 1 → rows (t.top + (p.row - 1)) (p.col - 1 + k) = ⟨[c], t.pen, false⟩) ∧
        ∀ j, min (p.col - 1 + p.text.length) (d.W - 1) ≤ j → rows (t.top + (p.row - 1)) j = Cell.blank t.pen := by
  have hfr : frame h (spell ps) = ps.map Placed.line ++ [[]] := by
    unfold frame
    simp only [split_spell d ps hf]
    rw [if_neg]
    simp only [List.length_append, List.length_map, List.length_cons, List.length_nil]
    omega
  have hcut : ∀ p ∈ ps, (fresh w h).cut rw p.line = p.line := by
    intro p hp
    show (if w > 0 then truncateLine rw p.line w else p.line) = _
    unfold truncateLine
    split
    · rw [if_pos]
      rcases hw with hw | hw
      · exact .inl hw
      · exact .inr (hw p hp)
    · rfl
  have hout : bytes ((fresh w h).render rw (spell ps)).2 =
      Out.bytes .cr ++ (((ps.flatMap fun p => p.line ++ (Out.bytes .el ++ Out.bytes .crlf)) ++ Out.bytes .el) ++ Out.bytes .cr) := by
    unfold R.render
    rw [if_neg (by intro hh; exact absurd hh.2 (Nat.lt_irrefl 0))]
    unfold R.output
    show bytes ((if (0 : Nat) > 1 then _ else []) ++ [Out.cr] ++ R.emit rw (fresh w h) (frame h (spell ps)) [] ++
      (if (0 : Nat) > _ then _ else []) ++ [Out.cr]) = _
    rw [if_neg (by omega), if_neg (by omega), hfr, List.nil_append, List.append_nil, bytes_append, bytes_append,
      emit_spell rw _ ps hcut, List.append_assoc]
    rfl
  obtain ⟨rows, row, g1, _, g3, g4, g5⟩ := lines_step d ps { t with col := 0, pend := false } hp hf
  have hrow := g3 q hq
  simp only at hrow g1 g4 g5
  subst hrow
  refine ⟨rows, ?_, ?_, g4, g5⟩
  · rw [hout, feedH_append, feedH_ne d (Out.bytes .cr) _ (by decide), cr_step d _ hp, feedH_append, feedH_append, g1,
      feedH_ne d (Out.bytes .el) _ (by decide), feedH_ne d (Out.bytes .cr) _ (by decide), el_step d, cr_step d]
    rotate_left
    · exact hp
    · exact hp
    simp only [if_neg hne]
  · unfold R.render
    rw [if_neg (by intro hh; exact absurd hh.2 (Nat.lt_irrefl 0))]
    show ({ width := w, height := h, linesRendered := (frame h (spell ps)).length, lastView := spell ps,
            lastLines := frame h (spell ps) } : R) = _
    rw [hfr]
    simp only [List.length_append, List.length_map, List.length_cons, List.length_nil]

/-- The empty frame after the box, received. -/
theorem second_frame (rw : Char → Nat) (d : Dev Pen) (ps : List Placed) (w h : Int) (t : TT Pen) (hp : t.ps = .normal)
    (hne : ps ≠ []) (r : R)
    (hr : r = { width := w, height := h, linesRendered := ps.length + 1, lastView := spell ps, lastLines := ps.map Placed.line ++ [[]] }) :
    (feedH d t (bytes (r.render rw []).2)).top = t.top ∧
    (∀ i, i < max t.top (t.row - ps.length) → (feedH d t (bytes (r.render rw []).2)).rows i = t.rows i) ∧
    ∀ i, max t.top (t.row - ps.length) ≤ i → ∀ j, (feedH d t (bytes (r.render rw []).2)).rows i j = Cell.blank t.pen := by
  subst hr
  have hn : 0 < ps.length := List.length_pos_iff.2 hne
  have hfr : frame h [] = [[]] := by
    unfold frame
    show (if h > 0 ∧ ((1 : Nat) : Int) > h then _ else [[]]) = _
    rw [if_neg (by omega)]
  obtain ⟨p, ps', rfl⟩ := List.exists_cons_of_ne_nil hne
  have hl : p.line ≠ [] := by unfold Placed.line goto; simp
  have hv : spell (p :: ps') ≠ [] := by unfold spell; simp
  have hout : bytes (R.render rw { width := w, height := h, linesRendered := (p :: ps').length + 1, lastView := spell (p :: ps'), lastLines := (p :: ps').map Placed.line ++ [[]] } []).2 =
      Out.bytes (.up (p :: ps').length) ++ (Out.bytes .cr ++ (Out.bytes .el ++ (Out.bytes .ed ++ Out.bytes .cr))) := by
    unfold R.render
    rw [if_neg (by intro hh; exact hv hh.1.symm)]
    unfold R.output
    simp only [hfr]
    rw [if_pos (by simp only [List.length_cons]; omega), if_pos (by simp only [List.length_cons, List.length_nil]; omega)]
    unfold R.emit
    simp only [List.map_cons, List.cons_append, List.head?_cons, Option.some.injEq, hl, if_false, if_true]
    unfold R.emit
    have hc : ∀ r : R, r.cut rw [] = [] := by
      intro r
      unfold R.cut truncateLine visualWidth
      split
      · split
        · rfl
        · rfl
      · rfl
    rw [hc]
    simp [bytes]
  have hup : ∀ n, ∀ c ∈ Out.bytes (.up n), c ≠ 'H' := by
    intro n c hc
    unfold Out.bytes at hc
    simp only at hc
    split at hc
    · cases hc
    · rintro rfl
      simp only [List.cons_append, List.mem_cons, List.mem_append, List.not_mem_nil, or_false] at hc
      rcases hc with hc | hc | hc | hc
      · exact absurd hc (by decide)
      · exact absurd hc (by decide)
      · exact absurd (digits_ne n _ hc) (by decide)
      · exact absurd hc (by decide)
  rw [hout, feedH_append, feedH_ne d _ _ (hup _), up_step d t hp _ hn, feedH_append, feedH_append, feedH_append,
    feedH_ne d (Out.bytes .cr) _ (by decide), feedH_ne d (Out.bytes .el) _ (by decide), feedH_ne d (Out.bytes .ed) _ (by decide),
    feedH_ne d (Out.bytes .cr) _ (by decide),
    cr_step d { t with row := max t.top (t.row - (p :: ps').length), pend := false } hp, el_step d, ed_step d, cr_step d]
  rotate_left
  · exact hp
  · exact hp
  · exact hp
  simp only [setRow_at]
  refine ⟨trivial, ?_, ?_⟩
  · intro i hi
    rw [if_neg (by omega), if_neg (by omega), setRow_ne _ _ _ _ (by omega)]
  · intro i hi j
    by_cases e : i = max t.top (t.row - (p :: ps').length)
    · rw [if_pos e]
      unfold eraseFrom
      rw [if_pos (by omega)]
    · rw [if_neg e, if_pos (by omega)]

/-! ### The property -/

/-- The lines are those the View of a visible modal without dimmed background consists of, and they fit. -/
structure IsView (d : Dev Pen) (rw : Char → Nat) (w h : Int) (m : Modal.Modal) (ps : List Placed) : Prop where
  visible : m.visible = true
  dim : m.dim = false
  lines : Modal.renderModalBox m (Modal.calculatePosition m).1 (Modal.calculatePosition m).2 = some (ps.map Placed.draw)
  some : ps ≠ []
  fits : ∀ p ∈ ps, Fits d p
  height : h ≤ 0 ∨ (ps.length : Int) + 1 ≤ h
  width : w ≤ 0 ∨ ∀ p ∈ ps, (visualWidth rw p.line : Int) ≤ w

/-- The terminal after the first frame, the view of the modal. -/
def opened (rw : Char → Nat) (d : Dev Pen) (w h : Int) (t : TT Pen) (ps : List Placed) : TT Pen :=
  feedH d t (bytes ((fresh w h).render rw (spell ps)).2)

/-- The terminal after a second frame, the modal hidden: components/modal/modal.go:285-287 returns the empty string. -/
def hidden (rw : Char → Nat) (d : Dev Pen) (w h : Int) (t : TT Pen) (ps : List Placed) : TT Pen :=
  feedH d (opened rw d w h t ps) (bytes (((fresh w h).render rw (spell ps)).1.render rw []).2)

/-- Cell (row, col) of the screen, 0-based, belongs to a line of the box. -/
def InBox (ps : List Placed) (row col : Nat) : Prop :=
  ∃ p ∈ ps, row = p.row - 1 ∧ p.col - 1 ≤ col ∧ col < p.col - 1 + p.text.length

/-- C218, full: an open modal lies over the screen, every line where it belongs and nothing outside the box touched; a hidden
modal is gone. -/
def C218_statement : Prop :=
  ∀ (Pen : Type) (rw : Char → Nat) (d : Dev Pen) (w h : Int) (t : TT Pen) (m : Modal.Modal) (ps : List Placed),
    t.ps = .normal → IsView d rw w h m ps →
    (∀ (i : Nat) (p : Placed), ps[i]? = some p → Clear ps i p → Shown (opened rw d w h t ps) p) ∧
    (∀ row col, ¬ InBox ps row col → ((opened rw d w h t ps).rows (t.top + row) col).ch = (t.rows (t.top + row) col).ch) ∧
    ∀ (i : Nat) (p : Placed), ps[i]? = some p → Clear ps i p → ¬ Shown (hidden rw d w h t ps) p

/-- C218, what holds, for every modal that fits on the terminal, whatever the terminal shows: the screen does not scroll, every
line that does not reach the last column is where it belongs, unless a later line of the same box lies on it, and no row without a line is touched but the one
below the last line. -/
theorem C218_open_partial (rw : Char → Nat) (d : Dev Pen) (w h : Int) (t : TT Pen) (m : Modal.Modal) (ps : List Placed)
    (hp : t.ps = .normal) (hv : IsView d rw w h m ps) :
    (opened rw d w h t ps).top = t.top ∧
    (∀ (i : Nat) (p : Placed), ps[i]? = some p → Clear ps i p → p.col - 1 + p.text.length < d.W → Shown (opened rw d w h t ps) p) ∧
    ∀ row, (∀ p ∈ ps, row ≠ p.row - 1) → (∀ q, ps.getLast? = some q → row ≠ q.row) →
      (opened rw d w h t ps).rows (t.top + row) = t.rows (t.top + row) := by
  obtain ⟨q, hq⟩ : ∃ q, ps.getLast? = some q := by
    cases e : ps.getLast? with
    | none => exact absurd (List.getLast?_eq_none_iff.1 e) hv.some
    | some q => exact ⟨q, rfl⟩
  obtain ⟨rows, g1, _, g3, g4⟩ := first_frame rw d ps w h t hp hv.some hv.fits hv.height hv.width q hq
  unfold opened
  rw [g1]
  refine ⟨rfl, ?_, ?_⟩
  · intro i p hi hc hlast k c hk
    have hkl := (List.getElem?_eq_some_iff.1 hk).1
    have hr := (hv.fits p (List.mem_of_getElem? hi)).1
    have := hc.2 q hq
    show (setRow rows (t.top + q.row) _ (t.top + (p.row - 1)) (p.col - 1 + k)).ch = [c]
    rw [setRow_ne _ _ _ _ (by omega), (g4 i p hi hc.1).1 k c hk (by omega)]
  · intro row h1 h2
    show setRow rows (t.top + q.row) _ (t.top + row) = _
    rw [setRow_ne _ _ _ _ (by have := h2 q hq; omega), g3]
    intro p hm hh
    exact h1 p hm (by omega)

/-- C218: what lay to the right of the box is erased, for every modal and every screen. -/
theorem C218_right_erased_refuted (rw : Char → Nat) (d : Dev Pen) (w h : Int) (t : TT Pen) (m : Modal.Modal) (ps : List Placed)
    (hp : t.ps = .normal) (hv : IsView d rw w h m ps) (i : Nat) (p : Placed) (hi : ps[i]? = some p) (hc : Clear ps i p) (col : Nat)
    (hcol : p.col - 1 + p.text.length ≤ col) : ((opened rw d w h t ps).rows (t.top + (p.row - 1)) col).ch = [] := by
  obtain ⟨q, hq⟩ : ∃ q, ps.getLast? = some q := by
    cases e : ps.getLast? with
    | none => exact absurd (List.getLast?_eq_none_iff.1 e) hv.some
    | some q => exact ⟨q, rfl⟩
  obtain ⟨rows, g1, _, g3, g4⟩ := first_frame rw d ps w h t hp hv.some hv.fits hv.height hv.width q hq
  unfold opened
  rw [g1]
  have hr := (hv.fits p (List.mem_of_getElem? hi)).1
  have := hc.2 q hq
  show (setRow rows (t.top + q.row) _ (t.top + (p.row - 1)) col).ch = []
  rw [setRow_ne _ _ _ _ (by omega), (g4 i p hi hc.1).2 col (by omega)]
  rfl

/-- C218: a line that reaches the last column loses its last character, for every modal and every screen: the right border of a
modal as wide as the terminal is not there. -/
theorem C218_last_column_refuted (rw : Char → Nat) (d : Dev Pen) (w h : Int) (t : TT Pen) (m : Modal.Modal) (ps : List Placed)
    (hp : t.ps = .normal) (hv : IsView d rw w h m ps) (i : Nat) (p : Placed) (hi : ps[i]? = some p) (hc : Clear ps i p)
    (hcol : p.col - 1 + p.text.length = d.W) :
    ((opened rw d w h t ps).rows (t.top + (p.row - 1)) (d.W - 1)).ch = [] ∧ ¬ Shown (opened rw d w h t ps) p := by
  obtain ⟨q, hq⟩ : ∃ q, ps.getLast? = some q := by
    cases e : ps.getLast? with
    | none => exact absurd (List.getLast?_eq_none_iff.1 e) hv.some
    | some q => exact ⟨q, rfl⟩
  obtain ⟨rows, g1, _, g3, g4⟩ := first_frame rw d ps w h t hp hv.some hv.fits hv.height hv.width q hq
  have hr := (hv.fits p (List.mem_of_getElem? hi)).1
  have hne := (hv.fits p (List.mem_of_getElem? hi)).2.2.2.1
  have hlen : 0 < p.text.length := List.length_pos_iff.2 hne
  have := hc.2 q hq
  have key : ((opened rw d w h t ps).rows (t.top + (p.row - 1)) (d.W - 1)).ch = [] := by
    unfold opened
    rw [g1]
    show (setRow rows (t.top + q.row) _ (t.top + (p.row - 1)) (d.W - 1)).ch = []
    rw [setRow_ne _ _ _ _ (by omega), (g4 i p hi hc.1).2 (d.W - 1) (by omega)]
    rfl
  refine ⟨key, ?_⟩
  intro hs
  have htop : (opened rw d w h t ps).top = t.top := (C218_open_partial rw d w h t m ps hp hv).1
  have h1 := hs (p.text.length - 1) (p.text[p.text.length - 1]'(by omega)) (List.getElem?_eq_getElem _)
  rw [htop, show p.col - 1 + (p.text.length - 1) = d.W - 1 by omega, key] at h1
  cases h1

/-- C218: which lines of the box a hidden modal leaves on the screen, for every modal: exactly those that lie above the last
line by at least the number of lines the View had; the rest of the screen is erased. -/
theorem C218_hidden_partial (rw : Char → Nat) (d : Dev Pen) (w h : Int) (t : TT Pen) (m : Modal.Modal) (ps : List Placed)
    (hp : t.ps = .normal) (hv : IsView d rw w h m ps) (q : Placed) (hq : ps.getLast? = some q) (i : Nat) (p : Placed)
    (hi : ps[i]? = some p) (hc : Clear ps i p) (hlast : p.col - 1 + p.text.length < d.W) :
    (Shown (hidden rw d w h t ps) p ↔ p.row + ps.length ≤ q.row) ∧
    ∀ row col, q.row - ps.length ≤ row → ((hidden rw d w h t ps).rows (t.top + row) col).ch = [] := by
  obtain ⟨k1, k2, _⟩ := C218_open_partial rw d w h t m ps hp hv
  obtain ⟨rows, g1, g2, g3, g4⟩ := first_frame rw d ps w h t hp hv.some hv.fits hv.height hv.width q hq
  have hps : (opened rw d w h t ps).ps = .normal := by unfold opened; rw [g1]; exact hp
  have hrow : (opened rw d w h t ps).row = t.top + q.row := by unfold opened; rw [g1]
  obtain ⟨s1, s2, s3⟩ := second_frame rw d ps w h (opened rw d w h t ps) hps hv.some _ g2
  rw [k1] at s1 s2 s3
  rw [hrow] at s2 s3
  obtain ⟨f1, _, _, f4, _, _⟩ := hv.fits p (List.mem_of_getElem? hi)
  have hb : ∀ row col, q.row - ps.length ≤ row → ((hidden rw d w h t ps).rows (t.top + row) col).ch = [] := by
    intro row col hr
    unfold hidden
    rw [s3 _ (by omega)]
    rfl
  refine ⟨⟨?_, ?_⟩, hb⟩
  · intro hs
    apply Classical.byContradiction
    intro hn
    obtain ⟨c, cs, e⟩ := List.exists_cons_of_ne_nil f4
    have h1 := hs 0 c (by rw [e]; rfl)
    have htop : (hidden rw d w h t ps).top = t.top := s1
    rw [htop, hb _ _ (by omega)] at h1
    cases h1
  · intro hle k c hk
    have htop : (hidden rw d w h t ps).top = t.top := s1
    have h1 := k2 i p hi hc hlast k c hk
    rw [k1] at h1
    rw [htop]
    unfold hidden
    rw [s2 _ (by omega)]
    exact h1

/-! ### Refutation and example -/

/-- A terminal of 20 columns and 12 rows showing nothing. -/
def dev : Dev Bool where
  W := 20
  H := 12
  tw := fun _ => 1
  p0 := false
  sgr := fun p _ => p
  osc := fun p _ => p

/-- A modal "hi" of 10 by 8 at (1, 1), without title and buttons. -/
def hi : Modal.Modal := { Modal.newWithTitle [] [104, 105] with width := 10, height := 8, position := some (1, 1), visible := true }

/-- Its lines. -/
def hiLines : List Placed :=
  [⟨2, 2, "┌────────┐".toList⟩, ⟨3, 2, "│ hi     │".toList⟩, ⟨8, 2, "└────────┘".toList⟩]

set_option maxRecDepth 20000 in
theorem hi_view : IsView dev (fun _ => 1) 20 12 hi hiLines where
  visible := rfl
  dim := rfl
  lines := by decide +kernel
  some := by decide
  fits := by unfold Fits; decide +kernel
  height := by decide
  width := by decide +kernel

/-- The screen before: full of dots. -/
def dots : TT Bool := ⟨fun _ _ => ⟨['.'], false, false⟩, 0, 0, 0, false, false, .normal⟩

theorem hi_clear : Clear hiLines 0 ⟨2, 2, "┌────────┐".toList⟩ := by
  constructor
  · intro j q hj hq
    match j, hj, hq with
    | 1, _, hq => cases hq; decide
    | 2, _, hq => cases hq; decide
  · intro q hq
    cases hq
    decide

/-- C218: false: hidden, the modal's top is still there. -/
theorem C218_refuted : ¬ C218_statement := by
  intro h
  have h3 := (h Bool (fun _ => 1) dev 20 12 dots hi hiLines rfl hi_view).2.2 0 _ rfl hi_clear
  exact h3 ((C218_hidden_partial (fun _ => 1) dev 20 12 dots hi hiLines rfl hi_view _ rfl 0 _ rfl hi_clear (by decide)).1.2 (by decide))

example : Shown (opened (fun _ => 1) dev 20 12 dots hiLines) ⟨2, 2, "┌────────┐".toList⟩ :=
  (C218_open_partial (fun _ => 1) dev 20 12 dots hi hiLines rfl hi_view).2.1 0 _ rfl hi_clear (by decide +kernel)
set_option maxRecDepth 20000 in
example : ((opened (fun _ => 1) dev 20 12 dots hiLines).rows 1 15).ch = [] :=
  C218_right_erased_refuted (fun _ => 1) dev 20 12 dots hi hiLines rfl hi_view 0 _ rfl hi_clear 15 (by decide +kernel)

/-- The same modal as wide as the terminal, at (0, 1). -/
def wide : Modal.Modal := { hi with width := 20, position := some (0, 1) }

/-- Its lines. -/
def wideLines : List Placed :=
  [⟨2, 1, '┌' :: List.replicate 18 '─' ++ ['┐']⟩, ⟨3, 1, "│ hi               │".toList⟩, ⟨8, 1, '└' :: List.replicate 18 '─' ++ ['┘']⟩]

set_option maxRecDepth 20000 in
theorem wide_view : IsView dev (fun _ => 1) 20 12 wide wideLines where
  visible := rfl
  dim := rfl
  lines := by decide +kernel
  some := by decide
  fits := by unfold Fits; decide +kernel
  height := by decide
  width := by decide +kernel

set_option maxRecDepth 20000 in
example : ((opened (fun _ => 1) dev 20 12 dots wideLines).rows 2 19).ch = [] :=
  (C218_last_column_refuted (fun _ => 1) dev 20 12 dots wide wideLines rfl wide_view 1 ⟨3, 1, "│ hi               │".toList⟩ rfl
    (by
      constructor
      · intro j q hj hq
        match j, hj, hq with
        | 2, _, hq => cases hq; decide
      · intro q hq
        cases hq
        decide) (by decide +kernel)).1

end Phoenix.ModalScreen
