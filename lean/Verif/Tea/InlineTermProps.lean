import Verif.Tea.InlineTermModel
/-
The inline renderer on a realistic terminal: C170, C171, C172.
-/
set_option linter.unusedVariables false
set_option linter.unusedSimpArgs false
namespace Phoenix.Inline
variable {Pen : Type}

theorem tfeed_append (d : Dev Pen) (t : TT Pen) (a b : Str) : t.feed d (a ++ b) = (t.feed d a).feed d b := by
  simp [TT.feed]

theorem bytes_append (a b : List Out) : bytes (a ++ b) = bytes a ++ bytes b := by
  simp [bytes]

theorem bytes_text (l : Str) : bytes (l.map Out.text) = l := by
  induction l with
  | nil => rfl
  | cons c cs ih =>
    have : bytes ((c :: cs).map Out.text) = c :: bytes (cs.map Out.text) := rfl
    rw [this, ih]

/-! ### A line on the terminal -/

/-- The terminal `t` has received, on the row of `t0`, what `l` has received on an empty
row. -/
structure On (d : Dev Pen) (t0 t : TT Pen) (l : Ln Pen) : Prop where
  row : t.row = t0.row
  top : t.top = t0.top
  ps : t.ps = l.ps
  pen : t.pen = l.pen
  cur : (l.col < d.W ∧ t.col = l.col ∧ t.pend = false) ∨ (l.col = d.W ∧ t.col = d.W - 1 ∧ t.pend = true)
  same : ∀ j, j < l.col → t.rows t0.row j = l.cells j
  edge : 0 < l.col → l.col < d.W → (t.rows t0.row l.col).cont = false
  rest : ∀ j, l.col ≤ j → l.cells j = Cell.blank d.p0
  other : ∀ i, i ≠ t0.row → t.rows i = t0.rows i

theorem step_col (d : Dev Pen) {l l' : Ln Pen} {c : Char} (h : l.step d c = some l') : l.col ≤ l'.col := by
  unfold Ln.step at h
  split at h
  all_goals (repeat' split at h) <;> simp only [Option.some.injEq, reduceCtorEq] at h <;> (try subst h) <;>
    (try exact Nat.le_refl _) <;> (try (show l.col ≤ l.col + d.tw c; omega))

theorem run_col (d : Dev Pen) : ∀ (s : Str) {l l' : Ln Pen}, l.run d s = some l' → l.col ≤ l'.col := by
  intro s
  induction s with
  | nil => intro l l' h; simp only [Ln.run, Option.some.injEq] at h; rw [h]; exact Nat.le_refl _
  | cons c cs ih =>
    intro l l' h
    rw [Ln.run] at h
    cases hs : l.step d c with
    | none => rw [hs] at h; cases h
    | some m => rw [hs] at h; exact Nat.le_trans (step_col d hs) (ih h)

theorem on_step (d : Dev Pen) (hW : 0 < d.W) {t0 t : TT Pen} {l l' : Ln Pen} {c : Char} (h : On d t0 t l)
    (hs : l.step d c = some l') (hf : l'.col ≤ d.W) : On d t0 (t.step d c) l' := by
  unfold Ln.step at hs
  unfold TT.step
  rw [h.ps]
  cases hp : l.ps with
  | normal =>
    rw [hp] at hs
    simp only at hs ⊢
    by_cases he : c = ESC
    · rw [if_pos he] at hs ⊢
      simp only [Option.some.injEq] at hs
      subst hs
      exact ⟨h.row, h.top, rfl, h.pen, h.cur, h.same, h.edge, h.rest, h.other⟩
    rw [if_neg he] at hs ⊢
    by_cases hc : isCtl c = true
    · rw [if_pos hc] at hs; cases hs
    rw [if_neg hc] at hs
    have n1 : c ≠ '\r' := by intro e; subst e; exact hc rfl
    have n2 : c ≠ '\n' := by intro e; subst e; exact hc rfl
    rw [if_neg n1, if_neg n2, if_neg hc]
    unfold TT.put
    by_cases hz : d.tw c = 0
    · rw [if_pos hz] at hs ⊢
      by_cases h0 : l.col = 0
      · rw [if_pos h0] at hs; cases hs
      rw [if_neg h0] at hs
      simp only [Option.some.injEq] at hs
      subst hs
      have hcond : ¬ (t.col = 0 ∧ t.pend = false) := by
        rintro ⟨a, b⟩
        rcases h.cur with ⟨_, e, _⟩ | ⟨_, _, e⟩
        · omega
        · rw [e] at b; cases b
      rw [if_neg hcond]
      have hcol : (if t.pend = true then t.col + 1 else t.col) = l.col := by
        rcases h.cur with ⟨e1, e2, e3⟩ | ⟨e1, e2, e3⟩
        · rw [if_neg (by rw [e3]; decide), e2]
        · rw [if_pos e3]; omega
      simp only [hcol]
      have hat : attach (t.rows t.row) l.col c = fun j => if j < l.col then attach l.cells l.col c j else t.rows t.row j := by
        funext j
        have e1 := h.same (l.col - 1) (by omega)
        rw [← h.row] at e1
        unfold attach
        rw [e1]
        simp only
        by_cases hj : j < l.col
        · rw [if_pos hj]
          have e2 := h.same j hj
          rw [← h.row] at e2
          rw [e2]
        · rw [if_neg hj]
          split <;> rw [if_neg (by omega)]
      refine ⟨h.row, h.top, h.ps.trans hp, h.pen, h.cur, ?_, ?_, ?_, ?_⟩
      · intro j hj
        show setRow t.rows t.row _ t0.row j = attach l.cells l.col c j
        rw [hat]
        unfold setRow
        rw [if_pos h.row.symm]
        rw [if_pos (show j < l.col from hj)]
      · intro a b
        show (setRow t.rows t.row _ t0.row l.col).cont = false
        rw [hat]
        unfold setRow
        rw [if_pos h.row.symm]
        rw [if_neg (Nat.lt_irrefl _), h.row]
        exact h.edge a b
      · intro j hj
        have hj' : l.col ≤ j := hj
        show attach l.cells l.col c j = _
        unfold attach
        simp only
        split <;> (rw [if_neg (by omega)]; exact h.rest j hj')
      · intro i hi
        show setRow t.rows t.row _ i = _
        unfold setRow
        rw [if_neg (by rw [h.row]; exact hi)]
        exact h.other i hi
    · rw [if_neg hz] at hs ⊢
      simp only [Option.some.injEq] at hs
      subst hs
      have hf' : l.col + d.tw c ≤ d.W := hf
      have hlt : l.col < d.W := by omega
      obtain ⟨e2, e3⟩ : t.col = l.col ∧ t.pend = false := by
        rcases h.cur with ⟨_, e2, e3⟩ | ⟨e1, _, _⟩
        · exact ⟨e2, e3⟩
        · omega
      have hw : ¬ (t.pend = true ∨ d.W < t.col + d.tw c) := by
        rintro (a | a)
        · rw [e3] at a; cases a
        · omega
      rw [if_neg hw]
      have hcells : ∀ j, place (t.rows t.row) t.col (d.tw c) c t.pen j =
          if j < l.col + d.tw c then place l.cells l.col (d.tw c) c l.pen j
          else if j = l.col + d.tw c ∧ (t.rows t.row j).cont = true then Cell.blank (t.rows t.row j).pen
          else t.rows t.row j := by
        intro j
        unfold place
        rw [e2, h.pen]
        have hlc : (l.cells l.col).cont = false := by rw [h.rest _ (Nat.le_refl _)]; rfl
        by_cases h1 : j = l.col
        · rw [if_pos h1, if_pos (by omega), if_pos h1]
        rw [if_neg h1, if_neg h1]
        by_cases h2 : l.col < j ∧ j < l.col + d.tw c
        · rw [if_pos h2, if_pos (by omega), if_pos h2]
        rw [if_neg h2, if_neg h2]
        by_cases h3 : j < l.col + d.tw c
        · have hj : j < l.col := by omega
          have n1 : ∀ x : Cell Pen, ¬ (j = l.col + d.tw c ∧ x.cont = true) := fun x h => by omega
          rw [if_neg (n1 _), if_pos h3, if_neg (n1 _)]
          have n2 : ¬ (j + 1 = l.col ∧ (t.rows t.row l.col).cont = true) := by
            rintro ⟨_, b⟩
            have := h.edge (by omega) hlt
            rw [h.row] at b
            rw [this] at b; cases b
          have n3 : ¬ (j + 1 = l.col ∧ (l.cells l.col).cont = true) := by
            rintro ⟨_, b⟩; rw [hlc] at b; cases b
          rw [if_neg n2, if_neg n3, h.row]
          exact h.same j hj
        · rw [if_neg h3]
          have n2 : ¬ (j + 1 = l.col ∧ (t.rows t.row l.col).cont = true) := by omega
          rw [if_neg n2]
      have hrow' : (t.putAt d (d.tw c) c).rows = setRow t.rows t.row (place (t.rows t.row) t.col (d.tw c) c t.pen) := by
        unfold TT.putAt; simp only; split <;> rfl
      have hr0 : ∀ j, (t.putAt d (d.tw c) c).rows t0.row j = place (t.rows t.row) t.col (d.tw c) c t.pen j := by
        intro j
        rw [hrow']
        unfold setRow
        rw [if_pos h.row.symm]
      refine ⟨?_, ?_, ?_, ?_, ?_, ?_, ?_, ?_, ?_⟩
      · refine Eq.trans ?_ h.row; unfold TT.putAt; simp only; split <;> rfl
      · refine Eq.trans ?_ h.top; unfold TT.putAt; simp only; split <;> rfl
      · refine Eq.trans ?_ (h.ps.trans hp); unfold TT.putAt; simp only; split <;> rfl
      · refine Eq.trans ?_ h.pen; unfold TT.putAt; simp only; split <;> rfl
      · show (l.col + d.tw c < d.W ∧ _ = l.col + d.tw c ∧ _) ∨ (l.col + d.tw c = d.W ∧ _)
        unfold TT.putAt
        simp only
        by_cases hlt2 : t.col + d.tw c < d.W
        · rw [if_pos hlt2]; exact Or.inl ⟨by omega, by show t.col + d.tw c = _; omega, rfl⟩
        · rw [if_neg hlt2]; exact Or.inr ⟨by omega, rfl, rfl⟩
      · intro j hj
        have hj' : j < l.col + d.tw c := hj
        rw [hr0, hcells, if_pos hj']
      · intro _ hlt2
        have hlt2' : l.col + d.tw c < d.W := hlt2
        show ((t.putAt d (d.tw c) c).rows t0.row (l.col + d.tw c)).cont = false
        rw [hr0, hcells, if_neg (Nat.lt_irrefl _)]
        by_cases hk : (t.rows t.row (l.col + d.tw c)).cont = true
        · rw [if_pos ⟨rfl, hk⟩]; rfl
        · rw [if_neg (fun h => hk h.2)]; simpa using hk
      · intro j hj
        have hj' : l.col + d.tw c ≤ j := hj
        show place l.cells l.col (d.tw c) c l.pen j = _
        unfold place
        have hlc : (l.cells j).cont = false := by rw [h.rest _ (by omega)]; rfl
        rw [if_neg (by omega), if_neg (by omega), if_neg (by rw [hlc]; simp), if_neg (by omega)]
        exact h.rest j (by omega)
      · intro i hi
        rw [hrow']
        unfold setRow
        rw [if_neg (by rw [h.row]; exact hi)]
        exact h.other i hi
  | esc =>
    rw [hp] at hs
    simp only at hs ⊢
    (repeat' split at hs) <;> simp only [Option.some.injEq, reduceCtorEq] at hs
    · rename_i e
      subst hs; rw [if_pos e]
      exact ⟨h.row, h.top, rfl, h.pen, h.cur, h.same, h.edge, h.rest, h.other⟩
    · rename_i e e2
      subst hs; rw [if_neg e, if_pos e2]
      exact ⟨h.row, h.top, rfl, h.pen, h.cur, h.same, h.edge, h.rest, h.other⟩
  | csi acc =>
    rw [hp] at hs
    simp only at hs ⊢
    (repeat' split at hs) <;> simp only [Option.some.injEq, reduceCtorEq] at hs
    · rename_i e e2
      subst hs; rw [if_pos e]
      unfold TT.csi
      rw [if_pos e2]
      exact ⟨h.row, h.top, rfl, by show d.sgr t.pen acc = _; rw [h.pen], h.cur, h.same, h.edge, h.rest, h.other⟩
    · rename_i e
      subst hs; rw [if_neg e]
      exact ⟨h.row, h.top, rfl, h.pen, h.cur, h.same, h.edge, h.rest, h.other⟩
  | osc acc =>
    rw [hp] at hs
    simp only at hs ⊢
    (repeat' split at hs) <;> simp only [Option.some.injEq, reduceCtorEq] at hs
    · rename_i e
      subst hs; rw [if_pos e]
      exact ⟨h.row, h.top, rfl, by show d.osc t.pen acc = _; rw [h.pen], h.cur, h.same, h.edge, h.rest, h.other⟩
    · rename_i e e2
      subst hs; rw [if_neg e, if_pos e2]
      exact ⟨h.row, h.top, rfl, h.pen, h.cur, h.same, h.edge, h.rest, h.other⟩
    · rename_i e e2
      subst hs; rw [if_neg e, if_neg e2]
      exact ⟨h.row, h.top, rfl, h.pen, h.cur, h.same, h.edge, h.rest, h.other⟩
  | oscEsc acc =>
    rw [hp] at hs
    simp only at hs ⊢
    (repeat' split at hs) <;> simp only [Option.some.injEq, reduceCtorEq] at hs
    · rename_i e
      subst hs; rw [if_pos e]
      exact ⟨h.row, h.top, rfl, by show d.osc t.pen acc = _; rw [h.pen], h.cur, h.same, h.edge, h.rest, h.other⟩

theorem on_run (d : Dev Pen) (hW : 0 < d.W) : ∀ (s : Str) {t0 t : TT Pen} {l l' : Ln Pen}, On d t0 t l →
    l.run d s = some l' → l'.col ≤ d.W → On d t0 (t.feed d s) l' := by
  intro s
  induction s with
  | nil =>
    intro t0 t l l' h hs hf
    simp only [Ln.run, Option.some.injEq] at hs
    rw [← hs]; exact h
  | cons c cs ih =>
    intro t0 t l l' h hs hf
    rw [Ln.run] at hs
    cases hm : l.step d c with
    | none => rw [hm] at hs; cases hs
    | some m =>
      rw [hm] at hs
      have hs' : m.run d cs = some l' := hs
      exact ih (on_step d hW h hm (Nat.le_trans (run_col d cs hs') hf)) hs' hf

/-- How a line `s` of at most `W` columns looks after the renderer wrote it: as on an empty
row, except that a line as wide as the terminal has its last column erased. -/
def RowOf (d : Dev Pen) (s : Str) (row : Nat → Cell Pen) : Prop :=
  ∃ cells k, Paint d s cells k ∧ k ≤ d.W ∧
    row = if k < d.W then cells else eraseFrom cells (d.W - 1) d.p0

theorem el_step (d : Dev Pen) (t : TT Pen) (hp : t.ps = .normal) :
    t.feed d (Out.bytes .el) = { t with rows := setRow t.rows t.row (eraseFrom (t.rows t.row) t.col t.pen) } := by
  obtain ⟨rows, row, col, top, pend, pen, ps⟩ := t
  simp only at hp
  subst hp
  rfl

theorem ed_step (d : Dev Pen) (t : TT Pen) (hp : t.ps = .normal) :
    t.feed d (Out.bytes .ed) =
      { t with rows := fun i => if i = t.row then eraseFrom (t.rows t.row) t.col t.pen
                                else if t.row < i then fun _ => Cell.blank t.pen else t.rows i } := by
  obtain ⟨rows, row, col, top, pend, pen, ps⟩ := t
  simp only at hp
  subst hp
  rfl

theorem cr_step (d : Dev Pen) (t : TT Pen) (hp : t.ps = .normal) :
    t.feed d (Out.bytes .cr) = { t with col := 0, pend := false } := by
  obtain ⟨rows, row, col, top, pend, pen, ps⟩ := t
  simp only at hp
  subst hp
  rfl

theorem crlf_step (d : Dev Pen) (t : TT Pen) (hp : t.ps = .normal) :
    t.feed d (Out.bytes .crlf) = ({ t with col := 0, pend := false } : TT Pen).lf d := by
  obtain ⟨rows, row, col, top, pend, pen, ps⟩ := t
  simp only at hp
  subst hp
  rfl

theorem feed_csi_params (d : Dev Pen) : ∀ (s : Str) (t : TT Pen) (acc : Str), t.ps = .csi acc →
    (∀ c ∈ s, isFinal c = false) → t.feed d s = { t with ps := .csi (acc ++ s) } := by
  intro s
  induction s with
  | nil => intro t acc h _; simp only [TT.feed, List.foldl_nil, List.append_nil, ← h]
  | cons c cs ih =>
    intro t acc h hf
    have hc := hf c (List.mem_cons_self ..)
    have e : t.step d c = { t with ps := .csi (acc ++ [c]) } := by
      unfold TT.step
      rw [h]
      simp only [hc, Bool.false_eq_true, if_false]
    have e2 : t.feed d (c :: cs) = (t.step d c).feed d cs := rfl
    rw [e2, e, ih _ (acc ++ [c]) rfl (fun x hx => hf x (List.mem_cons_of_mem _ hx)), List.append_assoc]
    rfl

theorem digit_char {b : Nat} (h : Dec.isDigit b = true) :
    (Char.ofNat b).toNat = b ∧ isFinal (Char.ofNat b) = false := by
  unfold Dec.isDigit at h
  simp only [Bool.and_eq_true, decide_eq_true_eq] at h
  obtain ⟨h1, h2⟩ := h
  have : b = 48 ∨ b = 49 ∨ b = 50 ∨ b = 51 ∨ b = 52 ∨ b = 53 ∨ b = 54 ∨ b = 55 ∨ b = 56 ∨ b = 57 := by omega
  rcases this with h | h | h | h | h | h | h | h | h | h <;> subst h <;> decide

theorem up_step (d : Dev Pen) (t : TT Pen) (hp : t.ps = .normal) (n : Nat) (hn : 0 < n) :
    t.feed d (Out.bytes (.up n)) = { t with row := max t.top (t.row - n), pend := false } := by
  have e : Out.bytes (.up n) = [ESC, '['] ++ ((Dec.nat n).map Char.ofNat ++ ['A']) := by
    show (if n = 0 then [] else _) = _
    rw [if_neg (by omega)]; rfl
  have hm : ((Dec.nat n).map Char.ofNat).map Char.toNat = Dec.nat n := by
    rw [List.map_map]
    conv => rhs; rw [← List.map_id (Dec.nat n)]
    apply List.map_congr_left
    intro b hb
    exact (digit_char (Dec.nat_digits n b hb)).1
  have e1 : t.feed d [ESC, '['] = { t with ps := .csi [] } := by
    obtain ⟨rows, row, col, top, pend, pen, ps⟩ := t
    simp only at hp
    subst hp
    rfl
  rw [e, tfeed_append, tfeed_append, e1, feed_csi_params d ((Dec.nat n).map Char.ofNat) _ [] rfl (by
    intro c hc
    obtain ⟨b, hb, rfl⟩ := List.mem_map.1 hc
    exact (digit_char (Dec.nat_digits n b hb)).2)]
  have hpar : param 1 ((Dec.nat n).map Char.ofNat) = n := by
    unfold param
    rw [hm, Dec.parse_nat]; rfl
  have e2 : ∀ u : TT Pen, u.feed d ['A'] = u.step d 'A' := fun _ => rfl
  rw [e2]
  unfold TT.step
  simp only [List.nil_append]
  rw [if_pos (by decide)]
  unfold TT.csi
  rw [if_neg (by decide), if_pos rfl, hpar]
  obtain ⟨rows, row, col, top, pend, pen, ps⟩ := t
  simp only at hp
  subst hp
  simp only [show max 1 n = n by omega]

/-! ### A line, and the lines of a frame -/

/-- The cursor is at the start of a row and nothing is left over from before. -/
structure Clean (d : Dev Pen) (t : TT Pen) : Prop where
  pend : t.pend = false
  pen : t.pen = d.p0
  ps : t.ps = .normal

theorem erase_idem (cells : Nat → Cell Pen) (col : Nat) (p : Pen) :
    eraseFrom (eraseFrom cells col p) col p = eraseFrom cells col p := by
  funext j
  have hc : (eraseFrom cells col p col).cont = false := by
    unfold eraseFrom; rw [if_pos (Nat.le_refl _)]; rfl
  show (if col ≤ j then _ else if j + 1 = col ∧ (eraseFrom cells col p col).cont = true then _ else _) = _
  rw [hc]
  by_cases h : col ≤ j
  · rw [if_pos h]; unfold eraseFrom; rw [if_pos h]
  · rw [if_neg h, if_neg (by simp)]

theorem tline (d : Dev Pen) (hW : 0 < d.W) (t : TT Pen) (hc : t.col = 0) (hcl : Clean d t) (s : Str)
    (row : Nat → Cell Pen) (hr : RowOf d s row) :
    ∃ u, t.feed d (bytes (s.map Out.text ++ [Out.el])) = u ∧ u.row = t.row ∧ u.top = t.top ∧ u.pen = d.p0 ∧
      u.ps = .normal ∧ u.rows t.row = row ∧ (∀ i, i ≠ t.row → u.rows i = t.rows i) ∧
      eraseFrom (u.rows u.row) u.col d.p0 = u.rows u.row := by
  obtain ⟨cells, k, hp, hk, hrow⟩ := hr
  have h0 : On d t t (Ln.start d) := by
    refine ⟨rfl, rfl, hcl.ps, hcl.pen, Or.inl ⟨hW, hc, hcl.pend⟩, fun j hj => absurd hj (Nat.not_lt_zero _),
      fun h => absurd h (Nat.lt_irrefl _), fun _ _ => rfl, fun _ _ => rfl⟩
  have h1 := on_run d hW s h0 hp hk
  rw [bytes_append, bytes_text, tfeed_append]
  generalize t.feed d s = x at h1
  have eb : bytes [Out.el] = Out.bytes .el := by simp [bytes]
  rw [eb, el_step d x h1.ps]
  refine ⟨_, rfl, h1.row, h1.top, h1.pen, h1.ps, ?_, ?_, ?_⟩
  · show setRow x.rows x.row (eraseFrom (x.rows x.row) x.col x.pen) t.row = row
    unfold setRow
    rw [if_pos h1.row.symm, h1.row, h1.pen, hrow]
    funext j
    show eraseFrom (x.rows t.row) x.col d.p0 j = _
    rcases h1.cur with ⟨c1, c2, c3⟩ | ⟨c1, c2, c3⟩
    · have c1' : k < d.W := c1
      have c2' : x.col = k := c2
      rw [if_pos c1', c2']
      unfold eraseFrom
      by_cases hj : k ≤ j
      · rw [if_pos hj]; exact (h1.rest j hj).symm
      · rw [if_neg hj]
        have : ¬ (j + 1 = k ∧ (x.rows t.row k).cont = true) := by
          rintro ⟨a, b⟩
          have he : (x.rows t.row k).cont = false := h1.edge (show 0 < k by omega) c1
          rw [he] at b; cases b
        rw [if_neg this]
        exact h1.same j (show j < k by omega)
    · have c1' : k = d.W := c1
      rw [if_neg (by omega), c2]
      have hs : ∀ i, i < d.W → x.rows t.row i = cells i := by
        intro i hi; exact h1.same i (show i < k by omega)
      unfold eraseFrom
      by_cases hj : d.W - 1 ≤ j
      · rw [if_pos hj, if_pos hj]
      · rw [if_neg hj, if_neg hj, hs (d.W - 1) (by omega), hs j (by omega)]
  · intro i hi
    show setRow x.rows x.row _ i = _
    unfold setRow
    rw [if_neg (by rw [h1.row]; exact hi)]
    exact h1.other i hi
  · show eraseFrom (setRow x.rows x.row _ x.row) x.col d.p0 = setRow x.rows x.row _ x.row
    unfold setRow
    rw [if_pos rfl, h1.pen]
    exact erase_idem _ _ _

theorem bytes_nil : bytes [] = [] := rfl

/-- The lines loop on the terminal. -/
theorem temit (rw : Char → Nat) (d : Dev Pen) (hW : 0 < d.W) (r : R) : ∀ (new old : List Str) (t : TT Pen),
    new ≠ [] → t.col = 0 → Clean d t → t.row < t.top + d.H → t.row + old.length ≤ t.top + d.H →
    (∀ k l, old[k]? = some l → RowOf d (r.cut rw l) (t.rows (t.row + k))) →
    (∀ l ∈ new, ∃ row, RowOf d (r.cut rw l) row) →
    ∃ u, t.feed d (bytes (r.emit rw new old)) = u ∧ u.row + 1 = t.row + new.length ∧ u.pen = d.p0 ∧ u.ps = .normal ∧
      u.top = max t.top (t.row + new.length - d.H) ∧
      (∀ k l, new[k]? = some l → RowOf d (r.cut rw l) (u.rows (t.row + k))) ∧
      (∀ i, i < t.row ∨ t.row + new.length ≤ i → u.rows i = t.rows i) ∧
      (old[new.length - 1]? ≠ new.getLast? → eraseFrom (u.rows u.row) u.col d.p0 = u.rows u.row) := by
  intro new
  induction new with
  | nil => intro old t h; exact absurd rfl h
  | cons line rest ih =>
    intro old t _ hc hcl hbot hfit hold hnew
    have hrow : ∃ u, t.feed d (bytes (if old.head? = some line then [] else (r.cut rw line).map Out.text ++ [Out.el])) = u ∧
        u.row = t.row ∧ u.top = t.top ∧ u.pen = d.p0 ∧ u.ps = .normal ∧ RowOf d (r.cut rw line) (u.rows t.row) ∧
        (∀ i, i ≠ t.row → u.rows i = t.rows i) ∧
        (old.head? ≠ some line → eraseFrom (u.rows u.row) u.col d.p0 = u.rows u.row) := by
      by_cases hh : old.head? = some line
      · refine ⟨t, by rw [if_pos hh]; rfl, rfl, rfl, hcl.pen, hcl.ps, ?_, fun _ _ => rfl, fun h => absurd hh h⟩
        have h0 : old[0]? = some line := by rw [← List.head?_eq_getElem?]; exact hh
        exact hold 0 line h0
      · obtain ⟨row, hrw⟩ := hnew line (List.mem_cons_self ..)
        obtain ⟨u, e, e1, e2, e3, e4, e5, e6, e7⟩ := tline d hW t hc hcl _ row hrw
        exact ⟨u, by rw [if_neg hh]; exact e, e1, e2, e3, e4, by rw [e5]; exact hrw, e6, fun _ => e7⟩
    obtain ⟨u, hf, u1, u2, u3, u4, u5, u6, u7⟩ := hrow
    have hemit : t.feed d (bytes (r.emit rw (line :: rest) old)) =
        (u.feed d (bytes (if rest = [] then [] else [Out.crlf]))).feed d (bytes (r.emit rw rest old.tail)) := by
      rw [R.emit]
      rw [bytes_append, bytes_append, tfeed_append, tfeed_append, hf]
    rw [hemit]
    by_cases hr : rest = []
    · subst hr
      rw [if_pos rfl]
      have e : (u.feed d (bytes [])).feed d (bytes (r.emit rw [] old.tail)) = u := rfl
      rw [e]
      refine ⟨u, rfl, by rw [u1]; rfl, u3, u4, ?_, ?_, ?_, ?_⟩
      · rw [u2]; simp only [List.length_cons, List.length_nil]; omega
      · intro k l hk
        cases k with
        | zero => simp only [List.getElem?_cons_zero, Option.some.injEq] at hk; rw [← hk]; exact u5
        | succ k => simp at hk
      · intro i hi
        apply u6
        simp only [List.length_cons, List.length_nil] at hi
        omega
      · intro h
        apply u7
        rw [List.head?_eq_getElem?]; simpa using h
    · have hl := List.length_pos_iff.2 hr
      rw [if_neg hr]
      have eb : bytes [Out.crlf] = Out.bytes .crlf := by simp [bytes]
      rw [eb, crlf_step d u u4]
      generalize hv : ({ u with col := 0, pend := false } : TT Pen).lf d = v
      have v1 : v.row = t.row + 1 := by
        rw [← hv, ← u1]; unfold TT.lf; split <;> rfl
      have v2 : v.col = 0 := by rw [← hv]; unfold TT.lf; split <;> rfl
      have v3 : Clean d v := by
        rw [← hv]; unfold TT.lf; split
        · exact ⟨rfl, u3, u4⟩
        · exact ⟨rfl, u3, u4⟩
      have v4 : v.top = max t.top (t.row + 2 - d.H) := by
        rw [← hv]; unfold TT.lf
        have : ({ u with col := 0, pend := false } : TT Pen).row = t.row := u1
        have h2 : ({ u with col := 0, pend := false } : TT Pen).top = t.top := u2
        rw [this, h2]
        split
        · show t.top = _; omega
        · show t.top + 1 = _; omega
      have v5 : ∀ i, i ≠ t.row + 1 → v.rows i = u.rows i := by
        intro i hi
        rw [← hv]; unfold TT.lf; split
        · rfl
        · show setRow u.rows (u.row + 1) _ i = _
          unfold setRow
          rw [if_neg (by rw [u1]; exact hi)]
      have v6 : t.row + 1 < t.top + d.H → v.rows = u.rows := by
        intro hlt
        rw [← hv]; unfold TT.lf
        rw [if_pos (show u.row + 1 < u.top + d.H by rw [u1, u2]; exact hlt)]
      obtain ⟨w, e0, e1, e2, e3, e4, e5, e6, e7⟩ := ih old.tail v hr v2 v3 (by omega) (by
          rw [v1, List.length_tail]
          by_cases ho : old.length = 0
          · omega
          · omega) (by
          intro k l hk
          rw [List.getElem?_tail] at hk
          have hlen : k + 1 < old.length := by
            have := (List.getElem?_eq_some_iff.1 hk).1
            exact this
          have := hold (k + 1) l hk
          rw [v1, v6 (by omega), u6 _ (by omega), show t.row + 1 + k = t.row + (k + 1) by omega]
          exact this) (fun l hl => hnew l (List.mem_cons_of_mem _ hl))
      refine ⟨w, e0, ?_, e2, e3, ?_, ?_, ?_, ?_⟩
      · rw [e1, v1, List.length_cons]; omega
      · rw [e4, v4, v1, List.length_cons]; omega
      · intro k l hk
        cases k with
        | zero =>
          simp only [List.getElem?_cons_zero, Option.some.injEq] at hk
          rw [e6 _ (by rw [v1]; omega), v5 _ (by omega), ← hk]
          exact u5
        | succ k =>
          have := e5 k l (by simpa using hk)
          rw [v1, show t.row + 1 + k = t.row + (k + 1) by omega] at this
          exact this
      · intro i hi
        rw [List.length_cons] at hi
        rw [e6 _ (by rw [v1]; omega), v5 _ (by omega), u6 _ (by omega)]
      · intro h
        apply e7
        rw [List.getElem?_tail, show rest.length - 1 + 1 = (line :: rest).length - 1 by simp; omega]
        rw [List.getLast?_cons_of_ne_nil hr] at h
        exact h

/-! ### Histories -/

structure TInv (rw : Char → Nat) (d : Dev Pen) (t0 : TT Pen) (m : Nat) (r : R) (t : TT Pen) (s : Spec) : Prop where
  width : r.width = s.width
  height : r.height = s.height
  count : r.linesRendered = s.disp.length
  len : s.prev.length = s.disp.length
  fresh : s.stale = false → r.lastLines = s.prev ∧ s.disp = shown rw s.width s.prev ∧
    s.prev = frame s.height r.lastView
  old : s.stale = true → r.lastLines = [] ∧ r.lastView = []
  col : t.col = 0
  clean : Clean d t
  row : t.row = t0.row + (s.disp.length - 1)
  top0 : t0.top ≤ t.top
  top : t.top ≤ m
  bottom : t0.row < t.top + d.H
  onscreen : t0.row + s.disp.length ≤ t.top + d.H
  above : ∀ i, i < t0.row → t.rows i = t0.rows i
  cells : ∀ i l, s.disp[i]? = some l → RowOf d l (t.rows (t0.row + i))
  below : ∀ i, t0.row + s.disp.length ≤ i → ∀ j, t.rows i j = Cell.blank d.p0

/-- The frames a history puts on the screen: every line can be painted and is at most as
wide as the terminal, and the frame fits between the rows `base` and `m + H`. -/
def FitsOne (d : Dev Pen) (base m : Nat) (disp : List Str) : Prop :=
  (∀ l ∈ disp, ∃ row, RowOf d l row) ∧ base + disp.length ≤ m + d.H

theorem trender_inv (rw : Char → Nat) (d : Dev Pen) (hW : 0 < d.W) {t0 : TT Pen} {m : Nat} (hm : m ≤ t0.row)
    {r : R} {t : TT Pen} {s : Spec} (h : TInv rw d t0 m r t s) (v : Str) (hs : Safe rw s [.render v])
    (hfit : FitsOne d t0.row m (s.step rw (.render v)).disp) :
    TInv rw d t0 m (tstep rw d (r, t) (.render v)).1 (tstep rw d (r, t) (.render v)).2 (s.step rw (.render v)) := by
  obtain ⟨⟨s1, s2⟩, _⟩ := hs
  by_cases hskip : v = r.lastView ∧ r.linesRendered > 0
  · have e : tstep rw d (r, t) (.render v) = (r, t) := by
      show ((r.render rw v).1, t.feed d (bytes (r.render rw v).2)) = (r, t)
      unfold R.render
      rw [if_pos hskip]; rfl
    rw [e]
    have hst : s.stale = false := by
      cases hst : s.stale with
      | false => rfl
      | true =>
        exfalso
        apply s2 hst
        · intro e
          have := h.len
          rw [e] at this
          have := h.count
          simp only [List.length_nil] at *
          omega
        · rw [hskip.1, (h.old hst).2]
    obtain ⟨f1, f2, f3⟩ := h.fresh hst
    have hfr : frame s.height v = s.prev := by rw [hskip.1, ← f3]
    have hstep : s.step rw (.render v) = { s with stale := false } := by
      show ({ s with prev := frame s.height v, stale := false, disp := shown rw s.width (frame s.height v) } : Spec) = _
      rw [hfr, ← f2]
    rw [hstep]
    exact ⟨h.width, h.height, h.count, h.len, fun _ => h.fresh hst, fun h => (by cases h), h.col, h.clean, h.row,
      h.top0, h.top, h.bottom, h.onscreen, h.above, h.cells, h.below⟩
  · have e1 : (tstep rw d (r, t) (.render v)).1 =
        { r with linesRendered := (frame r.height v).length, lastView := v, lastLines := frame r.height v } := by
      show (r.render rw v).1 = _
      unfold R.render
      rw [if_neg hskip]
    have e2 : (tstep rw d (r, t) (.render v)).2 = t.feed d (bytes (r.output rw v)) := by
      show t.feed d (bytes (r.render rw v).2) = _
      unfold R.render
      rw [if_neg hskip]
    have hH := h.height
    have hWd := h.width
    have hne := frame_ne r.height v
    have hn := List.length_pos_iff.2 hne
    have hsp : s.step rw (.render v) =
        { s with prev := frame r.height v, stale := false, disp := shown rw r.width (frame r.height v) } := by
      rw [hH, hWd]; rfl
    have hsl : (shown rw r.width (frame r.height v)).length = (frame r.height v).length := by
      unfold shown; rw [List.length_map]
    rw [hsp] at hfit
    rw [e1, e2, hsp]
    rw [← hH] at s1
    obtain ⟨hf1, hf2⟩ := hfit
    have hf2' : t0.row + (frame r.height v).length ≤ m + d.H := by rw [← hsl]; exact hf2
    have hout : t.feed d (bytes (r.output rw v)) =
        (((t.feed d (bytes ((if r.linesRendered > 1 then [Out.up (r.linesRendered - 1)] else []) ++ [Out.cr]))).feed d
          (bytes (r.emit rw (frame r.height v) r.lastLines))).feed d
          (bytes (if r.linesRendered > (frame r.height v).length then [Out.ed] else []))).feed d (bytes [Out.cr]) := by
      unfold R.output
      simp only [bytes_append, tfeed_append]
    rw [hout]
    generalize htop : t.feed d (bytes ((if r.linesRendered > 1 then [Out.up (r.linesRendered - 1)] else []) ++ [Out.cr])) = u
    have hcnt := h.count
    have hrow := h.row
    have ht1 := h.top
    have hcr : bytes [Out.cr] = Out.bytes .cr := by simp [bytes]
    have hu : u.row = t0.row ∧ u.col = 0 ∧ Clean d u ∧ u.top = t.top ∧ u.rows = t.rows := by
      rw [← htop]
      by_cases h1 : r.linesRendered > 1
      · rw [if_pos h1]
        have eb : bytes ([Out.up (r.linesRendered - 1)] ++ [Out.cr]) = Out.bytes (.up (r.linesRendered - 1)) ++ Out.bytes .cr := by
          simp [bytes]
        rw [eb, tfeed_append, up_step d t h.clean.ps _ (by omega), cr_step d { t with row := max t.top (t.row - (r.linesRendered - 1)), pend := false } h.clean.ps]
        refine ⟨?_, rfl, ⟨rfl, h.clean.pen, h.clean.ps⟩, rfl, rfl⟩
        show max t.top (t.row - (r.linesRendered - 1)) = t0.row
        omega
      · rw [if_neg h1, List.nil_append, hcr, cr_step d _ h.clean.ps]
        refine ⟨?_, rfl, ⟨rfl, h.clean.pen, h.clean.ps⟩, rfl, rfl⟩
        show t.row = t0.row
        omega
    obtain ⟨u1, u2, u3, u4, u5⟩ := hu
    have hons := h.onscreen
    have hbot := h.bottom
    have hlast : r.lastLines.length ≤ s.disp.length := by
      cases hst : s.stale with
      | true => rw [(h.old hst).1]; exact Nat.zero_le _
      | false => rw [(h.fresh hst).1, h.len]; exact Nat.le_refl _
    obtain ⟨x, x0, x1, x2, x3, x4, x5, x6, x7⟩ := temit rw d hW r (frame r.height v) r.lastLines u hne u2 u3
      (by rw [u1, u4]; exact hbot) (by rw [u1, u4]; omega) (by
      intro k l hk
      rw [u1, u5]
      cases hst : s.stale with
      | true => rw [(h.old hst).1] at hk; simp at hk
      | false =>
        obtain ⟨f1, f2, f3⟩ := h.fresh hst
        rw [f1] at hk
        apply h.cells k
        rw [f2, ← hWd, shown_get, hk]
        rfl) (by
      intro l hl
      apply hf1
      show r.cut rw l ∈ shown rw r.width (frame r.height v)
      exact List.mem_map_of_mem hl)
    rw [x0, u1] at *
    -- after the erase below
    generalize hy : x.feed d (bytes (if r.linesRendered > (frame r.height v).length then [Out.ed] else [])) = y
    have hyy : y.row = x.row ∧ y.top = x.top ∧ y.pen = d.p0 ∧ y.ps = .normal ∧
        (∀ i, i < t0.row + (frame r.height v).length → y.rows i = x.rows i) ∧
        (∀ i, t0.row + (frame r.height v).length ≤ i → ∀ j, y.rows i j = Cell.blank d.p0) := by
      rw [← hy]
      by_cases hed : r.linesRendered > (frame r.height v).length
      · rw [if_pos hed]
        have eb : bytes [Out.ed] = Out.bytes .ed := by simp [bytes]
        rw [eb, ed_step d x x3]
        refine ⟨rfl, rfl, x2, x3, ?_, ?_⟩
        · intro i hi
          show (if i = x.row then _ else if x.row < i then _ else _) = _
          by_cases hix : i = x.row
          · rw [if_pos hix, x2, x7, hix]
            cases hst : s.stale with
            | true =>
              rw [(h.old hst).1, List.getElem?_nil]
              intro e
              exact hne (List.getLast?_eq_none_iff.1 e.symm)
            | false =>
              rw [(h.fresh hst).1]
              exact s1 (by rw [h.len, ← h.count]; exact hed) hst
          · rw [if_neg hix, if_neg (by omega)]
        · intro i hi j
          show (if i = x.row then eraseFrom (x.rows x.row) x.col x.pen
            else if x.row < i then fun _ => Cell.blank x.pen else x.rows i) j = _
          rw [if_neg (by omega), if_pos (by omega), x2]
      · rw [if_neg hed]
        refine ⟨rfl, rfl, x2, x3, fun _ _ => rfl, ?_⟩
        intro i hi j
        show x.rows i j = _
        rw [x6 i (Or.inr hi), u5]
        exact h.below i (by omega) j
    obtain ⟨y1, y2, y3, y4, y5, y6⟩ := hyy
    rw [hcr, cr_step d y y4]
    have htx : x.top = max t.top (t0.row + (frame r.height v).length - d.H) := by rw [x4, u4]
    have ht0 := h.top0
    refine ⟨hWd, hH, hsl.symm, hsl.symm, fun _ => ⟨rfl, by rw [hWd], by rw [hH]⟩, fun hh => (by cases hh), rfl,
      ⟨rfl, y3, y4⟩, ?_, ?_, ?_, ?_, ?_, ?_, ?_, ?_⟩
    · show y.row = t0.row + ((shown rw r.width (frame r.height v)).length - 1)
      rw [hsl, y1]; omega
    · show t0.top ≤ y.top; rw [y2, htx]; omega
    · show y.top ≤ m; rw [y2, htx]; omega
    · show t0.row < y.top + d.H; rw [y2, htx]; omega
    · show t0.row + (shown rw r.width (frame r.height v)).length ≤ y.top + d.H; rw [hsl, y2, htx]; omega
    · intro i hi
      show y.rows i = _
      rw [y5 i (by omega), x6 i (Or.inl hi), u5]
      exact h.above i hi
    · intro i l hl
      show RowOf d l (y.rows (t0.row + i))
      have hl' : (shown rw r.width (frame r.height v))[i]? = some l := hl
      rw [shown_get] at hl'
      obtain ⟨l0, h0, h1⟩ := Option.map_eq_some_iff.1 hl'
      have hi := (List.getElem?_eq_some_iff.1 h0).1
      rw [y5 _ (by omega), ← h1]
      exact x5 i l0 h0
    · intro i hi j
      show y.rows i j = _
      apply y6
      have : t0.row + (shown rw r.width (frame r.height v)).length ≤ i := hi
      rw [hsl] at this
      exact this

theorem tstep_inv (rw : Char → Nat) (d : Dev Pen) (hW : 0 < d.W) {t0 : TT Pen} {m : Nat} (hm : m ≤ t0.row)
    {r : R} {t : TT Pen} {s : Spec} (h : TInv rw d t0 m r t s) (o : Op) (hs : Safe rw s [o])
    (hfit : FitsOne d t0.row m (s.step rw o).disp) :
    TInv rw d t0 m (tstep rw d (r, t) o).1 (tstep rw d (r, t) o).2 (s.step rw o) := by
  cases o with
  | render v => exact trender_inv rw d hW hm h v hs hfit
  | renderFail v =>
    have e : tstep rw d (r, t) (.renderFail v) = (r, t) := by
      unfold tstep R.renderFail
      simp only
      split <;> rfl
    rw [e]; exact h
  | repaint =>
    exact ⟨h.width, h.height, h.count, h.len, fun hh => (by cases hh), fun _ => ⟨rfl, rfl⟩, h.col, h.clean, h.row,
      h.top0, h.top, h.bottom, h.onscreen, h.above, h.cells, h.below⟩
  | resize w hh =>
    exact ⟨rfl, rfl, h.count, h.len, fun hh => (by cases hh), fun _ => ⟨rfl, rfl⟩, h.col, h.clean, h.row,
      h.top0, h.top, h.bottom, h.onscreen, h.above, h.cells, h.below⟩

theorem tinit_inv (rw : Char → Nat) (d : Dev Pen) {t0 : TT Pen} (h : Ready d t0) {m : Nat} (hm : t0.top ≤ m) (w hh : Int) :
    TInv rw d t0 m { width := w, height := hh } t0 { width := w, height := hh } := by
  refine ⟨rfl, rfl, rfl, rfl, fun hh => (by cases hh), fun _ => ⟨rfl, rfl⟩, h.col, ⟨h.pend, h.pen, h.ps⟩, rfl,
    Nat.le_refl _, hm, h.bottom, ?_, fun _ _ => rfl, fun i l hl => (by simp at hl), ?_⟩
  · show t0.row + 0 ≤ _; have := h.bottom; omega
  · intro i hi j; exact h.blank i hi j

theorem trun_inv (rw : Char → Nat) (d : Dev Pen) (hW : 0 < d.W) {t0 : TT Pen} {m : Nat} (hm : m ≤ t0.row) (ops : List Op) :
    ∀ {r : R} {t : TT Pen} {s : Spec}, TInv rw d t0 m r t s → Safe rw s ops →
    (∀ n, n ≤ ops.length → FitsOne d t0.row m (expected rw s (ops.take n)).disp) →
    TInv rw d t0 m (trun rw d (r, t) ops).1 (trun rw d (r, t) ops).2 (expected rw s ops) := by
  induction ops with
  | nil => intro r t s h _ _; exact h
  | cons o os ih =>
    intro r t s h hs hf
    refine ih (tstep_inv rw d hW hm h o ⟨hs.1, trivial⟩ ?_) hs.2 ?_
    · have := hf 1 (by rw [List.length_cons]; omega)
      simpa [expected] using this
    · intro n hn
      have := hf (n + 1) (by rw [List.length_cons]; omega)
      simpa [expected] using this

/-! ### Widths: the renderer and the terminal agree -/

def scanOf : Ps → Scan
  | .normal => .normal
  | .esc => .esc
  | .csi _ => .csi
  | .osc _ => .osc
  | .oscEsc _ => .oscEsc

theorem step_wid (d : Dev Pen) {l l' : Ln Pen} {c : Char} (h : l.step d c = some l') :
    (scan (scanOf l.ps) c).1 = scanOf l'.ps ∧
    l'.col = l.col + (if (scan (scanOf l.ps) c).2 = true then d.tw c else 0) := by
  have bs : BEL ≠ ESC := by decide
  unfold Ln.step at h
  cases hp : l.ps <;> rw [hp] at h <;> simp only at h
  case normal =>
    by_cases he : c = ESC
    · rw [if_pos he] at h
      simp only [Option.some.injEq] at h
      subst h
      simp [scanOf, scan, he]
    rw [if_neg he] at h
    by_cases hc : isCtl c = true
    · rw [if_pos hc] at h; cases h
    rw [if_neg hc] at h
    by_cases hz : d.tw c = 0
    · rw [if_pos hz] at h
      split at h
      · cases h
      · simp only [Option.some.injEq] at h
        subst h
        simp [scanOf, scan, he, hz, hp]
    · rw [if_neg hz] at h
      simp only [Option.some.injEq] at h
      subst h
      simp [scanOf, scan, he, hp]
  case esc =>
    split at h
    · rename_i e
      simp only [Option.some.injEq] at h; subst h; simp [scanOf, scan, e]
    · rename_i e
      split at h
      · rename_i e2
        simp only [Option.some.injEq] at h; subst h; simp [scanOf, scan, e, e2]
      · cases h
  case csi acc =>
    split at h
    · rename_i e
      split at h
      · simp only [Option.some.injEq] at h; subst h; simp [scanOf, scan, e]
      · cases h
    · rename_i e
      simp only [Option.some.injEq] at h; subst h; simp [scanOf, scan, e]
  case osc acc =>
    split at h
    · rename_i e
      simp only [Option.some.injEq] at h; subst h; simp [scanOf, scan, e]
    · rename_i e
      split at h
      · rename_i e2
        simp only [Option.some.injEq] at h; subst h; subst e2; simp [scanOf, scan, e]
      · rename_i e2
        simp only [Option.some.injEq] at h; subst h; simp [scanOf, scan, e, e2]
  case oscEsc acc =>
    split at h
    · rename_i e
      simp only [Option.some.injEq] at h; subst h; simp [scanOf, scan, e]
    · cases h

theorem run_wid (d : Dev Pen) : ∀ (s : Str) {l l' : Ln Pen}, l.run d s = some l' →
    l'.col = l.col + wid d.tw (scanOf l.ps) s := by
  intro s
  induction s with
  | nil => intro l l' h; simp only [Ln.run, Option.some.injEq] at h; rw [h]; simp [wid, stripFrom]
  | cons c cs ih =>
    intro l l' h
    rw [Ln.run] at h
    cases hs : l.step d c with
    | none => rw [hs] at h; cases h
    | some m =>
      rw [hs] at h
      obtain ⟨a, b⟩ := step_wid d hs
      rw [ih h, b, wid_cons, a]; omega

/-- The columns a line takes on the terminal are what the renderer's `visualWidth` counts. -/
theorem paint_width (d : Dev Pen) {s : Str} {cells : Nat → Cell Pen} {k : Nat} (h : Paint d s cells k) :
    visualWidth d.tw s = k := by
  have := run_wid d s h
  rw [show (Ln.start d).col = 0 from rfl, Nat.zero_add] at this
  exact this.symm

/-- Text without escapes or control characters, every character one column wide, looks like
itself. -/
theorem paint_plain (d : Dev Pen) (s : Str) (h : ∀ c ∈ s, c ≠ ESC ∧ isCtl c = false ∧ d.tw c = 1) :
    ∃ cells, Paint d s cells s.length ∧
      ∀ j, cells j = (match s[j]? with | some c => ⟨[c], d.p0, false⟩ | none => Cell.blank d.p0) := by
  induction s using snocInd with
  | nil => exact ⟨_, rfl, fun j => rfl⟩
  | append_singleton s c ih =>
    obtain ⟨cells, h1, h2⟩ := ih (fun x hx => h x (List.mem_append_left _ hx))
    obtain ⟨c1, c2, c3⟩ := h c (by simp)
    have hrun : ∀ (s : Str) (l : Ln Pen) (c : Char), l.run d (s ++ [c]) = (l.run d s).bind fun l' => l'.step d c := by
      intro s
      induction s with
      | nil =>
        intro l c
        simp only [List.nil_append, Ln.run]
        simp only [Option.bind_some]
        cases l.step d c <;> simp
      | cons x xs ih2 =>
        intro l c
        simp only [List.cons_append, Ln.run]
        cases l.step d x with
        | none => simp
        | some m => simpa using ih2 m c
    refine ⟨place cells s.length 1 c d.p0, ?_, ?_⟩
    · unfold Paint
      rw [hrun, h1, Option.bind_some]
      unfold Ln.step
      simp only
      rw [if_neg c1, c2, c3]
      simp
    · intro j
      unfold place
      have hcont : ∀ j, (cells j).cont = false := by
        intro j; rw [h2]; split <;> rfl
      by_cases hj : j = s.length
      · rw [if_pos hj, hj]; simp
      · rw [if_neg hj, if_neg (by omega), hcont, hcont, if_neg (by simp), if_neg (by simp), h2]
        by_cases hlt : j < s.length
        · rw [List.getElem?_append_left hlt]
        · rw [List.getElem?_eq_none (by omega), List.getElem?_eq_none (by simp; omega)]

/-! ## C170, C171: what is on the screen -/

theorem screen_general (rw : Char → Nat) (d : Dev Pen) (hW : 0 < d.W) {t0 : TT Pen} (h0 : Ready d t0) {m : Nat}
    (hm1 : t0.top ≤ m) (hm2 : m ≤ t0.row) (w hh : Int) (ops : List Op)
    (hs : Safe rw { width := w, height := hh } ops)
    (hf : ∀ n, n ≤ ops.length → FitsOne d t0.row m (expected rw { width := w, height := hh } (ops.take n)).disp) :
    TInv rw d t0 m (trun rw d ({ width := w, height := hh }, t0) ops).1
      (trun rw d ({ width := w, height := hh }, t0) ops).2 (expected rw { width := w, height := hh } ops) :=
  trun_inv rw d hW hm2 ops (tinit_inv rw d h0 hm1 w hh) hs hf

/-- The sizes the renderer is told: as wide as the terminal (or unknown), and not taller. -/
def SizeOk (d : Dev Pen) (w h : Int) : Prop := (w ≤ 0 ∨ (d.W : Int) ≤ w) ∧ 0 < h ∧ h ≤ d.H

/-- A line that fits: printable text, SGR and OSC sequences, narrower than the terminal, and
leaving the pen as it found it. -/
def GoodLine (d : Dev Pen) (l : Str) : Prop := ∃ cells k, Paint d l cells k ∧ k < d.W

theorem frame_mem {h : Int} {v : Str} {l : Str} (hl : l ∈ frame h v) : l ∈ splitLines v := by
  unfold frame at hl
  simp only at hl
  split at hl
  · exact List.mem_of_mem_drop hl
  · exact hl

theorem frame_len {h : Int} (v : Str) (hp : 0 < h) : ((frame h v).length : Int) ≤ h := by
  unfold frame
  simp only
  split
  · rw [List.length_drop]; omega
  · omega

theorem shown_good (d : Dev Pen) {w : Int} (hw : w ≤ 0 ∨ (d.W : Int) ≤ w) (ls : List Str)
    (h : ∀ l ∈ ls, GoodLine d l) : shown d.tw w ls = ls := by
  unfold shown
  conv => rhs; rw [← List.map_id ls]
  apply List.map_congr_left
  intro l hl
  obtain ⟨cells, k, hp, hk⟩ := h l hl
  split
  · exact C17_fits d.tw l w (Or.inr (by rw [paint_width d hp]; omega))
  · rfl

theorem expected_good (d : Dev Pen) (ops : List Op) :
    ∀ s : Spec, SizeOk d s.width s.height →
    (s.disp = s.prev ∧ (∀ l ∈ s.prev, GoodLine d l) ∧ s.prev.length ≤ d.H) →
    (∀ w h, Op.resize w h ∈ ops → SizeOk d w h) →
    (∀ v, Op.render v ∈ ops → ∀ l ∈ splitLines v, GoodLine d l) →
    (expected d.tw s ops).disp = (expected d.tw s ops).prev ∧
      (∀ l ∈ (expected d.tw s ops).prev, GoodLine d l) ∧ (expected d.tw s ops).prev.length ≤ d.H := by
  induction ops with
  | nil => intro s _ h _ _; exact h
  | cons o os ih =>
    intro s hsz h hr hv
    refine ih (s.step d.tw o) ?_ ?_ (fun w h hm => hr w h (List.mem_cons_of_mem _ hm))
      (fun v hm => hv v (List.mem_cons_of_mem _ hm))
    · cases o with
      | resize w h => exact hr w h (List.mem_cons_self ..)
      | _ => exact hsz
    · cases o with
      | render v =>
        have hg : ∀ l ∈ frame s.height v, GoodLine d l :=
          fun l hl => hv v (List.mem_cons_self ..) l (frame_mem hl)
        refine ⟨shown_good d hsz.1 _ hg, hg, ?_⟩
        show (frame s.height v).length ≤ d.H
        have := frame_len v hsz.2.1
        have := hsz.2.2
        omega
      | _ => exact h

/-- C170.  On any terminal (size, character widths, styling), with the cursor at the start
of any row and anything above it: after every history of renders, repaints, resizes and
failed renders outside the two cases of C16, whose lines are narrower than the terminal and
close their styles,
  * the rows from the start row on show exactly the lines of the last frame, each as it
    looks on its own, styles, wide and combining characters included,
  * all rows above are as they were (they may have scrolled), all rows below are empty,
  * the whole frame is on the screen, the cursor at the start of its last line. -/
theorem C170_inline_screen (d : Dev Pen) (hW : 0 < d.W) (t0 : TT Pen) (h0 : Ready d t0) (w h : Int)
    (ops : List Op) (hsz : SizeOk d w h) (hrs : ∀ w h, Op.resize w h ∈ ops → SizeOk d w h)
    (hlines : ∀ v, Op.render v ∈ ops → ∀ l ∈ splitLines v, GoodLine d l)
    (hsafe : Safe d.tw { width := w, height := h } ops) :
    let t := (trun d.tw d ({ width := w, height := h }, t0) ops).2
    let last := (expected d.tw { width := w, height := h } ops).prev
    (∀ i l, last[i]? = some l → ∃ k, Paint d l (t.rows (t0.row + i)) k) ∧
    (∀ i, i < t0.row → t.rows i = t0.rows i) ∧
    (∀ i, t0.row + last.length ≤ i → ∀ j, t.rows i j = Cell.blank d.p0) ∧
    t0.top ≤ t.top ∧ t.top ≤ t0.row ∧ t0.row + last.length ≤ t.top + d.H ∧
    t.row = t0.row + (last.length - 1) ∧ t.col = 0 ∧ t.pen = d.p0 ∧ t.ps = .normal := by
  intro t last
  have hgood : ∀ n, n ≤ ops.length → _ := fun n _ =>
    expected_good d (ops.take n) { width := w, height := h } hsz ⟨rfl, fun l hl => (by simp at hl), Nat.zero_le _⟩
      (fun w h hm => hrs w h (List.mem_of_mem_take hm)) (fun v hm => hlines v (List.mem_of_mem_take hm))
  have inv := screen_general d.tw d hW h0 h0.top (Nat.le_refl _) w h ops hsafe (by
    intro n hn
    obtain ⟨g1, g2, g3⟩ := hgood n hn
    rw [g1]
    refine ⟨fun l hl => ?_, by omega⟩
    obtain ⟨cells, k, hp, hk⟩ := g2 l hl
    exact ⟨_, cells, k, hp, Nat.le_of_lt hk, rfl⟩)
  have hfull := hgood ops.length (Nat.le_refl _)
  rw [List.take_length] at hfull
  obtain ⟨g1, g2, g3⟩ := hfull
  refine ⟨?_, inv.above, ?_, inv.top0, inv.top, ?_, ?_, inv.col, inv.clean.pen, inv.clean.ps⟩
  · intro i l hl
    obtain ⟨cells, k, hp, hk, hrow⟩ := inv.cells i l (by rw [g1]; exact hl)
    obtain ⟨cells', k', hp', hk'⟩ := g2 l (List.mem_of_getElem? hl)
    have heq : k = k' := by
      have a := paint_width d hp
      have b := paint_width d hp'
      omega
    rw [if_pos (by omega)] at hrow
    exact ⟨k, by rw [hrow]; exact hp⟩
  · have := inv.below; rw [g1] at this; exact this
  · have := inv.onscreen; rw [g1] at this; exact this
  · have := inv.row; rw [g1] at this; exact this

/-- C170.  Nothing scrolls as long as every frame fits below the start row. -/
theorem C170_no_scroll (d : Dev Pen) (hW : 0 < d.W) (t0 : TT Pen) (h0 : Ready d t0) (w h : Int)
    (ops : List Op) (hsz : SizeOk d w h) (hrs : ∀ w h, Op.resize w h ∈ ops → SizeOk d w h)
    (hlines : ∀ v, Op.render v ∈ ops → ∀ l ∈ splitLines v, GoodLine d l)
    (hsafe : Safe d.tw { width := w, height := h } ops)
    (hroom : ∀ v, Op.render v ∈ ops → t0.row + (splitLines v).length ≤ t0.top + d.H) :
    (trun d.tw d ({ width := w, height := h }, t0) ops).2.top = t0.top := by
  have hgood : ∀ n, n ≤ ops.length → _ := fun n _ =>
    expected_good d (ops.take n) { width := w, height := h } hsz ⟨rfl, fun l hl => (by simp at hl), Nat.zero_le _⟩
      (fun w h hm => hrs w h (List.mem_of_mem_take hm)) (fun v hm => hlines v (List.mem_of_mem_take hm))
  have hlen : ∀ (os : List Op) (s : Spec), (∀ v, Op.render v ∈ os → t0.row + (splitLines v).length ≤ t0.top + d.H) →
      t0.row + s.prev.length ≤ t0.top + d.H → t0.row + (expected d.tw s os).prev.length ≤ t0.top + d.H := by
    intro os
    induction os with
    | nil => intro s _ h; exact h
    | cons o os ih =>
      intro s hv h
      refine ih (s.step d.tw o) (fun v hm => hv v (List.mem_cons_of_mem _ hm)) ?_
      cases o with
      | render v =>
        have := hv v (List.mem_cons_self ..)
        have h2 : (frame s.height v).length ≤ (splitLines v).length := by
          unfold frame; simp only; split
          · rw [List.length_drop]; omega
          · omega
        show t0.row + (frame s.height v).length ≤ _
        omega
      | _ => exact h
  have inv := screen_general d.tw d hW h0 (Nat.le_refl _) h0.top w h ops hsafe (by
    intro n hn
    obtain ⟨g1, g2, g3⟩ := hgood n hn
    rw [g1]
    refine ⟨fun l hl => ?_, ?_⟩
    · obtain ⟨cells, k, hp, hk⟩ := g2 l hl
      exact ⟨_, cells, k, hp, Nat.le_of_lt hk, rfl⟩
    · apply hlen
      · exact fun v hm => hroom v (List.mem_of_mem_take hm)
      · show t0.row + 0 ≤ _; have := h0.bottom; omega)
  have a := inv.top
  have b := inv.top0
  omega

/-! ### A concrete terminal: 5 columns, 3 rows, the pen is "styled or not" -/

def demo : Dev Bool where
  W := 5
  H := 3
  tw := fun c => if c.toNat < 0x300 then 1 else if c.toNat < 0x370 then 0 else 2
  p0 := false
  sgr := fun _ s => decide (s ≠ [] ∧ s ≠ ['0'])
  osc := fun p _ => p

/-- The cursor on the last row of the screen, row 2, below two rows full of `$`. -/
def demo0 : TT Bool where
  rows := fun i _ => if i < 2 then ⟨['$'], false, false⟩ else Cell.blank false
  row := 2
  col := 0
  top := 0
  pend := false
  pen := false
  ps := .normal

theorem demo_ready : Ready demo demo0 :=
  ⟨rfl, rfl, rfl, rfl, by decide, by decide, fun i hi j => by
    show (if i < 2 then _ else _) = _
    rw [if_neg (by have : (2 : Nat) ≤ i := hi; omega)]; rfl⟩

/-- A styled line with a wide and a combining character (4 columns). -/
def demoLine : Str := [ESC, '[', '1', 'm', Char.ofNat 0x4E2D, ESC, '[', 'm', 'e', Char.ofNat 0x301, 'x']

theorem demo_good : GoodLine demo demoLine := ⟨_, 4, rfl, by decide⟩

example : GoodLine demo [] := ⟨_, 0, rfl, by decide⟩
example : SizeOk demo 5 3 := by unfold SizeOk; exact ⟨Or.inr (by decide), by decide, by decide⟩

/-- The hypotheses of C170 are met by a history that scrolls. -/
example : ∀ v, Op.render v ∈ [Op.render (demoLine ++ '\n' :: 'a' :: []), Op.repaint, Op.render ['b']] →
    ∀ l ∈ splitLines v, GoodLine demo l := by
  intro v hv l hl
  have ha : GoodLine demo ['a'] := ⟨_, 1, rfl, by decide⟩
  have hb : GoodLine demo ['b'] := ⟨_, 1, rfl, by decide⟩
  simp only [List.mem_cons, Op.render.injEq, reduceCtorEq, List.not_mem_nil, or_false, false_or] at hv
  rcases hv with rfl | rfl
  · have : splitLines (demoLine ++ '\n' :: 'a' :: []) = [demoLine, ['a']] := by decide +kernel
    rw [this] at hl
    simp only [List.mem_cons, List.not_mem_nil, or_false] at hl
    rcases hl with rfl | rfl
    · exact demo_good
    · exact ha
  · have : splitLines ['b'] = [['b']] := by decide
    rw [this] at hl
    simp only [List.mem_cons, List.not_mem_nil, or_false] at hl
    rw [hl]; exact hb

/-! ## C171: the last column -/

/-- C171: a view of plain text, at least as wide as the terminal, fills all `W` columns of
its row with its first `W` characters. -/
def C171_statement : Prop :=
  ∀ (d : Dev Bool) (t0 : TT Bool) (s : Str), 0 < d.W → 0 < d.H → Ready d t0 → d.W ≤ s.length →
    (∀ c ∈ s, c ≠ ESC ∧ isCtl c = false ∧ d.tw c = 1) →
    ∀ j c, j < d.W → s[j]? = some c →
      (trun d.tw d ({ width := d.W, height := d.H }, t0) [.render s]).2.rows t0.row j = ⟨[c], d.p0, false⟩

/-- False: "abcde" on a terminal of 5 columns loses its "e". -/
theorem C171_last_column_refuted : ¬ C171_statement := by
  intro H
  have := H demo demo0 ['a', 'b', 'c', 'd', 'e'] (by decide) (by decide) demo_ready (by decide) (by decide) 4 'e'
    (by decide) rfl
  have := congrArg Cell.ch this
  revert this
  decide

theorem splitLines_plain (s : Str) (h : ∀ c ∈ s, isCtl c = false) : splitLines s = [s] := by
  induction s with
  | nil => rfl
  | cons c cs ih =>
    have hc : c ≠ '\n' := by intro e; have := h c (List.mem_cons_self ..); subst e; revert this; decide
    rw [splitLines, if_neg hc, ih (fun x hx => h x (List.mem_cons_of_mem _ hx))]

/-- C171, exactly what happens: such a row shows the first `W - 1` characters, and its last
column is blank. -/
theorem C171_last_column_partial (d : Dev Pen) (t0 : TT Pen) (s : Str) (hW : 0 < d.W) (hH : 0 < d.H)
    (h0 : Ready d t0) (hl : d.W ≤ s.length) (hs : ∀ c ∈ s, c ≠ ESC ∧ isCtl c = false ∧ d.tw c = 1) :
    ∀ j, j < d.W → ∃ c, s[j]? = some c ∧
      (trun d.tw d ({ width := d.W, height := d.H }, t0) [.render s]).2.rows t0.row j =
        if j + 1 < d.W then ⟨[c], d.p0, false⟩ else Cell.blank d.p0 := by
  intro j hj
  have hsp := splitLines_plain s (fun c hc => (hs c hc).2.1)
  have hfr : frame (d.H : Int) s = [s] := by
    unfold frame; simp only [hsp, List.length_cons, List.length_nil]
    rw [if_neg (by omega)]
  have hcut : truncateLine d.tw s (d.W : Int) = s.take d.W :=
    C17_plain d.tw s (fun c hc => ⟨(hs c hc).1, (hs c hc).2.2⟩) d.W hW
  have hsh : shown d.tw (d.W : Int) [s] = [s.take d.W] := by
    unfold shown
    simp only [List.map_cons, List.map_nil]
    rw [if_pos (by omega), hcut]
  obtain ⟨cells, hp, hc⟩ := paint_plain d (s.take d.W) (fun c hc => hs c (List.mem_of_mem_take hc))
  rw [List.length_take, Nat.min_eq_left hl] at hp
  have hrow : RowOf d (s.take d.W) (if d.W < d.W then cells else eraseFrom cells (d.W - 1) d.p0) :=
    ⟨cells, d.W, hp, Nat.le_refl _, rfl⟩
  have inv := screen_general d.tw d hW h0 h0.top (Nat.le_refl _) d.W d.H [.render s]
    ⟨⟨fun hlt => absurd hlt (Nat.not_lt_zero _), fun _ h => absurd rfl h⟩, trivial⟩ (by
    intro n hn
    have : n = 0 ∨ n = 1 := by simp only [List.length_cons, List.length_nil] at hn; omega
    rcases this with rfl | rfl
    · exact ⟨fun l hl => (by simp [expected] at hl), by show t0.row + 0 ≤ _; omega⟩
    · show FitsOne d t0.row t0.row (shown d.tw (d.W : Int) (frame (d.H : Int) s))
      rw [hfr, hsh]
      exact ⟨fun l hl => ⟨_, List.mem_singleton.1 hl ▸ hrow⟩, by simp only [List.length_cons, List.length_nil]; omega⟩)
  have hd : (expected d.tw { width := d.W, height := d.H } [.render s]).disp = [s.take d.W] := by
    show shown d.tw (d.W : Int) (frame (d.H : Int) s) = _
    rw [hfr, hsh]
  obtain ⟨cells', k, hp', hk, hr⟩ := inv.cells 0 (s.take d.W) (by rw [hd]; rfl)
  have hu := hp.symm.trans hp'
  simp only [Option.some.injEq, Ln.mk.injEq, and_true] at hu
  obtain ⟨hu1, hu2⟩ := hu
  rw [← hu1, ← hu2, if_neg (Nat.lt_irrefl _), Nat.add_zero] at hr
  rw [hr]
  refine ⟨s[j]'(by omega), List.getElem?_eq_getElem _, ?_⟩
  unfold eraseFrom
  by_cases hjl : j + 1 < d.W
  · rw [if_pos hjl, if_neg (by omega)]
    have hcont : (cells (d.W - 1)).cont = false := by
      rw [hc]; split <;> rfl
    rw [hcont, if_neg (by simp), hc, List.getElem?_take_of_lt hj, List.getElem?_eq_getElem (by omega)]
  · rw [if_neg hjl, if_pos (by omega)]

/-- C171, histories: for lines of any style and width up to the terminal's (after the
renderer's own truncation), each row shows its line as it looks on its own, except that a
line as wide as the terminal has its last column erased (`RowOf`). -/
theorem C171_rows_partial (d : Dev Pen) (rw : Char → Nat) (hW : 0 < d.W) (t0 : TT Pen) (h0 : Ready d t0) (w h : Int)
    (ops : List Op) (hsafe : Safe rw { width := w, height := h } ops)
    (hf : ∀ n, n ≤ ops.length →
      (∀ l ∈ (expected rw { width := w, height := h } (ops.take n)).disp, ∃ cells k, Paint d l cells k ∧ k ≤ d.W) ∧
      (expected rw { width := w, height := h } (ops.take n)).disp.length ≤ d.H) :
    let t := (trun rw d ({ width := w, height := h }, t0) ops).2
    let disp := (expected rw { width := w, height := h } ops).disp
    (∀ i l, disp[i]? = some l → RowOf d l (t.rows (t0.row + i))) ∧
    (∀ i, i < t0.row → t.rows i = t0.rows i) ∧
    (∀ i, t0.row + disp.length ≤ i → ∀ j, t.rows i j = Cell.blank d.p0) ∧
    t.top ≤ t0.row ∧ t0.row + disp.length ≤ t.top + d.H := by
  intro t disp
  have inv := screen_general rw d hW h0 h0.top (Nat.le_refl _) w h ops hsafe (by
    intro n hn
    obtain ⟨a, b⟩ := hf n hn
    refine ⟨fun l hl => ?_, by omega⟩
    obtain ⟨cells, k, hp, hk⟩ := a l hl
    exact ⟨_, cells, k, hp, hk, rfl⟩)
  exact ⟨inv.cells, inv.above, inv.below, inv.top, inv.onscreen⟩

/-! ## C172: styles do not leak -/

/-- C172: if every line of a view closes its styles, each row shows its line in its own
styles, whatever the widths: every cell of a line without any styling has the default pen. -/
def C172_statement : Prop :=
  ∀ (d : Dev Bool) (t0 : TT Bool) (v : Str), 0 < d.W → 0 < d.H → Ready d t0 →
    (∀ l ∈ splitLines v, ∃ cells k, Paint d l cells k) → (splitLines v).length ≤ d.H →
    ∀ i l, (splitLines v)[i]? = some l → (∀ c ∈ l, c ≠ ESC) →
      ∀ j, ((trun d.tw d ({ width := d.W, height := d.H }, t0) [.render v]).2.rows (t0.row + i) j).pen = d.p0

/-- False: the reset at the end of a styled line is cut off when the line is too wide, and
the next line is drawn (and erased) in its style. -/
theorem C172_leak_refuted : ¬ C172_statement := by
  intro H
  have hsp : splitLines ([ESC, '[', '1', 'm', 'a', 'b', 'c', 'd', 'e', 'f', ESC, '[', '0', 'm'] ++ ['\n', 'x']) =
      [[ESC, '[', '1', 'm', 'a', 'b', 'c', 'd', 'e', 'f', ESC, '[', '0', 'm'], ['x']] := by decide +kernel
  have := H demo demo0 ([ESC, '[', '1', 'm', 'a', 'b', 'c', 'd', 'e', 'f', ESC, '[', '0', 'm'] ++ ['\n', 'x'])
    (by decide) (by decide) demo_ready (by
      rw [hsp]
      intro l hl
      simp only [List.mem_cons, List.not_mem_nil, or_false] at hl
      rcases hl with rfl | rfl
      · exact ⟨_, 6, rfl⟩
      · exact ⟨_, 1, rfl⟩) (by rw [hsp]; decide) 1 ['x'] (by rw [hsp]; rfl) (by decide) 0
  revert this
  decide +kernel

/-- C172, the part that holds: when no line is wider than the terminal, unstyled lines are
drawn in the default pen. -/
theorem C172_no_leak_partial (d : Dev Pen) (t0 : TT Pen) (v : Str) (hW : 0 < d.W) (hH : 0 < d.H) (h0 : Ready d t0)
    (hl : ∀ l ∈ splitLines v, ∃ cells k, Paint d l cells k ∧ k ≤ d.W) (hn : (splitLines v).length ≤ d.H)
    (i : Nat) (l : Str) (hi : (splitLines v)[i]? = some l) (hplain : ∀ c ∈ l, c ≠ ESC) (j : Nat) :
    ((trun d.tw d ({ width := d.W, height := d.H }, t0) [.render v]).2.rows (t0.row + i) j).pen = d.p0 := by
  have hfr : frame (d.H : Int) v = splitLines v := by
    unfold frame; simp only; rw [if_neg (by omega)]
  have hsh : shown d.tw (d.W : Int) (splitLines v) = splitLines v := by
    unfold shown
    conv => rhs; rw [← List.map_id (splitLines v)]
    apply List.map_congr_left
    intro l hm
    obtain ⟨cells, k, hp, hk⟩ := hl l hm
    split
    · exact C17_fits d.tw l d.W (Or.inr (by rw [paint_width d hp]; omega))
    · rfl
  have hd : (expected d.tw { width := d.W, height := d.H } [.render v]).disp = splitLines v := by
    show shown d.tw (d.W : Int) (frame (d.H : Int) v) = _
    rw [hfr, hsh]
  obtain ⟨hrow, _⟩ := C171_rows_partial d d.tw hW t0 h0 d.W d.H [.render v]
    ⟨⟨fun hlt => absurd hlt (Nat.not_lt_zero _), fun _ h => absurd rfl h⟩, trivial⟩ (by
    intro n hn
    have : n = 0 ∨ n = 1 := by simp only [List.length_cons, List.length_nil] at hn; omega
    rcases this with rfl | rfl
    · exact ⟨fun l hl => (by simp [expected] at hl), Nat.zero_le _⟩
    · rw [show List.take 1 [Op.render v] = [Op.render v] from rfl, hd]
      exact ⟨hl, by assumption⟩)
  obtain ⟨cells, k, hp, hk, hr⟩ := hrow i l (by rw [hd]; exact hi)
  -- an unstyled line never changes the pen
  have hpen : ∀ (s : Str) (a b : Ln Pen), (∀ c ∈ s, c ≠ ESC) → a.ps = .normal → a.pen = d.p0 →
      (∀ j, (a.cells j).pen = d.p0) → a.run d s = some b → ∀ j, (b.cells j).pen = d.p0 := by
    intro s
    induction s with
    | nil => intro a b _ _ _ h hr; simp only [Ln.run, Option.some.injEq] at hr; rw [← hr]; exact h
    | cons c cs ih =>
      intro a b hne hps hpn h hr
      rw [Ln.run] at hr
      cases hst : a.step d c with
      | none => rw [hst] at hr; cases hr
      | some m =>
        rw [hst] at hr
        have hc := hne c (List.mem_cons_self ..)
        unfold Ln.step at hst
        rw [hps] at hst
        simp only at hst
        rw [if_neg hc] at hst
        split at hst
        · cases hst
        split at hst
        · split at hst
          · cases hst
          · simp only [Option.some.injEq] at hst
            refine ih m b (fun x hx => hne x (List.mem_cons_of_mem _ hx)) (by rw [← hst]) (by rw [← hst]; exact hpn) ?_ hr
            intro j
            rw [← hst]
            show (attach a.cells a.col c j).pen = _
            unfold attach
            simp only
            split <;> split <;> exact h j
        · simp only [Option.some.injEq] at hst
          refine ih m b (fun x hx => hne x (List.mem_cons_of_mem _ hx)) (by rw [← hst]) (by rw [← hst]; exact hpn) ?_ hr
          intro j
          rw [← hst]
          show (place a.cells a.col (d.tw c) c a.pen j).pen = _
          unfold place
          (repeat' split) <;> first | exact hpn | exact h _
  have hcells : ∀ j, (cells j).pen = d.p0 := hpen l _ _ hplain rfl rfl (fun _ => rfl) hp
  rw [hr]
  split
  · exact hcells j
  · unfold eraseFrom
    (repeat' split) <;> first | rfl | exact hcells j

example : ∀ l ∈ splitLines (demoLine ++ ['\n', 'x']), ∃ cells k, Paint demo l cells k ∧ k ≤ demo.W := by
  have : splitLines (demoLine ++ ['\n', 'x']) = [demoLine, ['x']] := by decide +kernel
  rw [this]
  intro l hl
  simp only [List.mem_cons, List.not_mem_nil, or_false] at hl
  rcases hl with rfl | rfl
  · exact ⟨_, 4, rfl, by decide⟩
  · exact ⟨_, 1, rfl, by decide⟩

end Phoenix.Inline
