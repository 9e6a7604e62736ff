import Verif.Tea.InlineModel
/-
Theorems about the inline renderer: C16, C17, C85.
-/
set_option linter.unusedVariables false
set_option linter.unusedSimpArgs false
namespace Phoenix.Inline

/-! ## C17: truncation -/

/-- Scanner state after reading `s`. -/
def scanAll (st : Scan) (s : Str) : Scan := s.foldl (fun st c => (scan st c).1) st

/-- Columns of `s` when read from state `st`. -/
def wid (rw : Char → Nat) (st : Scan) (s : Str) : Nat := ((stripFrom st s).map rw).sum

theorem wid_cons (rw : Char → Nat) (st : Scan) (c : Char) (cs : Str) :
    wid rw st (c :: cs) = (if (scan st c).2 then rw c else 0) + wid rw (scan st c).1 cs := by
  unfold wid
  rw [stripFrom]
  split <;> simp

theorem trunc_spec (rw : Char → Nat) (m : Nat) : ∀ (s : Str) (st : Scan) (w : Nat), w ≤ m →
    ∃ rest, s = truncFrom rw m st w s ++ rest ∧ w + wid rw st (truncFrom rw m st w s) ≤ m ∧
      (rest = [] ∨ ∃ c cs, rest = c :: cs ∧ (scan (scanAll st (truncFrom rw m st w s)) c).2 = true ∧
        w + wid rw st (truncFrom rw m st w s) + rw c > m) := by
  intro s
  induction s with
  | nil => intro st w h; exact ⟨[], rfl, by simpa [truncFrom, wid, stripFrom] using h, Or.inl rfl⟩
  | cons c cs ih =>
    intro st w h
    rw [truncFrom]
    by_cases hv : (scan st c).2 = true
    · rw [if_pos hv]
      by_cases hw : w + rw c > m
      · rw [if_pos hw]
        refine ⟨c :: cs, rfl, by simpa [wid, stripFrom] using h, Or.inr ⟨c, cs, rfl, hv, ?_⟩⟩
        simpa [wid, stripFrom] using hw
      · rw [if_neg hw]
        obtain ⟨rest, e1, e2, e3⟩ := ih (scan st c).1 (w + rw c) (by omega)
        refine ⟨rest, by rw [List.cons_append, ← e1], ?_, ?_⟩
        · rw [wid_cons, if_pos hv]; omega
        · rcases e3 with e3 | ⟨d, ds, e4, e5, e6⟩
          · exact Or.inl e3
          · refine Or.inr ⟨d, ds, e4, e5, ?_⟩
            rw [wid_cons, if_pos hv]; omega
    · rw [if_neg hv]
      obtain ⟨rest, e1, e2, e3⟩ := ih (scan st c).1 w h
      refine ⟨rest, by rw [List.cons_append, ← e1], ?_, ?_⟩
      · rw [wid_cons, if_neg hv]; omega
      · rcases e3 with e3 | ⟨d, ds, e4, e5, e6⟩
        · exact Or.inl e3
        · refine Or.inr ⟨d, ds, e4, e5, ?_⟩
          rw [wid_cons, if_neg hv]; omega

/-- C17.  For every text and width > 0 (and whatever the widths of single characters):
the result is a prefix of the line, at most `width` columns wide, and the cut is either at
the end of the line or just before a character that is text (so no escape sequence is
split) and would not have fit (so no text is dropped needlessly). -/
theorem C17_truncate (rw : Char → Nat) (s : Str) (w : Nat) (hw : 0 < w) :
    ∃ rest, s = truncateLine rw s w ++ rest ∧ visualWidth rw (truncateLine rw s w) ≤ w ∧
      (rest = [] ∨ ∃ c cs, rest = c :: cs ∧
        stripANSI (truncateLine rw s w ++ [c]) = stripANSI (truncateLine rw s w) ++ [c] ∧
        visualWidth rw (truncateLine rw s w) + rw c > w) := by
  have strip_snoc : ∀ (l : Str) (st : Scan) (c : Char), (scan (scanAll st l) c).2 = true →
      stripFrom st (l ++ [c]) = stripFrom st l ++ [c] := by
    intro l
    induction l with
    | nil => intro st c h; simp [stripFrom, scanAll] at h ⊢; simp [h]
    | cons d ds ih =>
      intro st c h
      have := ih (scan st d).1 c h
      rw [List.cons_append, stripFrom, this, stripFrom]
      split <;> rfl
  unfold truncateLine
  by_cases h : (w : Int) ≤ 0 ∨ (visualWidth rw s : Int) ≤ w
  · rw [if_pos h]
    exact ⟨[], by simp, by omega, Or.inl rfl⟩
  · rw [if_neg h, Int.toNat_natCast]
    obtain ⟨rest, e1, e2, e3⟩ := trunc_spec rw w s .normal 0 (by omega)
    refine ⟨rest, e1, by simpa [visualWidth, stripANSI, wid] using e2, ?_⟩
    rcases e3 with e3 | ⟨c, cs, e4, e5, e6⟩
    · exact Or.inl e3
    · refine Or.inr ⟨c, cs, e4, strip_snoc _ _ _ e5, by simpa [visualWidth, stripANSI, wid] using e6⟩

/-- C17.  A line that fits is returned unchanged, and so is every line when truncation is
off (width ≤ 0). -/
theorem C17_fits (rw : Char → Nat) (s : Str) (w : Int) (h : w ≤ 0 ∨ (visualWidth rw s : Int) ≤ w) :
    truncateLine rw s w = s := by
  unfold truncateLine; rw [if_pos h]

/-- C17.  Text without escapes and of one-column characters is cut to its first `w`
characters. -/
theorem C17_plain (rw : Char → Nat) (s : Str) (h : ∀ c ∈ s, c ≠ ESC ∧ rw c = 1) (w : Nat) (hw : 0 < w) :
    truncateLine rw s w = s.take w := by
  have strip : ∀ l : Str, (∀ c ∈ l, c ≠ ESC) → stripFrom .normal l = l := by
    intro l
    induction l with
    | nil => intro _; rfl
    | cons c cs ih =>
      intro h
      have hc := h c (List.mem_cons_self ..)
      rw [stripFrom]
      simp only [scan, if_neg hc, if_true]
      rw [ih (fun d hd => h d (List.mem_cons_of_mem _ hd))]
  have tr : ∀ (l : Str) (k : Nat), (∀ c ∈ l, c ≠ ESC ∧ rw c = 1) → k ≤ w →
      truncFrom rw w .normal k l = l.take (w - k) := by
    intro l
    induction l with
    | nil => intro k _ _; simp [truncFrom]
    | cons c cs ih =>
      intro k h hk
      obtain ⟨hc, h1⟩ := h c (List.mem_cons_self ..)
      have ih := ih (k + 1) (fun d hd => h d (List.mem_cons_of_mem _ hd))
      rw [truncFrom]
      simp only [scan, if_neg hc, if_true, h1]
      by_cases hw' : k + 1 > w
      · rw [if_pos hw', show w - k = 0 by omega]; rfl
      · rw [if_neg hw', ih (by omega), show w - k = (w - (k + 1)) + 1 by omega]; rfl
  unfold truncateLine
  split
  · rename_i hf
    have hl : visualWidth rw s = s.length := by
      unfold visualWidth stripANSI
      rw [strip s (fun c hc => (h c hc).1)]
      clear hf
      induction s with
      | nil => rfl
      | cons c cs ih =>
        rw [List.map_cons, List.sum_cons, (h c (List.mem_cons_self ..)).2,
          ih (fun d hd => h d (List.mem_cons_of_mem _ hd)), List.length_cons]
        omega
    rw [List.take_of_length_le (by omega)]
  · rw [Int.toNat_natCast, tr s 0 h (by omega), Nat.sub_zero]

example : truncateLine (fun _ => 1) (ESC :: "[31mhello".toList) 2 = ESC :: "[31mhe".toList := by decide

/-! ## C16: the screen shows exactly the last view -/

theorem feed_append (t : Term) (a b : List Out) : t.feed (a ++ b) = (t.feed a).feed b := by
  simp [Term.feed]

/-- Writing a run of text. -/
theorem feed_text (l : Str) : ∀ t : Term, (t.feed (l.map Out.text)).row = t.row ∧
    (t.feed (l.map Out.text)).col = t.col + l.length ∧
    ∀ i j, (t.feed (l.map Out.text)).cell i j =
      if i = t.row ∧ t.col ≤ j ∧ j < t.col + l.length then (l[j - t.col]?).getD ' ' else t.cell i j := by
  induction l with
  | nil =>
    intro t
    refine ⟨rfl, rfl, fun i j => ?_⟩
    rw [if_neg (by simp only [List.length_nil]; omega)]
    rfl
  | cons c cs ih =>
    intro t
    obtain ⟨h1, h2, h3⟩ := ih (t.step (.text c))
    have e : t.feed ((c :: cs).map Out.text) = (t.step (.text c)).feed (cs.map Out.text) := rfl
    rw [e, h1, h2]
    have er : (t.step (.text c)).row = t.row := rfl
    have ec : (t.step (.text c)).col = t.col + 1 := rfl
    have ecell : ∀ i j, (t.step (.text c)).cell i j = if i = t.row ∧ j = t.col then c else t.cell i j :=
      fun _ _ => rfl
    refine ⟨er, by rw [ec, List.length_cons]; omega, fun i j => ?_⟩
    rw [h3, er, ec, ecell, List.length_cons]
    by_cases hi : i = t.row
    · by_cases h1 : j = t.col
      · subst h1
        have n1 : ¬ (i = t.row ∧ t.col + 1 ≤ t.col ∧ t.col < t.col + 1 + cs.length) := by omega
        have n2 : i = t.row ∧ t.col ≤ t.col ∧ t.col < t.col + (cs.length + 1) := by omega
        rw [if_neg n1, if_pos ⟨hi, rfl⟩, if_pos n2]
        simp
      · by_cases h2 : t.col + 1 ≤ j ∧ j < t.col + 1 + cs.length
        · have n2 : i = t.row ∧ t.col ≤ j ∧ j < t.col + (cs.length + 1) := by omega
          rw [if_pos ⟨hi, h2.1, h2.2⟩, if_pos n2,
            show j - t.col = (j - (t.col + 1)) + 1 by omega, List.getElem?_cons_succ]
        · have n1 : ¬ (i = t.row ∧ t.col + 1 ≤ j ∧ j < t.col + 1 + cs.length) := by omega
          have n2 : ¬ (i = t.row ∧ j = t.col) := by omega
          have n3 : ¬ (i = t.row ∧ t.col ≤ j ∧ j < t.col + (cs.length + 1)) := by omega
          rw [if_neg n1, if_neg n2, if_neg n3]
    · rw [if_neg (fun h => hi h.1), if_neg (fun h => hi h.1), if_neg (fun h => hi h.1)]

/-- Writing a whole line from column 0 and erasing to the right replaces the row. -/
theorem feed_line (l : Str) (t : Term) (hc : t.col = 0) :
    (t.feed (l.map Out.text ++ [Out.el])).row = t.row ∧
    (t.feed (l.map Out.text ++ [Out.el])).col = l.length ∧
    ∀ i j, (t.feed (l.map Out.text ++ [Out.el])).cell i j =
      if i = t.row then (l[j]?).getD ' ' else t.cell i j := by
  obtain ⟨h1, h2, h3⟩ := feed_text l t
  rw [feed_append]
  generalize t.feed (l.map Out.text) = u at h1 h2 h3
  have e : u.feed [Out.el] = u.step .el := rfl
  rw [e]
  have ecell : ∀ i j, (u.step .el).cell i j = if i = u.row ∧ j ≥ u.col then ' ' else u.cell i j := fun _ _ => rfl
  refine ⟨h1, by show u.col = _; rw [h2, hc, Nat.zero_add], fun i j => ?_⟩
  rw [ecell, h3, h1, h2, hc, Nat.zero_add, Nat.sub_zero]
  by_cases hi : i = t.row
  · rw [if_pos hi]
    by_cases hj : j ≥ l.length
    · rw [if_pos ⟨hi, hj⟩, List.getElem?_eq_none hj]; rfl
    · rw [if_neg (fun h => hj h.2), if_pos ⟨hi, Nat.zero_le _, by omega⟩]
  · rw [if_neg (fun h => hi h.1), if_neg (fun h => hi h.1), if_neg hi]

/-- What the lines loop does to the screen: rows `t.row ..` get the new lines, whether
written or skipped; the cursor ends on the last of these rows, in column 0 if that row was
skipped. -/
theorem feed_emit (rw : Char → Nat) (r : R) : ∀ (new old : List Str) (t : Term), new ≠ [] → t.col = 0 →
    (∀ k l, old[k]? = some l → ∀ j, t.cell (t.row + k) j = ((r.cut rw l)[j]?).getD ' ') →
    (∀ i j, (t.feed (r.emit rw new old)).cell i j =
        if t.row ≤ i ∧ i < t.row + new.length then
            ((r.cut rw (new[i - t.row]?.getD []))[j]?).getD ' ' else t.cell i j) ∧
    (t.feed (r.emit rw new old)).row = t.row + new.length - 1 ∧
    (old[new.length - 1]? = new.getLast? → (t.feed (r.emit rw new old)).col = 0) ∧
    (old[new.length - 1]? ≠ new.getLast? →
      (t.feed (r.emit rw new old)).col = (r.cut rw (new.getLast?.getD [])).length) := by
  intro new
  induction new with
  | nil => intro old t h; exact absurd rfl h
  | cons line rest ih =>
    intro old t _ hc hold
    -- the row of `line`
    have hrow : ∃ u, t.feed (if old.head? = some line then [] else (r.cut rw line).map Out.text ++ [Out.el]) = u ∧
        (∀ i j, u.cell i j = if i = t.row then ((r.cut rw line)[j]?).getD ' ' else t.cell i j) ∧ u.row = t.row ∧
        (old.head? = some line → u.col = 0) ∧ (old.head? ≠ some line → u.col = (r.cut rw line).length) := by
      by_cases hh : old.head? = some line
      · refine ⟨t, by rw [if_pos hh]; rfl, fun i j => ?_, rfl, fun _ => hc, fun h => absurd hh h⟩
        have h0 : old[0]? = some line := by rw [← List.head?_eq_getElem?]; exact hh
        have := hold 0 line h0 j
        by_cases hi : i = t.row
        · rw [if_pos hi, hi]; exact this
        · rw [if_neg hi]
      · obtain ⟨l1, l2, l3⟩ := feed_line (r.cut rw line) t hc
        exact ⟨_, by rw [if_neg hh], l3, l1, fun h => absurd h hh, fun _ => l2⟩
    obtain ⟨u, hf, hu, hur, hc1, hc2⟩ := hrow
    have hemit : t.feed (r.emit rw (line :: rest) old) =
        (u.feed (if rest = [] then [] else [Out.crlf])).feed (r.emit rw rest old.tail) := by
      rw [R.emit]
      rw [feed_append, feed_append, hf]
    rw [hemit]
    by_cases hr : rest = []
    · subst hr
      rw [if_pos rfl]
      have e : (u.feed []).feed (r.emit rw [] old.tail) = u := rfl
      rw [e]
      refine ⟨fun i j => ?_, by rw [hur]; simp, ?_, ?_⟩
      · rw [hu]
        by_cases hi : i = t.row
        · have : t.row ≤ i ∧ i < t.row + [line].length := by simp only [List.length_cons, List.length_nil]; omega
          rw [if_pos hi, if_pos this, hi]; simp
        · have : ¬ (t.row ≤ i ∧ i < t.row + [line].length) := by
            simp only [List.length_cons, List.length_nil]; omega
          rw [if_neg hi, if_neg this]
      · intro h; apply hc1; rw [List.head?_eq_getElem?]; simpa using h
      · intro h
        have : old.head? ≠ some line := by rw [List.head?_eq_getElem?]; simpa using h
        simpa using hc2 this
    · have hl := List.length_pos_iff.2 hr
      rw [if_neg hr]
      have ev : u.feed [Out.crlf] = u.step .crlf := rfl
      rw [ev]
      generalize hv : u.step .crlf = v
      have v1 : v.row = t.row + 1 := by rw [← hv, ← hur]; rfl
      have v2 : v.col = 0 := by rw [← hv]; rfl
      have v3 : ∀ i j, v.cell i j = if i = t.row then ((r.cut rw line)[j]?).getD ' ' else t.cell i j := by
        intro i j; rw [← hv]; exact hu i j
      obtain ⟨e1, e2, e3, e4⟩ := ih old.tail v hr v2 (by
          intro k l hk j
          rw [v3, if_neg (by omega)]
          rw [List.getElem?_tail] at hk
          have := hold (k + 1) l hk j
          rw [← this]
          congr 1
          omega)
      refine ⟨fun i j => ?_, ?_, ?_, ?_⟩
      · rw [e1, v1, v3, List.length_cons]
        by_cases h1 : t.row + 1 ≤ i ∧ i < t.row + 1 + rest.length
        · have h1' : t.row ≤ i ∧ i < t.row + (rest.length + 1) := by omega
          rw [if_pos h1, if_pos h1', show i - t.row = (i - (t.row + 1)) + 1 by omega,
            List.getElem?_cons_succ]
        · rw [if_neg h1]
          by_cases h2 : i = t.row
          · have h2' : t.row ≤ i ∧ i < t.row + (rest.length + 1) := by omega
            rw [if_pos h2, if_pos h2', h2]; simp
          · have h2' : ¬ (t.row ≤ i ∧ i < t.row + (rest.length + 1)) := by omega
            rw [if_neg h2, if_neg h2']
      · rw [e2, v1, List.length_cons]; omega
      · intro h
        apply e3
        rw [List.getElem?_tail, show rest.length - 1 + 1 = (line :: rest).length - 1 by simp; omega, h]
        exact List.getLast?_cons_of_ne_nil hr
      · intro h
        have : old.tail[rest.length - 1]? ≠ rest.getLast? := by
          rw [List.getElem?_tail, show rest.length - 1 + 1 = (line :: rest).length - 1 by simp; omega]
          rw [List.getLast?_cons_of_ne_nil hr] at h
          exact h
        rw [e4 this, List.getLast?_cons_of_ne_nil hr]

/-- Calls on the renderer; `renderFail v` is a Render whose writer failed at once. -/
inductive Op where
  | render (v : Str) | renderFail (v : Str) | repaint | resize (w h : Int)

/-- Renderer and terminal together. -/
def step (rw : Char → Nat) (s : R × Term) : Op → R × Term
  | .render v => ((s.1.render rw v).1, s.2.feed (s.1.render rw v).2)
  | .renderFail v => ((s.1.renderFail rw v 0).1, s.2.feed (s.1.renderFail rw v 0).2)
  | .repaint => (s.1.repaint, s.2)
  | .resize w h => (s.1.resize w h, s.2)

def run (rw : Char → Nat) (s : R × Term) (ops : List Op) : R × Term := ops.foldl (step rw) s

/-- Specification of a history: the current terminal size, the lines of the last frame,
whether the size changed or a repaint was asked since, and what must be on the screen. -/
structure Spec where
  width : Int := 0
  height : Int := 0
  prev : List Str := []
  stale : Bool := true
  disp : List Str := []

/-- The last `height` lines of a view (all of them if there is no limit), each cut to the
width. -/
def shown (rw : Char → Nat) (width : Int) (ls : List Str) : List Str :=
  ls.map fun l => if width > 0 then truncateLine rw l width else l

def Spec.step (rw : Char → Nat) (s : Spec) : Op → Spec
  | .render v => { s with prev := frame s.height v, stale := false, disp := shown rw s.width (frame s.height v) }
  | .renderFail _ => s
  | .repaint => { s with stale := true }
  | .resize w h => { s with width := w, height := h, stale := true }

def expected (rw : Char → Nat) (s : Spec) (ops : List Op) : Spec := ops.foldl (Spec.step rw) s

/-- The histories for which the claim holds: (1) a frame with fewer lines than the previous
one does not end with the line that stood there already (unless a repaint is due), and
(2) the empty view is not rendered when a repaint is due. -/
def Safe (rw : Char → Nat) : Spec → List Op → Prop
  | _, [] => True
  | s, o :: os => (match o with
      | .render v =>
        ((frame s.height v).length < s.prev.length → s.stale = false →
          s.prev[(frame s.height v).length - 1]? ≠ (frame s.height v).getLast?) ∧
        (s.stale = true → s.prev ≠ [] → v ≠ [])
      | _ => True) ∧ Safe rw (s.step rw o) os

theorem splitLines_ne (v : Str) : splitLines v ≠ [] := by
  cases v with
  | nil => simp [splitLines]
  | cons c cs =>
    rw [splitLines]
    split
    · simp
    · split <;> simp

theorem frame_ne (h : Int) (v : Str) : frame h v ≠ [] := by
  unfold frame
  simp only
  have := List.length_pos_iff.2 (splitLines_ne v)
  split
  · rename_i hh
    intro e
    have := congrArg List.length e
    rw [List.length_drop, List.length_nil] at this
    omega
  · exact splitLines_ne v

structure Inv (rw : Char → Nat) (r : R) (t : Term) (s : Spec) : Prop where
  width : r.width = s.width
  height : r.height = s.height
  count : r.linesRendered = s.disp.length
  len : s.prev.length = s.disp.length
  fresh : s.stale = false → r.lastLines = s.prev ∧ s.disp = shown rw s.width s.prev ∧
    s.prev = frame s.height r.lastView
  old : s.stale = true → r.lastLines = [] ∧ r.lastView = []
  col : t.col = 0
  row : t.row = s.disp.length - 1
  cells : Shows t s.disp

theorem shown_get (rw : Char → Nat) (r : R) (ls : List Str) (i : Nat) :
    (shown rw r.width ls)[i]? = (ls[i]?).map (r.cut rw) := by
  unfold shown R.cut
  rw [List.getElem?_map]

theorem render_inv (rw : Char → Nat) {r : R} {t : Term} {s : Spec} (h : Inv rw r t s) (v : Str)
    (hs : Safe rw s [.render v]) :
    Inv rw (step rw (r, t) (.render v)).1 (step rw (r, t) (.render v)).2 (s.step rw (.render v)) := by
  obtain ⟨⟨s1, s2⟩, _⟩ := hs
  by_cases hskip : v = r.lastView ∧ r.linesRendered > 0
  · have e : step rw (r, t) (.render v) = (r, t) := by
      show ((r.render rw v).1, t.feed (r.render rw v).2) = (r, t)
      unfold R.render
      rw [if_pos hskip]; rfl
    rw [e]
    have hst : s.stale = false := by
      cases hst : s.stale with
      | false => rfl
      | true =>
        exfalso
        apply s2 hst
        · intro e
          have := h.len
          rw [e] at this
          have := h.count
          simp only [List.length_nil] at *
          omega
        · rw [hskip.1, (h.old hst).2]
    obtain ⟨f1, f2, f3⟩ := h.fresh hst
    have hfr : frame s.height v = s.prev := by rw [hskip.1, ← f3]
    have hstep : s.step rw (.render v) = { s with stale := false } := by
      show ({ s with prev := frame s.height v, stale := false, disp := shown rw s.width (frame s.height v) } : Spec) = _
      rw [hfr, ← f2]
    rw [hstep]
    exact ⟨h.width, h.height, h.count, h.len, fun _ => h.fresh hst, fun h => (by cases h), h.col, h.row, h.cells⟩
  · have e1 : (step rw (r, t) (.render v)).1 =
        { r with linesRendered := (frame r.height v).length, lastView := v, lastLines := frame r.height v } := by
      show (r.render rw v).1 = _
      unfold R.render
      rw [if_neg hskip]
    have e2 : (step rw (r, t) (.render v)).2 = t.feed (r.output rw v) := by
      show t.feed (r.render rw v).2 = _
      unfold R.render
      rw [if_neg hskip]
    rw [e1, e2]
    have hH := h.height
    have hW := h.width
    have hne := frame_ne r.height v
    have hn := List.length_pos_iff.2 hne
    have hsp : s.step rw (.render v) =
        { s with prev := frame r.height v, stale := false, disp := shown rw r.width (frame r.height v) } := by
      rw [hH, hW]; rfl
    have hsl : (shown rw r.width (frame r.height v)).length = (frame r.height v).length := by
      unfold shown; rw [List.length_map]
    rw [hsp]
    rw [← hH] at s1
    -- move to the top
    have hout : t.feed (r.output rw v) =
        (((t.feed ((if r.linesRendered > 1 then [Out.up (r.linesRendered - 1)] else []) ++ [Out.cr])).feed
          (r.emit rw (frame r.height v) r.lastLines)).feed
          (if r.linesRendered > (frame r.height v).length then [Out.ed] else [])).feed [Out.cr] := by
      unfold R.output
      simp only [feed_append]
    rw [hout]
    generalize htop : t.feed ((if r.linesRendered > 1 then [Out.up (r.linesRendered - 1)] else []) ++ [Out.cr]) = u
    have hu : u.row = 0 ∧ u.col = 0 ∧ ∀ i j, u.cell i j = t.cell i j := by
      have hr := h.row
      rw [← h.count] at hr
      rw [← htop]
      by_cases h1 : r.linesRendered > 1
      · rw [if_pos h1]
        refine ⟨?_, rfl, fun _ _ => rfl⟩
        show t.row - (r.linesRendered - 1) = 0
        omega
      · rw [if_neg h1]
        refine ⟨?_, rfl, fun _ _ => rfl⟩
        show t.row = 0
        omega
    obtain ⟨u1, u2, u3⟩ := hu
    have hcells := h.cells
    obtain ⟨c1, c2, c3, c4⟩ := feed_emit rw r (frame r.height v) r.lastLines u hne u2 (by
      intro k l hk j
      rw [u1, Nat.zero_add, u3, hcells]
      cases hst : s.stale with
      | true => rw [(h.old hst).1] at hk; simp at hk
      | false =>
        obtain ⟨f1, f2, f3⟩ := h.fresh hst
        rw [f1] at hk
        rw [f2, ← hW, shown_get, hk]
        rfl)
    rw [u1, Nat.zero_add] at c2
    simp only [u1, Nat.zero_add, Nat.zero_le, true_and, Nat.sub_zero] at c1
    generalize u.feed (r.emit rw (frame r.height v) r.lastLines) = x at c1 c2 c3 c4
    have hx : ∀ i j, x.cell i j = if i < (frame r.height v).length then
        ((r.cut rw ((frame r.height v)[i]?.getD []))[j]?).getD ' ' else (((s.disp[i]?).getD [])[j]?).getD ' ' := by
      intro i j; rw [c1, u3, hcells]
    have hgoal : ∀ i j : Nat, i < (frame r.height v).length →
        (((shown rw r.width (frame r.height v))[i]?.getD [])[j]?).getD ' ' =
        ((r.cut rw ((frame r.height v)[i]?.getD []))[j]?).getD ' ' := by
      intro i j hi
      rw [shown_get, List.getElem?_eq_getElem hi]
      rfl
    have hbeyond : ∀ i j : Nat, ¬ i < (frame r.height v).length →
        (((shown rw r.width (frame r.height v))[i]?.getD [])[j]?).getD ' ' = ' ' := by
      intro i j hi
      have : (shown rw r.width (frame r.height v))[i]? = none := List.getElem?_eq_none (by rw [hsl]; omega)
      rw [this]
      simp
    refine ⟨hW, hH, hsl.symm, hsl.symm, fun _ => ⟨rfl, by rw [hW], by rw [hH]⟩, fun hh => (by cases hh), rfl, ?_, ?_⟩
    · show (x.feed _).row = _
      have : ∀ b : Bool, (x.feed (if b then [Out.ed] else [])).row = x.row := by intro b; cases b <;> rfl
      have := this (decide (r.linesRendered > (frame r.height v).length))
      simp only [decide_eq_true_eq] at this
      rw [this, c2]
      show _ = (shown rw r.width (frame r.height v)).length - 1
      rw [hsl]
    · intro i j
      show (x.feed _).cell i j = (((shown rw r.width (frame r.height v))[i]?.getD [])[j]?).getD ' '
      by_cases hed : r.linesRendered > (frame r.height v).length
      · rw [if_pos hed]
        have hcol : x.col = (r.cut rw ((frame r.height v).getLast?.getD [])).length := by
          apply c4
          cases hst : s.stale with
          | true =>
            rw [(h.old hst).1, List.getElem?_nil]
            intro e
            exact hne (List.getLast?_eq_none_iff.1 e.symm)
          | false =>
            rw [(h.fresh hst).1]
            exact s1 (by rw [h.len, ← h.count]; exact hed) hst
        have e : (x.feed [Out.ed]).cell i j =
            if i > x.row ∨ (i = x.row ∧ j ≥ x.col) then ' ' else x.cell i j := rfl
        rw [e, c2, hcol]
        by_cases hi : i < (frame r.height v).length
        · rw [hgoal i j hi]
          by_cases hq : i > (frame r.height v).length - 1 ∨
              (i = (frame r.height v).length - 1 ∧ j ≥ (r.cut rw ((frame r.height v).getLast?.getD [])).length)
          · rw [if_pos hq]
            rcases hq with hq | ⟨hq1, hq2⟩
            · omega
            · rw [List.getLast?_eq_getElem?, ← hq1] at hq2
              rw [List.getElem?_eq_none hq2]
              rfl
          · rw [if_neg hq, hx, if_pos hi]
        · rw [if_pos (Or.inl (by omega)), hbeyond i j hi]
      · rw [if_neg hed]
        show x.cell i j = _
        rw [hx]
        by_cases hi : i < (frame r.height v).length
        · rw [if_pos hi, hgoal i j hi]
        · rw [if_neg hi, hbeyond i j hi]
          have := h.count
          have hz : s.disp[i]? = none := List.getElem?_eq_none (by omega)
          rw [hz]
          simp

theorem step_inv (rw : Char → Nat) {r : R} {t : Term} {s : Spec} (h : Inv rw r t s) (o : Op)
    (hs : Safe rw s [o]) : Inv rw (step rw (r, t) o).1 (step rw (r, t) o).2 (s.step rw o) := by
  cases o with
  | render v => exact render_inv rw h v hs
  | renderFail v =>
    have e : step rw (r, t) (.renderFail v) = (r, t) := by
      unfold step R.renderFail
      simp only
      split <;> rfl
    rw [e]; exact h
  | repaint =>
    exact ⟨h.width, h.height, h.count, h.len, fun hh => (by cases hh), fun _ => ⟨rfl, rfl⟩, h.col, h.row, h.cells⟩
  | resize w hh =>
    exact ⟨rfl, rfl, h.count, h.len, fun hh => (by cases hh), fun _ => ⟨rfl, rfl⟩, h.col, h.row, h.cells⟩

theorem init_inv (rw : Char → Nat) : Inv rw {} Term.blank {} := by
  refine ⟨rfl, rfl, rfl, rfl, fun hh => (by cases hh), fun _ => ⟨rfl, rfl⟩, rfl, rfl, ?_⟩
  intro i j
  simp [Term.blank]

theorem run_inv (rw : Char → Nat) (ops : List Op) : ∀ {r : R} {t : Term} {s : Spec}, Inv rw r t s →
    Safe rw s ops → Inv rw (run rw (r, t) ops).1 (run rw (r, t) ops).2 (expected rw s ops) := by
  induction ops with
  | nil => intro r t s h _; exact h
  | cons o os ih =>
    intro r t s h hs
    exact ih (step_inv rw h o ⟨hs.1, trivial⟩) hs.2

/-- C16, full claim: after any history the screen shows exactly the lines of the last view
(its last `height` lines, cut to the width) and nothing else. -/
def C16_statement : Prop :=
  ∀ (rw : Char → Nat) (ops : List Op),
    Shows (run rw ({}, Term.blank) ops).2 (expected rw {} ops).disp

/-- C16 holds for all histories in which no shrinking frame keeps its last line and no
empty view is rendered while a repaint is due. -/
theorem C16_screen_partial (rw : Char → Nat) (ops : List Op) (hs : Safe rw {} ops) :
    Shows (run rw ({}, Term.blank) ops).2 (expected rw {} ops).disp :=
  (run_inv rw ops (init_inv rw) hs).cells

/-- C16.  In particular, rendering one more view with at least as many lines as the one
before always leaves exactly that view on the screen. -/
theorem C16_grow_partial (rw : Char → Nat) (ops : List Op) (v : Str) (hs : Safe rw {} ops)
    (hv : v ≠ []) (hg : (expected rw {} ops).prev.length ≤ (frame (expected rw {} ops).height v).length) :
    Shows (run rw ({}, Term.blank) (ops ++ [.render v])).2
      (shown rw (expected rw {} ops).width (frame (expected rw {} ops).height v)) := by
  have h := run_inv rw ops (init_inv rw) hs
  have h2 := render_inv rw h v ⟨⟨fun hlt => absurd hlt (by omega), fun _ _ => hv⟩, trivial⟩
  have e : run rw ({}, Term.blank) (ops ++ [.render v]) = step rw (run rw ({}, Term.blank) ops) (.render v) := by
    simp [run]
  rw [e]
  exact h2.cells

/-- C16 is false: rendering "a" after "a\nb" leaves a blank screen (the kept line is erased
together with the rows below it). -/
theorem C16_shrink_refuted : ¬ C16_statement := by
  intro H
  have := H (fun _ => 1) [.render ['a', '\n', 'b'], .render ['a']] 0 0
  revert this
  decide

/-- C16 is false in a second way: the empty view is not drawn after a resize. -/
theorem C16_empty_refuted : ¬ C16_statement := by
  intro H
  have := H (fun _ => 1) [.render ['a'], .resize 80 24, .render []] 0 0
  revert this
  decide

example : Safe (fun _ => 1) {} [.render ['a', '\n', 'b'], .render ['c', '\n', 'b'], .resize 80 24, .render ['x']] := by
  refine ⟨⟨?_, ?_⟩, ⟨?_, ?_⟩, trivial, ⟨?_, ?_⟩, trivial⟩ <;> decide

/-! ## C85: a failed render can be retried -/

/-- C85: if a Render fails after part of its output was written, calling Render again with
the same view puts that view on the screen. -/
def C85_statement : Prop :=
  ∀ (rw : Char → Nat) (ops : List Op) (v : Str) (k : Nat), Safe rw {} (ops ++ [.render v]) →
    let s := run rw ({}, Term.blank) ops
    let s' := ((s.1.renderFail rw v k).1, s.2.feed (s.1.renderFail rw v k).2)
    Shows (step rw s' (.render v)).2 (expected rw {} (ops ++ [.render v])).disp

/-- False: a first render that fails after its first line is drawn again one row lower. -/
theorem C85_refuted : ¬ C85_statement := by
  intro H
  have := H (fun _ => 1) [] ['a', '\n', 'b'] 4 ⟨⟨by decide, by decide⟩, trivial⟩ 1 0
  revert this
  decide

/-- C85, the part that holds: if nothing was written, the retry is exact. -/
theorem C85_retry_partial (rw : Char → Nat) (ops : List Op) (v : Str) (hs : Safe rw {} (ops ++ [.render v])) :
    let s := run rw ({}, Term.blank) ops
    let s' := ((s.1.renderFail rw v 0).1, s.2.feed (s.1.renderFail rw v 0).2)
    Shows (step rw s' (.render v)).2 (expected rw {} (ops ++ [.render v])).disp := by
  intro s s'
  have e : s' = s := by
    show ((s.1.renderFail rw v 0).1, s.2.feed (s.1.renderFail rw v 0).2) = s
    unfold R.renderFail
    split <;> rfl
  rw [e]
  have := C16_screen_partial rw _ hs
  have e2 : run rw ({}, Term.blank) (ops ++ [.render v]) = step rw s (.render v) := by
    simp [run, s]
  rw [e2] at this
  exact this

end Phoenix.Inline
