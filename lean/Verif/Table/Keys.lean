import Verif.Table.Props
import Verif.Viewport.Keys
/-
Table: key table (C130), cell content (C131) and view content (C132), added after seeded bugs survived.
-/
set_option linter.unusedVariables false
set_option linter.unusedSimpArgs false
namespace Phoenix.Table
open Phoenix.Viewport (named)

/-! ## C130 keys -/

/-- A selection move leaves the rows, the sort and the layout alone. -/
def SameData (a b : T) : Prop :=
  a.columns = b.columns ∧ a.rows = b.rows ∧ a.effective = b.effective ∧ a.sortKey = b.sortKey ∧
  a.sortDir = b.sortDir ∧ a.height = b.height ∧ a.showHeader = b.showHeader

theorem SameData.refl (a : T) : SameData a a := ⟨rfl, rfl, rfl, rfl, rfl, rfl, rfl⟩
theorem SameData.trans {a b c : T} (h : SameData a b) (g : SameData b c) : SameData a c := by
  obtain ⟨h1, h2, h3, h4, h5, h6, h7⟩ := h
  obtain ⟨g1, g2, g3, g4, g5, g6, g7⟩ := g
  exact ⟨h1.trans g1, h2.trans g2, h3.trans g3, h4.trans g4, h5.trans g5, h6.trans g6, h7.trans g7⟩

theorem same_moveUp (t : T) : SameData t.moveUp t := by
  unfold T.moveUp; split <;> exact SameData.refl _
theorem same_moveDown (t : T) : SameData t.moveDown t := by
  unfold T.moveDown; split <;> exact SameData.refl _
theorem same_pageUp (n : Nat) (t : T) : SameData (pageUpLoop n t) t := by
  induction n generalizing t with
  | zero => exact SameData.refl _
  | succ n ih => unfold pageUpLoop; split; exact (ih _).trans (same_moveUp t); exact SameData.refl _
theorem same_pageDown (n : Nat) (t : T) : SameData (pageDownLoop n t) t := by
  induction n generalizing t with
  | zero => exact SameData.refl _
  | succ n ih => unfold pageDownLoop; split; exact (ih _).trans (same_moveDown t); exact SameData.refl _

/-- All key names bound by default. -/
def allNames : List String := ["↑", "k", "↓", "j", "home", "g", "end", "G", "pgup", "pgdown", "c"]

theorem mem_names (m : KeyMsg) (names : List String) : m.str ∈ names.map String.toList ↔ named m names := by
  simp only [List.mem_map, named]
  constructor
  · rintro ⟨n, h1, h2⟩; exact ⟨n, h1, h2.symm⟩
  · rintro ⟨n, h1, h2⟩; exact ⟨n, h1, h2.symm⟩

/-- C130: what every key does with the default bindings, after any history (in which resizing kept the
selection on screen). -/
theorem C130_key_table (ff : F64 → Bytes) (cols : List Column) (ops : List Op) (ht : TameRun ff (T.new cols) ops)
    (m : KeyMsg) :
    let t := run ff (T.new cols) ops
    let t' := t.step ff (.key {} m)
    let last : Int := max 0 ((t.rows.length : Int) - 1)
    (named m ["↑", "k"] → t'.selected = max 0 (t.selected - 1) ∧ SameData t' t) ∧
    (named m ["↓", "j"] → t'.selected = min last (t.selected + 1) ∧ SameData t' t) ∧
    (named m ["home", "g"] → t'.selected = 0 ∧ SameData t' t) ∧
    (named m ["end", "G"] → t'.selected = last ∧ SameData t' t) ∧
    (named m ["pgup"] → t'.selected = max 0 (t.selected - t.visible) ∧ SameData t' t) ∧
    (named m ["pgdown"] → t'.selected = min last (t.selected + t.visible) ∧ SameData t' t) ∧
    (named m ["c"] → t'.selected = t.selected ∧ t'.effective = t.rows ∧ t'.rows = t.rows ∧ t'.sortDir = .none) ∧
    (¬ named m allNames → t' = t) := by
  intro t t' last
  have h : WinOk t := winOk_run ff cols ops ht
  have hst : t' = t.handleKey {} m := rfl
  have hlast : last = max 0 ((t.rows.length : Int) - 1) := rfl
  clear_value last t' t
  subst hst
  obtain ⟨h1, h2, h3, h4, h5, h6, h7⟩ := id h
  have key : ∀ names : List String, named m names → ∀ other : List String,
      (∀ x ∈ names, ∀ y ∈ other, x.toList ≠ y.toList) → m.str ∉ other.map String.toList := by
    intro names hn other hd hc
    exact Viewport.named_disjoint hn hd ((mem_names m other).1 hc)
  have eup : ({} : Keys).up = ["↑", "k"].map String.toList := rfl
  have edn : ({} : Keys).down = ["↓", "j"].map String.toList := rfl
  have eho : ({} : Keys).home = ["home", "g"].map String.toList := rfl
  have een : ({} : Keys).end = ["end", "G"].map String.toList := rfl
  have epu : ({} : Keys).pageUp = ["pgup"].map String.toList := rfl
  have epd : ({} : Keys).pageDown = ["pgdown"].map String.toList := rfl
  have ecl : ({} : Keys).clearSort = ["c"].map String.toList := rfl
  unfold T.handleKey
  rw [eup, edn, eho, een, epu, epd, ecl]
  refine ⟨?_, ?_, ?_, ?_, ?_, ?_, ?_, ?_⟩
  · intro hn
    rw [if_pos ((mem_names m _).2 hn)]
    refine ⟨?_, same_moveUp t⟩
    unfold T.moveUp; split
    · omega
    · show t.selected - 1 = _; omega
  · intro hn
    rw [if_neg (key _ hn _ (by decide)), if_pos ((mem_names m _).2 hn)]
    refine ⟨?_, same_moveDown t⟩
    unfold T.moveDown; split
    · omega
    · show t.selected + 1 = _; omega
  · intro hn
    rw [if_neg (key _ hn _ (by decide)), if_neg (key _ hn _ (by decide)), if_pos ((mem_names m _).2 hn)]
    exact ⟨rfl, SameData.refl _⟩
  · intro hn
    rw [if_neg (key _ hn _ (by decide)), if_neg (key _ hn _ (by decide)), if_neg (key _ hn _ (by decide)),
      if_pos ((mem_names m _).2 hn)]
    refine ⟨?_, SameData.refl _⟩
    show (if (t.effective.length : Int) - 1 < 0 then (0 : Int) else _) = _
    split <;> omega
  · intro hn
    rw [if_neg (key _ hn _ (by decide)), if_neg (key _ hn _ (by decide)), if_neg (key _ hn _ (by decide)),
      if_neg (key _ hn _ (by decide)), if_pos ((mem_names m _).2 hn)]
    refine ⟨?_, same_pageUp _ t⟩
    show (pageUpLoop t.visible.toNat t).selected = _
    rw [pageUpLoop_selected h3]; omega
  · intro hn
    rw [if_neg (key _ hn _ (by decide)), if_neg (key _ hn _ (by decide)), if_neg (key _ hn _ (by decide)),
      if_neg (key _ hn _ (by decide)), if_neg (key _ hn _ (by decide)), if_pos ((mem_names m _).2 hn)]
    refine ⟨?_, same_pageDown _ t⟩
    show (pageDownLoop t.visible.toNat t).selected = _
    rw [pageDownLoop_selected h]
    by_cases hr : t.rows = []
    · rw [if_pos hr]
      have : t.rows.length = 0 := by rw [hr]; rfl
      omega
    · rw [if_neg hr]
      have : 0 < t.rows.length := List.length_pos_iff.2 hr
      omega
  · intro hn
    rw [if_neg (key _ hn _ (by decide)), if_neg (key _ hn _ (by decide)), if_neg (key _ hn _ (by decide)),
      if_neg (key _ hn _ (by decide)), if_neg (key _ hn _ (by decide)), if_neg (key _ hn _ (by decide)),
      if_pos ((mem_names m _).2 hn)]
    exact ⟨rfl, rfl, rfl, rfl⟩
  · intro hn
    have no : ∀ names : List String, (∀ x ∈ names, x ∈ allNames) → m.str ∉ names.map String.toList := by
      intro names hs hc
      obtain ⟨n, hn1, hn2⟩ := (mem_names m names).1 hc
      exact hn ⟨n, hs n hn1, hn2⟩
    rw [if_neg (no _ (by decide)), if_neg (no _ (by decide)), if_neg (no _ (by decide)), if_neg (no _ (by decide)),
      if_neg (no _ (by decide)), if_neg (no _ (by decide)), if_neg (no _ (by decide))]

/-- C130, configuration: new rows reset the sort and the selection; height and header switch do only that. -/
theorem C130_config (ff : F64 → Bytes) (t : T) (r : List Row) (n : Int) (b : Bool) :
    let tr := t.step ff (.setRows r)
    let th := t.step ff (.height n)
    let ts := t.step ff (.showHeader b)
    (tr.rows = r ∧ tr.effective = r ∧ tr.sortDir = .none ∧ tr.selected = 0 ∧ tr.scroll = 0 ∧
      tr.columns = t.columns ∧ tr.height = t.height ∧ tr.showHeader = t.showHeader) ∧
    th = { t with height := n } ∧ ts = { t with showHeader := b } ∧
    (T.new t.columns).showHeader = true ∧ (T.new t.columns).height = 10 ∧ (T.new t.columns).rows = [] :=
  ⟨⟨rfl, rfl, rfl, rfl, rfl, rfl, rfl, rfl⟩, rfl, rfl, rfl, rfl, rfl⟩

example : (run (fun _ => []) (T.new []) [.setRows [fun _ => .int 1, fun _ => .int 2, fun _ => .int 3],
    .key {} { type := .down }, .key {} { type := .rune, rune := 'G' }, .key {} { type := .pgUp }]).selected = 0 := by decide +kernel

/-! ## C60: the order used is the natural one -/

theorem compareStrings_lt (a b : Bytes) : compareStrings a b < 0 ↔ a < b := by
  induction a generalizing b with
  | nil => cases b with
    | nil => simp [compareStrings]
    | cons y ys => simp [compareStrings]
  | cons x xs ih => cases b with
    | nil => simp [compareStrings]
    | cons y ys =>
      unfold compareStrings
      rw [List.cons_lt_cons_iff]
      by_cases h1 : x < y
      · simp [h1]
      · by_cases h2 : y < x
        · have : x ≠ y := by rintro rfl; exact h1 h2
          simp [h1, h2, this]
        · have : x = y := by
            have a1 := UInt8.not_lt.1 h1
            have a2 := UInt8.not_lt.1 h2
            exact UInt8.le_antisymm a2 a1
          simp [h1, h2, this, ih]

/-- C60/C61: the comparison behind the sort is the natural order of every cell type: empty cells first,
numbers by value, strings bytewise lexicographically, false before true. -/
theorem C60_natural_order (ff : F64 → Bytes) :
    (∀ a b : Int, compare ff (.int a) (.int b) < 0 ↔ a < b) ∧
    (∀ a b : Int, compare ff (.int64 a) (.int64 b) < 0 ↔ a < b) ∧
    (∀ a b : Int, compare ff (.float (.fin a)) (.float (.fin b)) < 0 ↔ a < b) ∧
    (∀ a : Int, compare ff (.float .negInf) (.float (.fin a)) < 0 ∧ compare ff (.float (.fin a)) (.float .posInf) < 0) ∧
    (∀ a b : Bytes, compare ff (.str a) (.str b) < 0 ↔ a < b) ∧
    (∀ a b : Bool, compare ff (.bool a) (.bool b) < 0 ↔ a = false ∧ b = true) ∧
    (∀ v, v ≠ .nil → compare ff .nil v < 0) := by
  refine ⟨?_, ?_, ?_, ?_, ?_, ?_, ?_⟩
  · intro a b
    show compareInts a b < 0 ↔ _
    unfold compareInts; (repeat' split) <;> omega
  · intro a b
    show compareInts a b < 0 ↔ _
    unfold compareInts; (repeat' split) <;> omega
  · intro a b
    show compareFloats (.fin a) (.fin b) < 0 ↔ _
    simp only [compareFloats, F64.lt, decide_eq_true_eq]; (repeat' split) <;> omega
  · intro a; exact ⟨show compareFloats .negInf (.fin a) < 0 by simp [compareFloats, F64.lt],
      show compareFloats (.fin a) .posInf < 0 by simp [compareFloats, F64.lt]⟩
  · exact compareStrings_lt
  · intro a b
    show compareBools a b < 0 ↔ _
    cases a <;> cases b <;> decide
  · intro v hv
    cases v <;> first | exact absurd rfl hv | exact (by decide : (-1 : Int) < 0)

example : compare (fun _ => []) (.str [49, 48]) (.str [57]) < 0 ∧ compare (fun _ => []) (.int64 9) (.int64 10) < 0 := by decide

/-! ## C131 cell content -/

/-- A text placed in a cell: blanks, the text, blanks. -/
def Placed (cell text : Bytes) (l r : Nat) : Prop :=
  cell = List.replicate l 32 ++ text ++ List.replicate r 32

/-- C131: a text that fits is placed unchanged, with the blanks on the side the alignment says; a longer one
keeps its beginning and, if there is room, ends in "...". -/
theorem C131_cell_content (text cell : Bytes) (width : Int) (hw : 0 ≤ width) (al : Alignment) (ha : al ≠ .unknown)
    (h : formatCell text width al = some cell) :
    ((text.length : Int) ≤ width → ∃ l r : Nat, Placed cell text l r ∧ (l + text.length + r : Int) = width ∧
      (al = .left → l = 0) ∧ (al = .right → r = 0) ∧ (al = .center → l ≤ r ∧ r ≤ l + 1)) ∧
    (width < text.length → (3 < width → cell = text.take (width.toNat - 3) ++ [46, 46, 46]) ∧
      (width ≤ 3 → cell = text.take width.toNat)) := by
  have hfull : ∀ t : Bytes, (t.length : Int) = width → padCell t width al = t := by
    intro t e; unfold padCell; simp only; rw [if_pos (by omega)]
  unfold formatCell at h
  constructor
  · intro hl
    rw [if_neg (by omega)] at h
    have h := (Option.some.inj h).symm
    unfold padCell at h
    simp only at h
    split at h
    · subst h
      exact ⟨0, 0, by simp [Placed], by omega, fun _ => rfl, fun _ => rfl, fun _ => ⟨Nat.le_refl _, by omega⟩⟩
    · rename_i hp
      cases al with
      | left =>
        simp only at h; subst h
        exact ⟨0, (width - text.length).toNat, by simp [Placed, spaces], by omega, fun _ => rfl, by simp, by simp⟩
      | right =>
        simp only at h; subst h
        exact ⟨(width - text.length).toNat, 0, by simp [Placed, spaces], by omega, by simp, fun _ => rfl, by simp⟩
      | center =>
        simp only at h; subst h
        have hd : (width - (text.length : Int)).tdiv 2 = (width - (text.length : Int)) / 2 :=
          Int.tdiv_eq_ediv_of_nonneg (by omega)
        rw [hd]
        refine ⟨((width - (text.length : Int)) / 2).toNat, (width - (text.length : Int) - (width - (text.length : Int)) / 2).toNat,
          rfl, by omega, by simp, by simp, fun _ => ⟨by omega, by omega⟩⟩
      | unknown => exact absurd rfl ha
  · intro hl
    rw [if_pos (by omega)] at h
    constructor
    · intro h3
      rw [if_pos h3] at h
      rw [hfull _ (by simp; omega)] at h
      rw [← Option.some.inj h, show (width - 3).toNat = width.toNat - 3 by omega]
    · intro h3
      rw [if_neg (by omega), if_neg (by omega), hfull _ (by simp; omega)] at h
      exact (Option.some.inj h).symm

example : formatCell [65, 66] 5 .center = some [32, 65, 66, 32, 32] ∧
    formatCell [65, 66, 67, 68, 69, 70] 5 .right = some [65, 66, 46, 46, 46] := by decide

/-! ## C132 view content -/

theorem mapM_get {α β : Type} {f : α → Option β} : ∀ {l : List α} {bs : List β}, l.mapM f = some bs →
    bs.length = l.length ∧ ∀ (i : Nat) (a : α), l[i]? = some a → ∃ b, bs[i]? = some b ∧ f a = some b
  | [], bs, h => by
    have : bs = [] := by simpa using h.symm
    subst this; simp
  | a :: l, bs, h => by
    rw [List.mapM_cons] at h
    cases ha : f a with
    | none => rw [ha] at h; simp at h
    | some b =>
      cases hl : l.mapM f with
      | none => rw [ha, hl] at h; simp at h
      | some bs' =>
        rw [ha, hl] at h
        have h : b :: bs' = bs := by simpa using h
        subst h
        have ih := mapM_get hl
        refine ⟨by simp [ih.1], ?_⟩
        intro i x hx
        cases i with
        | zero => simp at hx; subst hx; exact ⟨b, rfl, ha⟩
        | succ i => exact ih.2 i x (by simpa using hx)

/-- C132, rows: the lines after the header are the visible rows, in order; each line consists of one cell per
column, in column order; the first cell of the selected row, and no other, carries the marker. -/
theorem C132_rows (ff : F64 → Bytes) (t : T) (lines : List Bytes) (rows : List Row)
    (hv : t.view ff = some lines) (hr : t.visibleRows = some rows) :
    let hdr := if t.showHeader then 2 else 0
    lines.length = hdr + rows.length ∧
    ∀ (i : Nat) (row : Row), rows[i]? = some row → ∃ cells, lines[hdr + i]? = some (joinCells barV cells) ∧
      cells.length = t.columns.length ∧
      ∀ (j : Nat) (c : Column), t.columns[j]? = some c →
        ∃ cell, formatCell (match c.renderer with | some f => f (row c.key) | none => sprint ff (row c.key))
            c.width c.alignment = some cell ∧
          cells[j]? = some (if t.scroll + (i : Int) = t.selected ∧ j = 0 then (if cell = [] then [] else 62 :: cell.drop 1)
            else cell) := by
  have main : ∀ body : List Bytes,
      (rows.zipIdx).mapM (fun ri : Row × Nat => dataLine ff t ri.1 (decide (t.scroll + (ri.2 : Int) = t.selected))) = some body →
      body.length = rows.length ∧
      ∀ (i : Nat) (row : Row), rows[i]? = some row → ∃ cells, body[i]? = some (joinCells barV cells) ∧
        cells.length = t.columns.length ∧
        ∀ (j : Nat) (c : Column), t.columns[j]? = some c →
          ∃ cell, formatCell (match c.renderer with | some f => f (row c.key) | none => sprint ff (row c.key))
              c.width c.alignment = some cell ∧
            cells[j]? = some (if t.scroll + (i : Int) = t.selected ∧ j = 0 then (if cell = [] then [] else 62 :: cell.drop 1)
              else cell) := by
    intro body hb
    obtain ⟨hl, hg⟩ := mapM_get hb
    refine ⟨by simpa using hl, ?_⟩
    intro i row hi
    obtain ⟨line, h1, h2⟩ := hg i (row, i) (by simp [List.getElem?_zipIdx, hi])
    unfold dataLine at h2
    cases hc : (t.columns.zipIdx).mapM (fun ci : Column × Nat =>
        dataCell ff row (decide (t.scroll + (i : Int) = t.selected) && ci.2 == 0) ci.1) with
    | none => rw [hc] at h2; simp at h2
    | some cells =>
      rw [hc] at h2
      have h2 : joinCells barV cells = line := by simpa using h2
      obtain ⟨cl, cg⟩ := mapM_get hc
      refine ⟨cells, by rw [h1, h2], by simpa using cl, ?_⟩
      intro j c hj
      obtain ⟨cell', d1, d2⟩ := cg j (c, j) (by simp [List.getElem?_zipIdx, hj])
      unfold dataCell at d2
      cases hf : formatCell (cellText ff row c) c.width c.alignment with
      | none => rw [hf] at d2; simp at d2
      | some cell =>
        rw [hf] at d2
        refine ⟨cell, hf, ?_⟩
        rw [d1]
        have d2 : (if (decide (t.scroll + (i : Int) = t.selected) && j == 0) = true then markCell cell else cell) = cell' := by
          simpa using d2
        rw [← d2]
        by_cases hs : t.scroll + (i : Int) = t.selected ∧ j = 0
        · rw [if_pos hs, if_pos (by simp [hs.1, hs.2])]
          cases cell <;> rfl
        · rw [if_neg hs, if_neg (by simpa using hs)]
  unfold T.view at hv
  simp only [hr, Option.bind_eq_bind, Option.bind_some, Option.pure_def] at hv
  by_cases hs : t.showHeader = true
  · simp only [hs, if_true] at hv ⊢
    cases hh : t.columns.mapM (headerCell t) with
    | none => rw [hh] at hv; simp at hv
    | some h =>
      cases hru : t.columns.mapM ruleCell with
      | none => rw [hh, hru] at hv; simp at hv
      | some r =>
        cases hb : (rows.zipIdx).mapM (fun ri : Row × Nat => dataLine ff t ri.1 (decide (t.scroll + (ri.2 : Int) = t.selected))) with
        | none => rw [hh, hru, hb] at hv; simp at hv
        | some body =>
          rw [hh, hru, hb] at hv
          have hv : [joinCells barV h, joinCells cross r] ++ body = lines := by simpa using hv
          subst hv
          obtain ⟨m1, m2⟩ := main body hb
          refine ⟨by simp [m1]; omega, ?_⟩
          intro i row hi
          obtain ⟨cells, c1, c2⟩ := m2 i row hi
          refine ⟨cells, ?_, c2⟩
          rw [List.getElem?_append_right (by simp)]
          simpa using c1
  · simp only [hs, if_false, Bool.false_eq_true] at hv ⊢
    cases hb : (rows.zipIdx).mapM (fun ri : Row × Nat => dataLine ff t ri.1 (decide (t.scroll + (ri.2 : Int) = t.selected))) with
    | none => rw [hb] at hv; simp at hv
    | some body =>
      rw [hb] at hv
      have hv : body = lines := by simpa using hv
      subst hv
      obtain ⟨m1, m2⟩ := main body hb
      refine ⟨by simp [m1], ?_⟩
      intro i row hi
      obtain ⟨cells, c1, c2⟩ := m2 i row hi
      exact ⟨cells, by simpa using c1, c2⟩

/-- C132, header: the first line holds the titles in column order; the sorted column, and no other, shows the
direction of the sort; the second line is a rule of the columns' widths. -/
theorem C132_header (ff : F64 → Bytes) (t : T) (lines : List Bytes) (hv : t.view ff = some lines)
    (hs : t.showHeader = true) :
    ∃ hs rs, lines[0]? = some (joinCells barV hs) ∧ lines[1]? = some (joinCells cross rs) ∧
      hs.length = t.columns.length ∧ rs.length = t.columns.length ∧
      ∀ (j : Nat) (c : Column), t.columns[j]? = some c →
        (∃ cell, hs[j]? = some cell ∧
          formatCell (if t.sortDir = .asc ∧ t.sortKey = c.key then c.title ++ " ▲".toUTF8.data.toList
            else if t.sortDir = .desc ∧ t.sortKey = c.key then c.title ++ " ▼".toUTF8.data.toList
            else c.title) c.width c.alignment = some cell) ∧
        rs[j]? = some (List.replicate c.width.toNat "─".toUTF8.data.toList).flatten := by
  have e1 : " ▲".toUTF8.data.toList = markUp := by decide
  have e2 : " ▼".toUTF8.data.toList = markDown := by decide
  have e3 : "─".toUTF8.data.toList = barH := by decide
  rw [e1, e2, e3]
  unfold T.view at hv
  cases hr : t.visibleRows with
  | none => rw [hr] at hv; simp at hv
  | some rows =>
    simp only [hr, hs, Option.bind_eq_bind, Option.bind_some, Option.pure_def, if_true] at hv
    cases hh : t.columns.mapM (headerCell t) with
    | none => rw [hh] at hv; simp at hv
    | some h =>
      cases hru : t.columns.mapM ruleCell with
      | none => rw [hh, hru] at hv; simp at hv
      | some r =>
        cases hb : (rows.zipIdx).mapM (fun ri : Row × Nat => dataLine ff t ri.1 (decide (t.scroll + (ri.2 : Int) = t.selected))) with
        | none => rw [hh, hru, hb] at hv; simp at hv
        | some body =>
          rw [hh, hru, hb] at hv
          have hv : [joinCells barV h, joinCells cross r] ++ body = lines := by simpa using hv
          subst hv
          obtain ⟨a1, a2⟩ := mapM_get hh
          obtain ⟨b1, b2⟩ := mapM_get hru
          refine ⟨h, r, rfl, rfl, a1, b1, ?_⟩
          intro j c hj
          constructor
          · obtain ⟨cell, c1, c2⟩ := a2 j c hj
            refine ⟨cell, c1, ?_⟩
            rw [← c2]
            unfold headerCell
            congr 1
            by_cases hk : t.sortKey = c.key <;> cases hd : t.sortDir <;> simp [hk]
          · obtain ⟨cell, c1, c2⟩ := b2 j c hj
            rw [c1]
            unfold ruleCell at c2
            split at c2
            · exact absurd c2 (by simp)
            · exact c2.symm

example : T.view (fun _ => []) { T.new [{ key := "k", title := [75], width := 3 }] with
      rows := [fun _ => .int 7, fun _ => .int 8], selected := 1 } =
    some [[75, 32, 32], barH ++ barH ++ barH, [55, 32, 32], [62, 32, 32]] := by decide +kernel

/-- C131: the text of a cell without a renderer, by the kind of its value: strings as they are, whole numbers in decimal,
truth values as words, a missing value as `<nil>`. -/
theorem C131_printed (ff : F64 → Bytes) (s : Bytes) (n : Int) (b : Bool) :
    let ascii := fun t : String => t.toList.map fun c => UInt8.ofNat c.toNat
    sprint ff (.str s) = s ∧ sprint ff (.int n) = ascii (toString n) ∧ sprint ff (.int64 n) = ascii (toString n) ∧
    sprint ff (.bool b) = ascii (if b then "true" else "false") ∧ sprint ff .nil = ascii "<nil>" := by
  intro ascii
  have hn : ∀ m : Nat, ascii (toString m) = natDigits m := by
    intro m
    simp only [ascii, natDigits]
    rw [show toString m = Nat.repr m from rfl, Nat.repr, String.toList_ofList]
  have hd : intDigits n = ascii (toString n) := by
    cases n with
    | ofNat m =>
      rw [show toString (Int.ofNat m) = toString m from rfl, hn]
      unfold intDigits
      rw [if_neg (by simp)]
      rfl
    | negSucc m =>
      rw [show toString (Int.negSucc m) = "-" ++ toString (m + 1) from rfl]
      unfold intDigits
      rw [if_pos (by omega)]
      simp only [ascii, String.toList_append, List.map_append]
      rw [show Int.natAbs (Int.negSucc m) = m + 1 from rfl, ← hn (m + 1)]
      rfl
  refine ⟨rfl, hd, hd, ?_, ?_⟩
  · cases b
    · show ([102, 97, 108, 115, 101] : Bytes) = ascii "false"; decide
    · show ([116, 114, 117, 101] : Bytes) = ascii "true"; decide
  · show ([60, 110, 105, 108, 62] : Bytes) = ascii "<nil>"; decide

example : sprint (fun _ => []) (.int 0) = [48] ∧ sprint (fun _ => []) (.int (-12)) = [45, 49, 50] := by decide

end Phoenix.Table
