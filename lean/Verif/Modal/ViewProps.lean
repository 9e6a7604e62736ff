import Verif.Modal.ViewModel
import Verif.Modal.Props
import Verif.Tea.AreaScreen
set_option linter.unusedVariables false
set_option linter.unusedSimpArgs false
/-
  C206: the dimmed background of a modal, in the string of View and on the screen.
-/
namespace Phoenix.Modal
open Phoenix.Inline

/-- What the background has to look like: `H` rows of `W` characters, blank exactly in the box. -/
def IsBackground (W H x y w h : Int) (rows : List (List Char)) : Prop :=
  rows.length = H.toNat ∧
  ∀ (r : Nat) (line : List Char), rows[r]? = some line → line.length = W.toNat ∧
    ∀ (c : Nat) (ch : Char), line[c]? = some ch →
      ((x ≤ c ∧ c < x + w ∧ y ≤ r ∧ r < y + h) → ch = ' ') ∧
      (¬ (x ≤ c ∧ c < x + w ∧ y ≤ r ∧ r < y + h) → ch = '░')

theorem dimRow_no_newline (m : Modal) (x y : Int) (r : Nat) : '\n' ∉ dimRow m x y r := by
  intro h
  simp only [dimRow, List.mem_map] at h
  obtain ⟨c, _, e⟩ := h
  split at e <;> exact absurd e (by decide)

theorem split_rows (f : Nat → List Char) (hf : ∀ r, '\n' ∉ f r) (rest : List Char) : ∀ (l : List Nat),
    splitLines ((l.flatMap fun r => f r ++ ['\n']) ++ rest) = l.map f ++ splitLines rest
  | [] => rfl
  | r :: rs => by
    rw [List.flatMap_cons, List.append_assoc, List.append_assoc, List.singleton_append,
      Phoenix.Editor.splitLines_cons_nl _ _ (hf r), split_rows f hf rest rs]
    rfl

theorem background_ok (m : Modal) (x y : Int) :
    IsBackground m.termW m.termH x y m.width m.height ((List.range m.termH.toNat).map (dimRow m x y)) := by
  refine ⟨by simp, ?_⟩
  intro r line h
  simp only [List.getElem?_map, Option.map_eq_some_iff] at h
  obtain ⟨r', hr, rfl⟩ := h
  obtain ⟨_, hr'⟩ := List.getElem?_eq_some_iff.1 hr
  simp only [List.getElem_range] at hr'
  subst hr'
  refine ⟨by simp [dimRow], ?_⟩
  intro c ch hc
  simp only [dimRow, List.getElem?_map, Option.map_eq_some_iff] at hc
  obtain ⟨c', hc', rfl⟩ := hc
  obtain ⟨_, hc''⟩ := List.getElem?_eq_some_iff.1 hc'
  simp only [List.getElem_range] at hc''
  subst hc''
  constructor
  · rintro ⟨a, b, e, f⟩
    simp [insideModal, a, b, e, f]
  · intro hn
    rw [if_neg]
    intro hi
    simp only [insideModal, Bool.and_eq_true, decide_eq_true_eq] at hi
    exact hn ⟨hi.1.1, hi.1.2, hi.2.1, hi.2.2⟩

/-- C206, the string: with dimming on, View returns the background, as many rows as the terminal has, then exactly what it
returns with dimming off; the background is blank exactly where the box is going to be. -/
theorem C206_string_partial (m : Modal) (hv : m.visible = true) (hw : 4 ≤ m.width) :
    let x := (calculatePosition m).1
    let y := (calculatePosition m).2
    ∃ (rows : List (List Char)) (box full : List Char), viewText { m with dim := false } = some box ∧
      viewText { m with dim := true } = some full ∧ IsBackground m.termW m.termH x y m.width m.height rows ∧
      full = (rows.flatMap fun l => l ++ ['\n']) ++ box ∧ splitLines full = rows ++ splitLines box := by
  intro x y
  obtain ⟨td, cd, bd, top, bot, h1, -⟩ := box_eq m x y hw
  have p1 : ∀ b, renderModalBox { m with dim := b } (calculatePosition { m with dim := b }).1
      (calculatePosition { m with dim := b }).2 = renderModalBox m x y := fun b => rfl
  refine ⟨(List.range m.termH.toNat).map (dimRow m x y),
    boxText ([⟨y + 1, x + 1, top⟩] ++ (td ++ (cd ++ (bd ++ ([⟨y + m.height - 1, x + 1, bot⟩] ++ []))))),
    dimBackground m x y ++ boxText ([⟨y + 1, x + 1, top⟩] ++ (td ++ (cd ++ (bd ++ ([⟨y + m.height - 1, x + 1, bot⟩] ++ []))))),
    ?_, ?_, background_ok m x y, ?_, ?_⟩
  · unfold viewText
    rw [if_neg (by simp [hv]), p1, h1]
    simp
  · unfold viewText
    rw [if_neg (by simp [hv]), p1, h1]
    rfl
  · rw [List.flatMap_map]
    rfl
  · exact split_rows _ (dimRow_no_newline m x y) _ _

/-- Full C206 in a program: the renderer knows the size of the terminal, which is also the size the modal was told; then the
rows it prints begin with the background. -/
def C206_statement : Prop :=
  ∀ (m : Modal) (full : List Char), m.visible = true → 4 ≤ m.width → 4 ≤ m.height → m.dim = true →
    m.width ≤ m.termW → m.height ≤ m.termH → viewText m = some full →
    ∃ (rows rest : List (List Char)), frame m.termH full = rows ++ rest ∧
      IsBackground m.termW m.termH (calculatePosition m).1 (calculatePosition m).2 m.width m.height rows

theorem boxText_two (y x h : Int) (top bot : Bytes) (mid : List Draw) :
    ∃ a b c, boxText ([⟨y + 1, x + 1, top⟩] ++ (mid ++ [⟨y + h - 1, x + 1, bot⟩])) = a ++ ('\n' :: b) ++ ('\n' :: c) := by
  refine ⟨[Char.ofNat 27, '['] ++ (toString (y + 1)).toList ++ [';'] ++ (toString (x + 1)).toList ++ ['H'] ++
    top.map (fun b => Char.ofNat b.toNat), boxText mid ++ ([Char.ofNat 27, '['] ++ (toString (y + h - 1)).toList ++ [';'] ++
    (toString (x + 1)).toList ++ ['H'] ++ bot.map (fun b => Char.ofNat b.toNat)), [], ?_⟩
  simp [boxText, Draw.chars]

theorem split_count : ∀ (s : List Char), (splitLines s).length = s.count '\n' + 1
  | [] => rfl
  | c :: cs => by
    have ih := split_count cs
    rw [splitLines]
    by_cases h : c = '\n'
    · rw [if_pos h, h]; simp [ih]
    · rw [if_neg h, List.count_cons, if_neg (by simpa using h)]
      cases hs : splitLines cs with
      | nil => rw [hs] at ih; simp at ih
      | cons l ls => rw [hs] at ih; simpa using ih

/-- C206, what happens instead, for every dimmed modal: the renderer keeps only the last rows of the string, so of the
background the first `n` rows are lost and every other row is printed `n` rows too high, where `n`, the number of rows of the
box part, is at least three; the blank rectangle is never where the box is drawn. -/
theorem C206_shifted (m : Modal) (full : List Char) (hv : m.visible = true) (hw : 4 ≤ m.width) (hd : m.dim = true)
    (hH : 0 < m.termH) (h : viewText m = some full) :
    ∃ (rows box : List (List Char)) (n : Nat), 3 ≤ n ∧ box.length = n ∧
      IsBackground m.termW m.termH (calculatePosition m).1 (calculatePosition m).2 m.width m.height rows ∧
      frame m.termH full = (rows ++ box).drop n ∧ (frame m.termH full).length = m.termH.toNat ∧
      ∀ (r : Nat), r + n < m.termH.toNat → (frame m.termH full)[r]? = rows[r + n]? := by
  obtain ⟨rows, box, full', h1, h2, h3, h4, h5⟩ := C206_string_partial m hv hw
  have e : ({ m with dim := true } : Modal) = m := by cases m; cases hd; rfl
  rw [e, h] at h2
  cases h2
  have hn : 3 ≤ (splitLines box).length := by
    obtain ⟨td, cd, bd, top, bot, g1, -⟩ := box_eq m (calculatePosition m).1 (calculatePosition m).2 hw
    have hb : box = boxText ([⟨(calculatePosition m).2 + 1, (calculatePosition m).1 + 1, top⟩] ++ ((td ++ (cd ++ bd)) ++
        [⟨(calculatePosition m).2 + m.height - 1, (calculatePosition m).1 + 1, bot⟩])) := by
      unfold viewText at h1
      rw [if_neg (by simp [hv])] at h1
      have p1 : renderModalBox { m with dim := false } (calculatePosition { m with dim := false }).1
        (calculatePosition { m with dim := false }).2 = renderModalBox m (calculatePosition m).1 (calculatePosition m).2 := rfl
      rw [p1, g1] at h1
      simp only [Option.map_some, Option.some.injEq] at h1
      rw [← h1]
      simp
    obtain ⟨a, b, c, hb'⟩ := boxText_two (calculatePosition m).2 (calculatePosition m).1 m.height top bot (td ++ (cd ++ bd))
    rw [split_count, hb, hb']
    simp [List.count_append, List.count_cons]
    omega
  have hrl := h3.1
  have hfr : frame m.termH full = (rows ++ splitLines box).drop (splitLines box).length := by
    unfold frame
    rw [h5]
    simp only []
    rw [if_pos (by refine ⟨by omega, ?_⟩; rw [List.length_append, hrl]; omega)]
    congr 1
    rw [List.length_append, hrl]
    omega
  refine ⟨rows, splitLines box, (splitLines box).length, hn, rfl, h3, hfr, ?_, ?_⟩
  · rw [hfr, List.length_drop, List.length_append, hrl]; omega
  · intro r hr
    rw [hfr, List.getElem?_drop, List.getElem?_append_left (by omega)]
    congr 1; omega

/-- A dimmed 6 x 4 modal in the middle of an 8 x 6 terminal. -/
def exDim : Modal :=
  { newWithTitle [84] [97, 10, 98] with visible := true, dim := true, width := 6, height := 4, termW := 8, termH := 6 }

theorem C206_refuted : ¬ C206_statement := by
  intro h
  obtain ⟨rows0, box, full, -, h2, -⟩ := C206_string_partial exDim rfl (by decide)
  have hf : viewText exDim = some full := h2
  obtain ⟨rows, rest, g1, g2⟩ := h exDim full rfl (by decide) (by decide) rfl (by decide) (by decide) hf
  have hfull : full = (viewText exDim).getD [] := by rw [hf]; rfl
  have hfr : (frame 6 full)[1]?.bind (·[1]?) ≠ some ' ' := by
    rw [hfull]
    decide +kernel
  have hlen : rows.length = 6 := g2.1
  have h1 : 1 < rows.length := by omega
  obtain ⟨a, b⟩ := g2.2 1 rows[1] (List.getElem?_eq_getElem h1)
  have a' : (rows[1]).length = 8 := a
  have hc := (b 1 (rows[1][1]'(by omega)) (List.getElem?_eq_getElem (by omega))).1 (by decide)
  have e : (frame 6 full)[1]?.bind (·[1]?) = some ' ' := by
    show (frame exDim.termH full)[1]?.bind (·[1]?) = some ' '
    rw [g1, List.getElem?_append_left h1, List.getElem?_eq_getElem h1, Option.bind_some,
      List.getElem?_eq_getElem (by omega), hc]
  exact hfr e

example : exDim.visible = true ∧ 4 ≤ exDim.width ∧ exDim.dim = true ∧ 0 < exDim.termH := by decide
example : ((viewText exDim).map fun full => (splitLines full).take 2) =
    some ["░░░░░░░░".toList, "░      ░".toList] := by decide +kernel

end Phoenix.Modal
