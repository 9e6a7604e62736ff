import Verif.Style.TextProps
import Verif.Style.ColorProps
import Mathlib.Data.List.Forall2
/-
C207: where the colours and decorations of a style land on the screen.

The specification is a small terminal: a pen that the SGR sequences change, and the list of the
characters written, each with the pen it was written with.
-/
namespace Phoenix.Style
open Phoenix

set_option linter.unusedVariables false
set_option linter.unusedSimpArgs false

/-- What a terminal currently writes with. -/
structure Pen where
  fg : Option Color := none
  bg : Option Color := none
  bold : Bool := false
  italic : Bool := false
  underline : Bool := false
  strike : Bool := false
  deriving DecidableEq, Repr

/-- ECMA-48 SGR: 0 resets, 1/3/4/9 switch on bold, italic, underline, strike-through, the rest selects
colours. -/
def Pen.apply (p : Pen) (ps : List Nat) : Pen :=
  if ps = [0] then {} else if ps = [1] then { p with bold := true } else if ps = [3] then { p with italic := true }
  else if ps = [4] then { p with underline := true } else if ps = [9] then { p with strike := true }
  else ((selected 30 ps).map fun c => { p with fg := some c }).getD
    (((selected 40 ps).map fun c => { p with bg := some c }).getD p)

/-- The characters a terminal writes, each with its pen; `ESC ... m` changes the pen. -/
def paint : Option Str → Pen → Str → List (Nat × Pen)
  | _, _, [] => []
  | none, p, c :: t => if c = 27 then paint (some [27]) p t else (c, p) :: paint none p t
  | some acc, p, c :: t =>
    if c = 109 then paint none (((sgrParams (acc ++ [c])).map p.apply).getD p) t else paint (some (acc ++ [c])) p t

/-- The cells of a text written to a fresh terminal. -/
def cells (l : Str) : List (Nat × Pen) := paint none {} l

/-- The colour a terminal of each kind shows for a requested colour (C41-C43, C90): the colour
itself, the palette entry chosen for it, or no colour. -/
def shown (cap : Capability) (c : Color) : Option Color :=
  match cap with
  | .noColor => none
  | .ansi16 => some (xterm (to16 c))
  | .ansi256 => some (xterm (to256 c))
  | .trueColor => some c

/-- The same for a border (C91). -/
def shownBorder (cap : Capability) (c : Color) : Option Color :=
  match cap with
  | .noColor => none
  | .ansi16 => some (xterm (borderTo16 c))
  | .ansi256 => some (xterm (borderTo256 c))
  | .trueColor => some c

/-- The pen a style asks for. -/
def Sty.pen (s : Sty) : Pen :=
  ⟨s.fg.bind (shown s.cap), s.bg.bind (shown s.cap), s.bold, s.italic, s.underline, s.strike⟩

/-! ### the painting of the sequences -/

/-- From pen `p`, `l` writes `cs` and leaves pen `q`, whatever follows. -/
def Paints (p : Pen) (l : Str) (cs : List (Nat × Pen)) (q : Pen) : Prop :=
  ∀ rest, paint none p (l ++ rest) = cs ++ paint none q rest

theorem paints_nil (p : Pen) : Paints p [] [] p := fun _ => rfl

theorem Paints.append {p q r : Pen} {a b : Str} {x y : List (Nat × Pen)} (h1 : Paints p a x q) (h2 : Paints q b y r) :
    Paints p (a ++ b) (x ++ y) r := by
  intro rest
  rw [List.append_assoc, h1, h2, List.append_assoc]

theorem Paints.cells {l : Str} {cs : List (Nat × Pen)} {q : Pen} (h : Paints {} l cs q) : cells l = cs := by
  have := h []
  unfold Style.cells
  simpa [paint] using this

theorem paints_clean (p : Pen) {l : Str} (h : 27 ∉ l) : Paints p l (l.map fun c => (c, p)) p := by
  intro rest
  induction l with
  | nil => rfl
  | cons c t ih =>
    simp only [List.mem_cons, not_or] at h
    rw [List.cons_append, paint, if_neg (fun e => h.1 e.symm), ih h.2]
    rfl

theorem paint_body (p : Pen) (body : Str) (hb : ∀ c ∈ body, c < 0x40) :
    ∀ (acc rest : Str), paint (some acc) p (body ++ [109] ++ rest) =
      paint none (((sgrParams (acc ++ body ++ [109])).map p.apply).getD p) rest := by
  induction body with
  | nil =>
    intro acc rest
    rw [List.nil_append, List.cons_append, paint, if_pos rfl]
    simp
  | cons c t ih =>
    intro acc rest
    have hc := hb c (by simp)
    rw [List.cons_append, List.cons_append, paint, if_neg (by omega), ih (fun x hx => hb x (List.mem_cons_of_mem _ hx))]
    simp

theorem paints_csi (p : Pen) (body : Str) (hb : ∀ c ∈ body, c < 0x40) (ps : List Nat)
    (hp : sgrParams (csi ++ body ++ [109]) = some ps) : Paints p (csi ++ body ++ [109]) [] (p.apply ps) := by
  intro rest
  show paint none p (27 :: 91 :: (body ++ [109] ++ rest)) = _
  rw [paint, if_pos rfl, paint, if_neg (by decide), paint_body p body hb]
  have e : ([27] ++ [91] ++ body ++ [109] : Str) = csi ++ body ++ [109] := rfl
  rw [e, hp]
  rfl

theorem paints_1 (p : Pen) (n : Nat) : Paints p (sgr1 n) [] (p.apply [n]) := paints_csi p _ (nat_low n) _ (params_1 n)

theorem paints_256 (p : Pen) (k n : Nat) : Paints p (sgr256 k n) [] (p.apply [k, 5, n]) := by
  refine paints_csi p _ ?_ _ (params_256 k n)
  intro c hc
  simp only [List.mem_append, List.mem_singleton] at hc
  rcases hc with (((hc | rfl) | hc) | rfl) | hc <;> first | exact nat_low _ c hc | omega

theorem paints_rgb (p : Pen) (k : Nat) (x : Color) : Paints p (sgrRGB k x) [] (p.apply [k, 2, x.r, x.g, x.b]) := by
  refine paints_csi p _ ?_ _ (params_rgb k x)
  intro c hc
  simp only [List.mem_append, List.mem_singleton] at hc
  rcases hc with (((((((hc | rfl) | hc) | rfl) | hc) | rfl) | hc) | rfl) | hc <;> first | exact nat_low _ c hc | omega

theorem apply_fg16 (p : Pen) (k : Nat) (h : k < 16) :
    Paints p (sgr16 30 k) [] { p with fg := some (xterm k) } := by
  have hs := selected_16 30 k h
  unfold sgr16 at hs ⊢
  split
  · rename_i h8
    rw [if_pos h8, params_1] at hs
    have : p.apply [30 + 60 + (k - 8)] = { p with fg := some (xterm k) } := by
      unfold Pen.apply
      simp only [List.cons.injEq, and_true]
      rw [if_neg (by omega), if_neg (by omega), if_neg (by omega), if_neg (by omega), if_neg (by omega)]
      simp only [Option.bind_some] at hs
      rw [hs]; rfl
    rw [← this]
    exact paints_1 _ _
  · rename_i h8
    rw [if_neg h8, params_1] at hs
    have : p.apply [30 + k] = { p with fg := some (xterm k) } := by
      unfold Pen.apply
      simp only [List.cons.injEq, and_true]
      rw [if_neg (by omega), if_neg (by omega), if_neg (by omega), if_neg (by omega), if_neg (by omega)]
      simp only [Option.bind_some] at hs
      rw [hs]; rfl
    rw [← this]
    exact paints_1 _ _

theorem apply_bg16 (p : Pen) (k : Nat) (h : k < 16) :
    Paints p (sgr16 40 k) [] { p with bg := some (xterm k) } := by
  have hs := selected_16 40 k h
  unfold sgr16 at hs ⊢
  split
  · rename_i h8
    rw [if_pos h8, params_1] at hs
    have : p.apply [40 + 60 + (k - 8)] = { p with bg := some (xterm k) } := by
      unfold Pen.apply
      simp only [List.cons.injEq, and_true]
      rw [if_neg (by omega), if_neg (by omega), if_neg (by omega), if_neg (by omega), if_neg (by omega)]
      simp only [Option.bind_some] at hs
      rw [hs]
      have : selected 30 [40 + 60 + (k - 8)] = none := by
        unfold selected; simp only; rw [if_neg (by omega), if_neg (by omega)]
      rw [this]; rfl
    rw [← this]
    exact paints_1 _ _
  · rename_i h8
    rw [if_neg h8, params_1] at hs
    have : p.apply [40 + k] = { p with bg := some (xterm k) } := by
      unfold Pen.apply
      simp only [List.cons.injEq, and_true]
      rw [if_neg (by omega), if_neg (by omega), if_neg (by omega), if_neg (by omega), if_neg (by omega)]
      simp only [Option.bind_some] at hs
      rw [hs]
      have : selected 30 [40 + k] = none := by
        unfold selected; simp only; rw [if_neg (by omega), if_neg (by omega)]
      rw [this]; rfl
    rw [← this]
    exact paints_1 _ _

theorem paints_fg (p : Pen) (c : Color) (h : c.Ok) (cap : Capability) :
    Paints p (fgSeq c cap) [] { p with fg := (shown cap c).or p.fg } := by
  cases cap
  · exact paints_nil p
  · exact apply_fg16 p _ (C43_range c h)
  · exact paints_256 p _ _
  · exact paints_rgb p _ _

theorem paints_bg (p : Pen) (c : Color) (h : c.Ok) (cap : Capability) :
    Paints p (bgSeq c cap) [] { p with bg := (shown cap c).or p.bg } := by
  cases cap
  · exact paints_nil p
  · exact apply_bg16 p _ (C43_range c h)
  · exact paints_256 p _ _
  · exact paints_rgb p _ _

theorem paints_border (p : Pen) (c : Color) (h : c.Ok) (cap : Capability) :
    Paints p (borderSeq c cap) [] { p with fg := (shownBorder cap c).or p.fg } := by
  cases cap
  · exact paints_nil p
  · exact apply_fg16 p _ (C91_border_partial c h).2.2.2.2.2
  · exact paints_256 p _ _
  · exact paints_rgb p _ _

theorem paints_reset (p : Pen) : Paints p reset [] {} := paints_1 p 0

theorem paints_colors (p : Pen) (s : Sty) (hf : ∀ c, s.fg = some c → c.Ok) (hb : ∀ c, s.bg = some c → c.Ok) :
    Paints p (colorCodes s) [] { p with fg := (s.fg.bind (shown s.cap)).or p.fg, bg := (s.bg.bind (shown s.cap)).or p.bg } := by
  unfold colorCodes
  have h1 : Paints p ((s.fg.map fun c => fgSeq c s.cap).getD []) [] { p with fg := (s.fg.bind (shown s.cap)).or p.fg } := by
    cases h : s.fg with
    | none => exact paints_nil p
    | some c => exact paints_fg p c (hf c h) _
  have h2 : ∀ q : Pen, Paints q ((s.bg.map fun c => bgSeq c s.cap).getD []) [] { q with bg := (s.bg.bind (shown s.cap)).or q.bg } := by
    intro q
    cases h : s.bg with
    | none => exact paints_nil q
    | some c => exact paints_bg q c (hb c h) _
  exact h1.append (h2 _)

theorem paints_deco (p : Pen) (s : Sty) :
    Paints p (decoCodes s) [] ⟨p.fg, p.bg, s.bold || p.bold, s.italic || p.italic,
      s.underline || p.underline, s.strike || p.strike⟩ := by
  have h : ∀ (q : Pen) (c : Bool) (n : Nat), Paints q (part c (sgr1 n)) [] (if c then q.apply [n] else q) := by
    intro q c n
    cases c
    · exact paints_nil q
    · exact paints_1 q n
  have := (((h p s.bold 1).append (h _ s.italic 3)).append (h _ s.underline 4)).append (h _ s.strike 9)
  simp only [List.nil_append] at this
  unfold decoCodes
  convert this using 1
  cases s.bold <;> cases s.italic <;> cases s.underline <;> cases s.strike <;> simp [Pen.apply]

theorem deco_empty (s : Sty) : decoCodes s = [] ↔ s.bold = false ∧ s.italic = false ∧ s.underline = false ∧ s.strike = false := by
  unfold decoCodes part
  cases s.bold <;> cases s.italic <;> cases s.underline <;> cases s.strike <;> simp [sgr1, csi]

theorem fg_empty (c : Color) (cap : Capability) : fgSeq c cap = [] ↔ shown cap c = none := by
  cases cap <;> simp [fgSeq, shown, sgr16, sgr256, sgrRGB, sgr1, csi]
  split <;> simp

theorem bg_empty (c : Color) (cap : Capability) : bgSeq c cap = [] ↔ shown cap c = none := by
  cases cap <;> simp [bgSeq, shown, sgr16, sgr256, sgrRGB, sgr1, csi]
  split <;> simp

theorem colors_empty (s : Sty) : colorCodes s = [] ↔ s.fg.bind (shown s.cap) = none ∧ s.bg.bind (shown s.cap) = none := by
  unfold colorCodes
  rw [List.append_eq_nil_iff]
  constructor
  · rintro ⟨a, b⟩
    constructor
    · cases h : s.fg with
      | none => rfl
      | some c => rw [h] at a; exact (fg_empty c _).1 a
    · cases h : s.bg with
      | none => rfl
      | some c => rw [h] at b; exact (bg_empty c _).1 b
  · rintro ⟨a, b⟩
    constructor
    · cases h : s.fg with
      | none => rfl
      | some c => rw [h] at a; exact (fg_empty c _).2 a
    · cases h : s.bg with
      | none => rfl
      | some c => rw [h] at b; exact (bg_empty c _).2 b

/-- The two wrappers of the pipeline around a text without escapes. -/
theorem wrapped_cells (s : Sty) (hf : ∀ c, s.fg = some c → c.Ok) (hb : ∀ c, s.bg = some c → c.Ok) (x : Str) (hx : 27 ∉ x) :
    cells (wrapCodes (decoCodes s) (wrapCodes (colorCodes s) x)) = x.map fun c => (c, s.pen) := by
  have body : ∀ (q : Pen), ∃ r, Paints q (wrapCodes (colorCodes s) x)
      (x.map fun c => (c, { q with fg := (s.fg.bind (shown s.cap)).or q.fg, bg := (s.bg.bind (shown s.cap)).or q.bg })) r := by
    intro q
    unfold wrapCodes
    split
    · rename_i h
      obtain ⟨a, b⟩ := (colors_empty s).1 h
      rw [a, b]
      exact ⟨_, paints_clean q hx⟩
    · exact ⟨_, by simpa using ((paints_colors q s hf hb).append (paints_clean _ hx)).append (paints_reset _)⟩
  have e : ∀ d, decoCodes s = d → ∃ r, Paints {} (wrapCodes d (wrapCodes (colorCodes s) x)) (x.map fun c => (c, s.pen)) r := by
    rintro d rfl
    generalize hin : wrapCodes (colorCodes s) x = inner at body
    unfold wrapCodes
    split
    · rename_i h
      obtain ⟨a, b, c, d⟩ := (deco_empty s).1 h
      obtain ⟨r, hr⟩ := body {}
      refine ⟨r, ?_⟩
      simpa [Sty.pen, a, b, c, d] using hr
    · obtain ⟨r, hr⟩ := body { bold := s.bold, italic := s.italic, underline := s.underline, strike := s.strike }
      have hd := paints_deco {} s
      simp only [Bool.or_false] at hd
      refine ⟨{}, ?_⟩
      have := (hd.append hr).append (paints_reset _)
      simpa [Sty.pen] using this
  obtain ⟨r, hr⟩ := e _ rfl
  exact hr.cells

/-! ### C207 -/

theorem borderRender_plain (W : Str → Nat) (s : Sty) (h : s.borderColor = none) (x : Str) :
    borderRender W s x = borderRender W s.plain x := by
  unfold borderRender
  show (match s.border with | none => x | some b => _) = match s.border with | none => x | some b => _
  cases s.border with
  | none => rfl
  | some b =>
    simp only
    unfold borderLines colorLine colorSides
    rw [h]
    rfl

theorem render_plain_some {W : Str → Nat} {s : Sty} {text : Str} (hok : (execute W s text).isSome) :
    render W s text = pipeline W s text ∧ render W s.plain text = pipeline W s.plain text := by
  have hv : (s.valid && constraintsOk W s text) = true := by
    unfold execute at hok
    cases h : (s.valid && constraintsOk W s text) with
    | true => rfl
    | false => rw [h] at hok; cases hok
  constructor
  · unfold render execute; rw [hv]; rfl
  · have hv' : (s.plain.valid && constraintsOk W s.plain text) = true := hv
    unfold render execute; rw [hv']; rfl

/-- C207, without a border colour: every character of the output – text, padding, border and margin – is
written with exactly the foreground, background and decorations the style asks for, as far as the
terminal's colours allow. -/
theorem C207_text_partial (W : Str → Nat) (s : Sty) (text : Str) (ht : 27 ∉ text) (hb : ∀ b, s.border = some b → b.Tidy)
    (hok : (execute W s text).isSome) (hbc : s.borderColor = none)
    (hf : ∀ c, s.fg = some c → c.Ok) (hg : ∀ c, s.bg = some c → c.Ok) :
    cells (render W s text) = (render W s.plain text).map fun c => (c, s.pen) := by
  obtain ⟨e1, e2⟩ := render_plain_some hok
  have hm := C93_text_partial W s.plain text ht hb (.inl rfl)
  have clean : 27 ∉ render W s.plain text := by
    rw [e2]
    show 27 ∉ spaceStep W s.margin (borderRender W s.plain (spaceStep W s.padding (alignStep W s text)))
    apply spaceStep_clean
    have hx := spaceStep_clean W s.padding (alignStep_clean W s ht)
    unfold borderRender
    show 27 ∉ (match s.border with | none => _ | some b => _)
    cases h : s.border with
    | none => exact hx
    | some b =>
      simp only
      split
      · exact hx
      · apply clean_join
        intro l hl
        have tid := split_clean hx
        have hb' := hb b h
        unfold borderLines colorLine colorSides edgeLine contentLine at hl
        have rp : ∀ (m : Str), 27 ∉ m → ∀ n, 27 ∉ rep m n := by
          intro m hm n
          induction n with
          | zero => simp [rep]
          | succ n ih => simp only [rep, List.mem_append, not_or]; exact ⟨hm, ih⟩
        have pt : ∀ (c : Bool) (m : Str), 27 ∉ m → 27 ∉ part c m := by
          intro c m hm; cases c
          · simp [part]
          · exact hm
        have tb : ∀ x ∈ [b.top, b.bottom, b.left, b.right, b.topLeft, b.topRight, b.bottomLeft, b.bottomRight], 27 ∉ x :=
          fun x hx => (hb' x hx).1
        simp only [List.mem_append, List.mem_map] at hl
        rcases hl with (hl | ⟨y, hy, rfl⟩) | hl
        · split at hl
          · simp only [List.mem_singleton] at hl
            subst hl
            simp only [Sty.plain, List.mem_append, not_or]
            exact ⟨⟨pt _ _ (tb _ (by simp)), rp _ (tb _ (by simp)) _⟩, pt _ _ (tb _ (by simp))⟩
          · cases hl
        · simp only [Sty.plain, List.mem_append, not_or]
          exact ⟨⟨pt _ _ (tb _ (by simp)), (tid y hy).1, (tidy_spaces _).1⟩, pt _ _ (tb _ (by simp))⟩
        · split at hl
          · simp only [List.mem_singleton] at hl
            subst hl
            simp only [Sty.plain, List.mem_append, not_or]
            exact ⟨⟨pt _ _ (tb _ (by simp)), rp _ (tb _ (by simp)) _⟩, pt _ _ (tb _ (by simp))⟩
          · cases hl
  have same : pipeline W s text = wrapCodes (decoCodes s) (wrapCodes (colorCodes s) (render W s.plain text)) := by
    rw [e2]
    unfold pipeline
    rw [borderRender_plain W s hbc]
    rfl
  rw [e1, same, wrapped_cells s hf hg _ clean]

/-- Bold red text on blue, in a border, padded. -/
def demoPaint : Sty :=
  { (Sty.new.setBorder ⟨[45], [45], [124], [124], [43], [43], [43], [43]⟩) with
    fg := some ⟨255, 0, 0⟩, bg := some ⟨0, 0, 255⟩, bold := true, padding := some ⟨0, 1, 0, 1⟩ }

example := C207_text_partial wideW demoPaint [97, 98] (by decide)
  (by intro b hb; cases hb; unfold Border.Tidy Tidy; decide) (by decide) rfl
  (by intro c hc; cases hc; unfold Color.Ok; decide) (by intro c hc; cases hc; unfold Color.Ok; decide)

/-- The pen of a border. -/
def Sty.borderPen (s : Sty) : Pen := { fg := s.borderColor.bind (shownBorder s.cap) }

/-- Characters written with a pen. -/
def inPen (p : Pen) (l : Str) : List (Nat × Pen) := l.map fun c => (c, p)

theorem paints_colorLine (s : Sty) (hc : ∀ c, s.borderColor = some c → c.Ok) (l : Str) (hl : 27 ∉ l) :
    Paints {} (colorLine s l) (inPen s.borderPen l) {} := by
  unfold colorLine Sty.borderPen
  cases h : s.borderColor with
  | none => exact paints_clean {} hl
  | some c =>
    have := ((paints_border {} c (hc c h) s.cap).append (paints_clean _ hl)).append (paints_reset _)
    simpa [inPen] using this

theorem paints_right (code : Str) (q : Pen) (hq : Paints {} code [] q) (hasR : Bool) (x : Str) (r : Nat)
    (hx : 27 ∉ x) (hr : r ≠ 27) :
    Paints {} (colorRight code hasR (x ++ part hasR [r])) (inPen {} x ++ inPen q (part hasR [r])) {} := by
  unfold colorRight
  cases hasR with
  | false =>
    simp only [Bool.false_and, Bool.false_eq_true, if_false, part, List.append_nil, inPen, List.map_nil]
    exact paints_clean {} hx
  | true =>
    rw [if_pos (by simp [part])]
    simp only [part, if_true, List.dropLast_concat, List.getLastD_concat]
    have hr' : 27 ∉ [r] := by simpa using fun e : 27 = r => hr e.symm
    have := (paints_clean {} hx).append ((hq.append (paints_clean q hr')).append (paints_reset q))
    simpa [inPen] using this

theorem paints_sides (code : Str) (q : Pen) (hq : Paints {} code [] q) (hasL hasR : Bool) (x : Str) (l r : Nat)
    (hx : 27 ∉ x) (hl : l ≠ 27) (hr : r ≠ 27) :
    Paints {} (colorSidesWith code hasL hasR (part hasL [l] ++ x ++ part hasR [r]))
      (inPen q (part hasL [l]) ++ inPen {} x ++ inPen q (part hasR [r])) {} := by
  unfold colorSidesWith
  have hR := paints_right code q hq hasR x r hx hr
  cases hasL with
  | false =>
    simp only [Bool.false_and, Bool.false_eq_true, if_false]
    simpa [part, inPen] using hR
  | true =>
    rw [if_pos (by simp [part])]
    have hl' : 27 ∉ [l] := by simpa using fun e : 27 = l => hl e.symm
    have := ((hq.append (paints_clean q hl')).append (paints_reset q)).append hR
    simpa [part, inPen] using this

/-- C207, the border: in a style without foreground, background, decorations and margin, every line of
the top and bottom edge is written with the border's colour, and of every other line exactly the left
and right border character; text, padding and filling keep the default pen.  Every line leaves the pen
as it found it. -/
theorem C207_border_partial (W : Str → Nat) (s : Sty) (b : Border) (c : Color) (text : Str) (ls : List Str) (l r : Nat)
    (hl : Lines text ls) (ht : 27 ∉ text) (hok : (execute W s text).isSome)
    (hb : s.border = some b) (htidy : b.Tidy) (hleft : b.left = [l]) (hright : b.right = [r])
    (hside : s.bTop = true ∨ s.bBottom = true ∨ s.bLeft = true ∨ s.bRight = true)
    (hc : s.borderColor = some c) (hcok : c.Ok)
    (hfg : s.fg = none) (hbg : s.bg = none) (hd : s.bold = false ∧ s.italic = false ∧ s.underline = false ∧ s.strike = false)
    (hm : s.margin = none) (hp : s.padding = none) (ha : s.align = none) :
    ∃ (w : Nat) (out : List Str), Lines (render W s text) out ∧ (∃ x ∈ ls, W x = w) ∧ (∀ x ∈ ls, W x ≤ w) ∧
      List.Forall₂ (fun line cs => Paints {} line cs {}) out
        ((if s.bTop then [inPen s.borderPen (part s.bLeft b.topLeft ++ rep b.top w ++ part s.bRight b.topRight)] else []) ++
          ls.map (fun x => inPen s.borderPen (part s.bLeft [l]) ++ inPen {} (x ++ spaces (w - W x)) ++
            inPen s.borderPen (part s.bRight [r])) ++
          (if s.bBottom then [inPen s.borderPen (part s.bLeft b.bottomLeft ++ rep b.bottom w ++ part s.bRight b.bottomRight)] else [])) := by
  obtain ⟨h1, h2, h3⟩ := hl
  have hs := (lines_iff text ls).1 ⟨h1, h2, h3⟩
  have e1 : s.hasTop = s.bTop := by simp [Sty.hasTop, hb]
  have e2 : s.hasBottom = s.bBottom := by simp [Sty.hasBottom, hb]
  have e3 : s.hasLeft = s.bLeft := by simp [Sty.hasLeft, hb]
  have e4 : s.hasRight = s.bRight := by simp [Sty.hasRight, hb]
  have hle : ∀ x ∈ ls, W x ≤ maxOf (ls.map W) := fun x hx => le_maxOf (List.mem_map_of_mem hx)
  obtain ⟨l0, hl0, e0⟩ := List.mem_map.1 (maxOf_mem (l := ls.map W) (by simpa using h2))
  have tb : ∀ x ∈ [b.top, b.bottom, b.left, b.right, b.topLeft, b.topRight, b.bottomLeft, b.bottomRight], 27 ∉ x ∧ 10 ∉ x := htidy
  have clean : ∀ x ∈ ls, 27 ∉ x := by
    intro x hx
    have := split_clean ht
    rw [hs] at this
    exact (this x hx).1
  have rp : ∀ (m : Str) (k : Nat), k ∉ m → ∀ n, k ∉ rep m n := by
    intro m k hm n
    induction n with
    | zero => simp [rep]
    | succ n ih => simp only [rep, List.mem_append, not_or]; exact ⟨hm, ih⟩
  have pt : ∀ (c : Bool) (m : Str) (k : Nat), k ∉ m → k ∉ part c m := by
    intro c m k hm; cases c
    · simp [part]
    · exact hm
  have hrender : render W s text = joinNl (borderLines W s b ls) := by
    rw [(render_plain_some hok).1]
    have d0 : decoCodes s = [] := (deco_empty s).2 hd
    have c0 : colorCodes s = [] := (colors_empty s).2 (by rw [hfg, hbg]; exact ⟨rfl, rfl⟩)
    unfold pipeline
    rw [d0, c0]
    unfold wrapCodes
    rw [if_pos rfl, if_pos rfl]
    unfold spaceStep alignStep
    rw [hm, hp, ha]
    unfold borderRender
    rw [hb]
    simp only
    rw [if_neg, hs]
    rw [e1, e2, e3, e4]
    revert hside
    cases s.bTop <;> cases s.bBottom <;> cases s.bLeft <;> cases s.bRight <;> simp
  have hbp : ∀ p : Str, 27 ∉ p → Paints {} (colorLine s p) (inPen s.borderPen p) {} :=
    fun p hp => paints_colorLine s (fun c' h' => by rw [hc] at h'; cases h'; exact hcok) p hp
  have hcode : Paints {} (borderSeq c s.cap) [] s.borderPen := by
    have := paints_border {} c hcok s.cap
    simpa [Sty.borderPen, hc] using this
  have hlne : l ≠ 27 := fun e => (tb b.left (by simp)).1 (by rw [hleft, e]; simp)
  have hrne : r ≠ 27 := fun e => (tb b.right (by simp)).1 (by rw [hright, e]; simp)
  have hmid : ∀ x ∈ ls, Paints {} (colorSides s (contentLine W x b (maxOf (ls.map W)) s.hasLeft s.hasRight))
      (inPen s.borderPen (part s.bLeft [l]) ++ inPen {} (x ++ spaces (maxOf (ls.map W) - W x)) ++
        inPen s.borderPen (part s.bRight [r])) {} := by
    intro x hx
    have hxs : 27 ∉ x ++ spaces (maxOf (ls.map W) - W x) := by
      simp only [List.mem_append, not_or]; exact ⟨clean x hx, (tidy_spaces _).1⟩
    unfold colorSides contentLine
    rw [hc, e3, e4, hleft, hright]
    simp only
    split
    · rename_i hn
      simp only [Bool.and_eq_true, Bool.not_eq_true'] at hn
      rw [hn.1, hn.2]
      simpa [part, inPen] using paints_clean {} hxs
    · exact paints_sides _ _ hcode _ _ _ l r hxs hlne hrne
  have edge : ∀ (tl t tr : Str), 27 ∉ tl → 27 ∉ t → 27 ∉ tr →
      27 ∉ edgeLine tl t tr (maxOf (ls.map W)) s.hasLeft s.hasRight := by
    intro tl t tr a1 a2 a3
    unfold edgeLine
    simp only [List.mem_append, not_or]
    exact ⟨⟨pt _ _ _ a1, rp _ _ a2 _⟩, pt _ _ _ a3⟩
  have nlpart : ∀ (tl t tr : Str), Tidy tl → Tidy t → Tidy tr →
      Tidy (edgeLine tl t tr (maxOf (ls.map W)) s.hasLeft s.hasRight) := by
    intro tl t tr a1 a2 a3
    refine ⟨edge tl t tr a1.1 a2.1 a3.1, ?_⟩
    unfold edgeLine
    simp only [List.mem_append, not_or]
    exact ⟨⟨pt _ _ _ a1.2, rp _ _ a2.2 _⟩, pt _ _ _ a3.2⟩
  refine ⟨maxOf (ls.map W), borderLines W s b ls, ⟨hrender, ?_, ?_⟩, ⟨l0, hl0, e0⟩, hle, ?_⟩
  · unfold borderLines; simp [h2]
  · intro y hy
    unfold borderLines at hy
    simp only [List.mem_append, List.mem_map] at hy
    rcases hy with (hy | ⟨x, hx, rfl⟩) | hy
    · split at hy
      · simp only [List.mem_singleton] at hy
        subst hy
        exact (colorLine_ok s (nlpart _ _ _ (tb _ (by simp)) (tb _ (by simp)) (tb _ (by simp)))).2
      · cases hy
    · refine (colorSides_ok s ⟨?_, ?_⟩).2.1
      · unfold contentLine
        simp only [List.mem_append, not_or]
        exact ⟨⟨pt _ _ _ (tb _ (by simp)).1, clean x hx, (tidy_spaces _).1⟩, pt _ _ _ (tb _ (by simp)).1⟩
      · unfold contentLine
        simp only [List.mem_append, not_or]
        exact ⟨⟨pt _ _ _ (tb _ (by simp)).2, h3 x hx, (tidy_spaces _).2⟩, pt _ _ _ (tb _ (by simp)).2⟩
    · split at hy
      · simp only [List.mem_singleton] at hy
        subst hy
        exact (colorLine_ok s (nlpart _ _ _ (tb _ (by simp)) (tb _ (by simp)) (tb _ (by simp)))).2
      · cases hy
  · unfold borderLines
    rw [e1, e2]
    refine List.rel_append (List.rel_append ?_ ?_) ?_
    · split
      · exact .cons (by rw [← e3, ← e4]; exact hbp _ (edge _ _ _ (tb _ (by simp)).1 (tb _ (by simp)).1 (tb _ (by simp)).1)) .nil
      · exact .nil
    · have : ∀ xs : List Str, (∀ x ∈ xs, x ∈ ls) → List.Forall₂ (fun line cs => Paints {} line cs {})
          (xs.map fun x => colorSides s (contentLine W x b (maxOf (ls.map W)) s.hasLeft s.hasRight))
          (xs.map fun x => inPen s.borderPen (part s.bLeft [l]) ++ inPen {} (x ++ spaces (maxOf (ls.map W) - W x)) ++
            inPen s.borderPen (part s.bRight [r])) := by
        intro xs
        induction xs with
        | nil => intro _; exact .nil
        | cons x xs ih => intro h; exact .cons (hmid x (h x (by simp))) (ih fun y hy => h y (List.mem_cons_of_mem _ hy))
      exact this ls fun _ h => h
    · split
      · exact .cons (by rw [← e3, ← e4]; exact hbp _ (edge _ _ _ (tb _ (by simp)).1 (tb _ (by simp)).1 (tb _ (by simp)).1)) .nil
      · exact .nil

example := C207_border_partial wideW
  { (Sty.new.setBorder ⟨[45], [45], [124], [124], [43], [43], [43], [43]⟩) with borderColor := some ⟨0, 0, 255⟩ }
  ⟨[45], [45], [124], [124], [43], [43], [43], [43]⟩ ⟨0, 0, 255⟩ [97, 98, 10, 99] [[97, 98], [99]] 124 124
  ⟨by decide, by decide, by decide⟩ (by decide) (by decide) rfl (by unfold Border.Tidy Tidy; decide) rfl rfl (.inl rfl) rfl
  (by unfold Color.Ok; decide) rfl rfl ⟨rfl, rfl, rfl, rfl⟩ rfl rfl rfl

/-- The full claim: whatever the border's colour, the characters of the text are written in the style's
foreground colour. -/
def C207_statement : Prop :=
  ∀ (W : Str → Nat) (s : Sty) (text : Str), Sums W → (execute W s text).isSome → 27 ∉ text → 32 ∉ text →
    (∀ b, s.border = some b → b.Tidy ∧
      ∀ x ∈ [b.top, b.bottom, b.left, b.right, b.topLeft, b.topRight, b.bottomLeft, b.bottomRight], ∀ c ∈ x, c ∉ text) →
    ∀ c p, (c, p) ∈ cells (render W s text) → c ∈ text → p.fg = s.fg.bind (shown s.cap)

/-- C207 is false: the colour of the border ends with a reset, which also ends the foreground colour
(and background and bold) that was switched on before the border.  Red text in a blue border is not
red. -/
theorem C207_refuted : ¬ C207_statement := by
  intro h
  have := h wideW { (Sty.new.setBorder ⟨[45], [45], [124], [124], [43], [43], [43], [43]⟩) with
      borderColor := some ⟨0, 0, 255⟩, fg := some ⟨255, 0, 0⟩ } [97] wideW_sums (by decide) (by decide) (by decide)
    (by intro b hb; cases hb; unfold Border.Tidy Tidy; decide) 97 {} (by decide +kernel) (by decide)
  revert this
  decide

/-! ### C92: an alignment without a size -/

/-- C92.  When the style sets neither a width nor a height, the alignment has no effect. -/
theorem C92_align_needs_size (W : Str → Nat) (s : Sty) (text : Str)
    (hz : ∀ z, s.size = some z → z.width = none ∧ z.height = none) :
    render W s text = render W { s with align := none } text := by
  have e : alignStep W s text = text := by
    unfold alignStep target
    cases hs : s.align with
    | none => rfl
    | some hv =>
      cases h : s.size with
      | none => simp
      | some z => simp [(hz z h).1, (hz z h).2]
  have hp : pipeline W s text = pipeline W { s with align := none } text := by
    unfold pipeline
    rw [e]
    rfl
  unfold render execute
  rw [hp]
  rfl

example := C92_align_needs_size wideW { Sty.new with size := some ⟨none, none, some 1, some 9, none, none⟩, align := some (.finish, .finish) }
  [97, 98] (by intro z hz; cases hz; exact ⟨rfl, rfl⟩)

end Phoenix.Style
