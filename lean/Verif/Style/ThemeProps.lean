import Verif.Style.ThemeModel
/-
C95 (merging themes) and C96 (theme manager).
-/
set_option linter.unusedVariables false
set_option linter.unusedSimpArgs false
namespace Phoenix.Style
open Phoenix

/-! ### Specification -/

/-- The fields of a Palette, as a list. -/
def Palette.all (p : Palette) : List Color := [p.primary, p.secondary, p.background, p.surface, p.text, p.textMuted, p.error, p.warning, p.success, p.info, p.border, p.focus, p.disabled]

/-- The fields of a Borders, as a list. -/
def Borders.all (p : Borders) : List Border := [p.dflt, p.input, p.modal, p.table, p.panel]

/-- The fields of a Scale, as a list. -/
def Scale.all (p : Scale) : List Int := [p.xs, p.sm, p.md, p.lg, p.xl]

/-- The fields of a Typo, as a list. -/
def Typo.all (p : Typo) : List Color := [p.placeholder, p.code, p.link, p.heading]

/-- All colours of a theme. -/
def Theme.allColors (t : Theme) : List Color := t.colors.all ++ t.typography.all

/-! ### C95 -/

/-- A border without any glyph. -/
def noBorder : Border := ⟨[], [], [], [], [], [], [], []⟩

theorem hidden_iff (b : Border) : b.isHidden = true ↔ b = noBorder := by
  obtain ⟨t, bo, l, r, tl, tr, bl, br⟩ := b
  simp only [Border.isHidden, noBorder, Bool.and_eq_true, List.isEmpty_iff, Border.mk.injEq]
  constructor
  · rintro ⟨⟨⟨⟨⟨⟨⟨a, b⟩, c⟩, d⟩, e⟩, f⟩, g⟩, h⟩; exact ⟨a, b, c, d, e, f, g, h⟩
  · rintro ⟨a, b, c, d, e, f, g, h⟩; exact ⟨⟨⟨⟨⟨⟨⟨a, b⟩, c⟩, d⟩, e⟩, f⟩, g⟩, h⟩

/-- C95.  Merging takes, for every colour, border and spacing of a theme, the override's value
where it is set (a colour other than black, a border with some glyph, a positive spacing) and the
base's value otherwise; the name is the override's. -/
theorem C95_merge_partial (t o : Theme) :
    (t.merge o).name = o.name ∧
    (∀ (i : Nat) (a b : Color), t.allColors[i]? = some a → o.allColors[i]? = some b →
      (t.merge o).allColors[i]? = some (if b = ⟨0, 0, 0⟩ then a else b)) ∧
    (∀ (i : Nat) (a b : Border), t.borders.all[i]? = some a → o.borders.all[i]? = some b →
      (t.merge o).borders.all[i]? = some (if b = noBorder then a else b)) ∧
    (∀ (i : Nat) (a b : Int), t.spacing.all[i]? = some a → o.spacing.all[i]? = some b →
      (t.merge o).spacing.all[i]? = some (if b ≤ 0 then a else b)) := by
  have hc : ∀ a b : Color, pickColor a b = if b = ⟨0, 0, 0⟩ then a else b := by
    intro a b; unfold pickColor black; by_cases h : b = ⟨0, 0, 0⟩ <;> simp [h]
  have hb : ∀ a b : Border, pickBorder a b = if b = noBorder then a else b := by
    intro a b
    unfold pickBorder
    cases h : b.isHidden with
    | true => rw [(hidden_iff b).1 h]; simp
    | false =>
      have : b ≠ noBorder := fun e => by rw [(hidden_iff b).2 e] at h; cases h
      simp [this]
  have hs : ∀ a b : Int, pickSpace a b = if b ≤ 0 then a else b := by
    intro a b; unfold pickSpace; split <;> split <;> first | rfl | omega
  have hz : ∀ {α : Type} (f : α → α → α) (xs ys : List α) (i : Nat) (a b : α), xs[i]? = some a → ys[i]? = some b →
      (List.zipWith f xs ys)[i]? = some (f a b) := by
    intro α f xs ys i a b h1 h2
    rw [List.getElem?_zipWith, h1, h2]
  refine ⟨rfl, ?_, ?_, ?_⟩
  · intro i a b h1 h2
    rw [← hc]
    exact hz pickColor t.allColors o.allColors i a b h1 h2
  · intro i a b h1 h2
    rw [← hb]
    exact hz pickBorder t.borders.all o.borders.all i a b h1 h2
  · intro i a b h1 h2
    rw [← hs]
    exact hz pickSpace t.spacing.all o.spacing.all i a b h1 h2

theorem pickColor_assoc (a b c : Color) : pickColor (pickColor a b) c = pickColor a (pickColor b c) := by
  unfold pickColor; by_cases h : c = black <;> simp [h]

theorem pickBorder_assoc (a b c : Border) : pickBorder (pickBorder a b) c = pickBorder a (pickBorder b c) := by
  unfold pickBorder; cases h : c.isHidden <;> simp [h]

theorem pickSpace_assoc (a b c : Int) : pickSpace (pickSpace a b) c = pickSpace a (pickSpace b c) := by
  unfold pickSpace; by_cases h : c > 0 <;> simp [h]

/-- C95.  Merging is associative: applying overrides one after the other is the same as merging
the overrides first. -/
theorem C95_assoc (a b c : Theme) : (a.merge b).merge c = a.merge (b.merge c) := by
  simp only [Theme.merge, mergeColors, mergeBorders, mergeSpacing, mergeTypo, pickColor_assoc, pickBorder_assoc, pickSpace_assoc]

/-- C95.  Merging a theme into itself changes nothing. -/
theorem C95_idem (a : Theme) : a.merge a = a := by
  have h1 : ∀ c, pickColor c c = c := by intro c; unfold pickColor; split <;> rfl
  have h2 : ∀ c, pickBorder c c = c := by intro c; unfold pickBorder; split <;> rfl
  have h3 : ∀ c, pickSpace c c = c := by intro c; unfold pickSpace; split <;> rfl
  simp only [Theme.merge, mergeColors, mergeBorders, mergeSpacing, mergeTypo, h1, h2, h3]

/-- The full claim: every value of the override wins. -/
def C95_override_statement : Prop := ∀ t o : Theme, (t.merge o).colors = o.colors

/-- C95 is false: black in an override is taken for "not set".  Merging the package's own
high-contrast preset into its light preset keeps the white background under the white text. -/
theorem C95_override_refuted : ¬ C95_override_statement := by
  intro h
  have := h lightTheme highContrastTheme
  revert this
  decide

theorem C95_white_on_white_refuted :
    (lightTheme.merge highContrastTheme).colors.background = (lightTheme.merge highContrastTheme).colors.text := by decide

/-- Overrides without black, hidden borders or zero spacings do win completely (of the presets only `Light` is one). -/
theorem C95_override_set_partial (t o : Theme) (h1 : ∀ c ∈ o.allColors, c ≠ ⟨0, 0, 0⟩) (h2 : ∀ b ∈ o.borders.all, b ≠ noBorder)
    (h3 : ∀ n ∈ o.spacing.all, 0 < n) : t.merge o = o := by
  obtain ⟨n, c, b, s, ty⟩ := o
  simp only [Theme.allColors, Palette.all, Typo.all, Borders.all, Scale.all, List.cons_append, List.nil_append, List.forall_mem_cons] at h1 h2 h3
  have hc : ∀ {a b : Color}, b ≠ ⟨0, 0, 0⟩ → pickColor a b = b := by
    intro a b h; unfold pickColor black; simp [h]
  have hb : ∀ {a b : Border}, b ≠ noBorder → pickBorder a b = b := by
    intro a b h
    unfold pickBorder
    cases hh : b.isHidden with
    | true => exact absurd ((hidden_iff b).1 hh) h
    | false => rfl
  have hs : ∀ {a b : Int}, 0 < b → pickSpace a b = b := by
    intro a b h; unfold pickSpace; simp [h]
  obtain ⟨a1, a2, a3, a4, a5, a6, a7, a8, a9, a10, a11, a12, a13, a14, a15, a16, a17, _⟩ := h1
  obtain ⟨b1, b2, b3, b4, b5, _⟩ := h2
  obtain ⟨s1, s2, s3, s4, s5, _⟩ := h3
  simp only [Theme.merge, mergeColors, mergeBorders, mergeSpacing, mergeTypo, hc a1, hc a2, hc a3, hc a4, hc a5, hc a6, hc a7, hc a8,
    hc a9, hc a10, hc a11, hc a12, hc a13, hc a14, hc a15, hc a16, hc a17, hb b1, hb b2, hb b3, hb b4, hb b5, hs s1, hs s2, hs s3, hs s4, hs s5]

example : (∀ c ∈ lightTheme.allColors, c ≠ ⟨0, 0, 0⟩) ∧ (∀ b ∈ lightTheme.borders.all, b ≠ noBorder) ∧
    (∀ n ∈ lightTheme.spacing.all, 0 < n) ∧ darkTheme.merge lightTheme ≠ darkTheme := by decide

/-! ### C96 -/

/-- C96.  SetTheme installs the theme and returns the one it replaces; `nil` is ignored. -/
theorem C96_set (cur t : Theme) : setTheme cur (some t) = (t, cur) ∧ setTheme cur none = (cur, cur) := ⟨rfl, rfl⟩

/-- C96.  After any history the current theme is determined by the last operation that sets it
(SetTheme, a known preset, Reset), followed by the merges since, folded in order. -/
theorem C96_history (p : Presets) (init : Theme) (pre : List ThemeOp) (op : ThemeOp) (t : Theme) (merges : List Theme)
    (hop : op = .set (some t) ∨ (∃ n, op = .preset n ∧ p.byName n = some t) ∨ (op = .reset ∧ t = p.default)) :
    (pre ++ [op] ++ merges.map ThemeOp.merge).foldl (themeStep p) init = merges.foldl Theme.merge t := by
  rw [List.foldl_append, List.foldl_append]
  have h1 : [op].foldl (themeStep p) (pre.foldl (themeStep p) init) = t := by
    rcases hop with rfl | ⟨n, rfl, h⟩ | ⟨rfl, rfl⟩
    · rfl
    · simp only [List.foldl_cons, List.foldl_nil, themeStep, h]; rfl
    · rfl
  rw [h1]
  clear h1 hop
  induction merges generalizing t with
  | nil => rfl
  | cons m ms ih =>
    simp only [List.map_cons, List.foldl_cons]
    exact ih _
example := C96_history presets lightTheme [.preset (ascii "nope")] (.preset (ascii "Dark")) darkTheme [lightTheme] (.inr (.inl ⟨_, rfl, by decide +kernel⟩))


/-- C96.  Operations that do not name a theme change nothing: SetTheme(nil) and an unknown preset. -/
theorem C96_ignored (p : Presets) (cur : Theme) (n : Str) (h : p.byName n = none) :
    themeStep p cur (.set none) = cur ∧ themeStep p cur (.preset n) = cur := by
  refine ⟨rfl, ?_⟩
  simp only [themeStep, h]
example := C96_ignored presets darkTheme (ascii "solarized") (by decide +kernel)


/-- Equal up to the case of ASCII letters: position by position the same character, or one is a capital
letter A-Z and the other its small letter. -/
def SameLetter (a b : Nat) : Prop := a = b ∨ (a + 32 = b ∧ 65 ≤ a ∧ a ≤ 90) ∨ (b + 32 = a ∧ 65 ≤ b ∧ b ≤ 90)

def SameWord (a b : Str) : Prop := a.length = b.length ∧ ∀ x ∈ a.zip b, SameLetter x.1 x.2

theorem lower_iff : ∀ (n w : Str), (∀ c ∈ w, 97 ≤ c ∧ c ≤ 122) → (lower n = w ↔ SameWord n w)
  | [], [], _ => by simp [lower, SameWord]
  | [], w :: ws, _ => by simp [lower, SameWord]
  | n :: ns, [], _ => by simp [lower, SameWord]
  | n :: ns, w :: ws, h => by
    have hw := h w List.mem_cons_self
    have ih := lower_iff ns ws (fun c hc => h c (List.mem_cons_of_mem _ hc))
    have e : lower (n :: ns) = (if 65 ≤ n ∧ n ≤ 90 then n + 32 else n) :: lower ns := rfl
    rw [e, List.cons.injEq, ih]
    unfold SameWord SameLetter
    simp only [List.length_cons, Nat.add_right_cancel_iff, List.zip_cons_cons, List.forall_mem_cons]
    have : (if 65 ≤ n ∧ n ≤ 90 then n + 32 else n) = w ↔ (n = w ∨ (n + 32 = w ∧ 65 ≤ n ∧ n ≤ 90) ∨ (w + 32 = n ∧ 65 ≤ w ∧ w ≤ 90)) := by
      split <;> omega
    rw [this]
    exact ⟨fun ⟨a, b, c⟩ => ⟨b, a, c⟩, fun ⟨b, a, c⟩ => ⟨a, b, c⟩⟩

/-- C96.  Each preset is found under its name in any mixture of upper and lower case, and no other
word finds a preset. -/
theorem C96_names (p : Presets) (n : Str) :
    (SameWord n (ascii "default") → p.byName n = some p.default) ∧
    (SameWord n (ascii "dark") → p.byName n = some p.dark) ∧
    (SameWord n (ascii "light") → p.byName n = some p.light) ∧
    (SameWord n (ascii "highcontrast") → p.byName n = some p.highContrast) ∧
    (¬ SameWord n (ascii "default") → ¬ SameWord n (ascii "dark") → ¬ SameWord n (ascii "light") →
      ¬ SameWord n (ascii "highcontrast") → p.byName n = none) := by
  have h1 := lower_iff n (ascii "default") (by decide)
  have h2 := lower_iff n (ascii "dark") (by decide)
  have h3 := lower_iff n (ascii "light") (by decide)
  have h4 := lower_iff n (ascii "highcontrast") (by decide)
  have d12 : ascii "default" ≠ ascii "dark" := by decide
  have d13 : ascii "default" ≠ ascii "light" := by decide
  have d14 : ascii "default" ≠ ascii "highcontrast" := by decide
  have d23 : ascii "dark" ≠ ascii "light" := by decide
  have d24 : ascii "dark" ≠ ascii "highcontrast" := by decide
  have d34 : ascii "light" ≠ ascii "highcontrast" := by decide
  rw [← h1, ← h2, ← h3, ← h4]
  unfold Presets.byName
  refine ⟨fun h => by rw [if_pos h], fun h => ?_, fun h => ?_, fun h => ?_, fun n1 n2 n3 n4 => ?_⟩
  · rw [if_neg (fun e : lower n = ascii "default" => d12 (e.symm.trans h)), if_pos h]
  · rw [if_neg (fun e : lower n = ascii "default" => d13 (e.symm.trans h)), if_neg (fun e : lower n = ascii "dark" => d23 (e.symm.trans h)), if_pos h]
  · rw [if_neg (fun e : lower n = ascii "default" => d14 (e.symm.trans h)), if_neg (fun e : lower n = ascii "dark" => d24 (e.symm.trans h)), if_neg (fun e : lower n = ascii "light" => d34 (e.symm.trans h)), if_pos h]
  · rw [if_neg n1, if_neg n2, if_neg n3, if_neg n4]

/-- C96.  A manager starts with the theme it is given, or with the default theme. -/
theorem C96_new (p : Presets) (t : Theme) : managerNew p (some t) = t ∧ managerNew p none = p.default := ⟨rfl, rfl⟩

/-- C96.  In each preset the text can be told from the background and from the surface (some channel
differs by at least 128), the muted text differs from the background, and the spacing grows. -/
theorem C96_presets_readable : ∀ t ∈ [presets.default, presets.dark, presets.light, presets.highContrast],
    (128 ≤ absDiff t.colors.text.g t.colors.background.g ∧ 128 ≤ absDiff t.colors.text.g t.colors.surface.g) ∧
    64 ≤ absDiff t.colors.textMuted.g t.colors.background.g ∧
    (0 < t.spacing.xs ∧ t.spacing.xs < t.spacing.sm ∧ t.spacing.sm < t.spacing.md ∧ t.spacing.md < t.spacing.lg ∧
      t.spacing.lg < t.spacing.xl) := by decide

/-- C96.  Every colour of a preset has channels up to 255, every border is drawn with one character per
part, and the high-contrast preset writes white on black. -/
theorem C96_presets_valid :
    (∀ t ∈ [presets.default, presets.dark, presets.light, presets.highContrast],
      (∀ c ∈ t.allColors, c.r ≤ 255 ∧ c.g ≤ 255 ∧ c.b ≤ 255) ∧
      ∀ b ∈ t.borders.all, ∀ g ∈ [b.top, b.bottom, b.left, b.right, b.topLeft, b.topRight, b.bottomLeft, b.bottomRight],
        g.length = 1) ∧
    (presets.highContrast.colors.text = ⟨255, 255, 255⟩ ∧ presets.highContrast.colors.background = ⟨0, 0, 0⟩ ∧
      presets.highContrast.colors.surface = ⟨0, 0, 0⟩) ∧
    [presets.default, presets.dark, presets.light, presets.highContrast].map (·.name) =
      ["Default", "Dark", "Light", "HighContrast"].map ascii := by
  refine ⟨by decide, by decide, rfl⟩

example : presets.byName (ascii "HighContrast") = some highContrastTheme ∧ presets.byName (ascii "DARK") = some darkTheme ∧
    presets.byName (ascii "darker") = none := by decide

end Phoenix.Style
