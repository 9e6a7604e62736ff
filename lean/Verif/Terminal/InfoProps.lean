import Verif.Terminal.AnsiProps
import Verif.Core.Props
/-
C164: the colour depth a terminal reports is the documented one.
C165: the terminal package and the core package agree about the environment's colours.
Plus the Windows halves of C115 (cursor styles) and C117 (leaving the alternate screen).
-/
set_option linter.unusedVariables false
set_option linter.unusedSimpArgs false
namespace Phoenix.Terminal

/-- `s` contains the text `p`. -/
def Has (s p : String) : Prop := ∃ a b : List Char, s.toList = a ++ p.toList ++ b

/-- C164: documented: COLORTERM=truecolor gives 24 bits, else a TERM containing "256color" gives
256 colours, else 16. -/
def C164_statement : Prop :=
  ∀ get : String → String,
    (get "COLORTERM" = "truecolor" → colorDepth get = 16777216) ∧
    (get "COLORTERM" = "" → Has (get "TERM") "256color" → colorDepth get = 256) ∧
    (get "COLORTERM" = "" → ¬ Has (get "TERM") "256color" → colorDepth get = 16)

/-- False for every TERM but three names: rxvt-256color has 256 colours and is reported with 16. -/
theorem C164_refuted : ¬ C164_statement := by
  intro h
  have := (h (fun k => if k = "TERM" then "rxvt-256color" else "")).2.1 (by decide)
    ⟨"rxvt-".toList, [], by decide⟩
  exact absurd this (by decide)

/-- C164, what holds, for every environment: the three values and exactly when each is reported;
in particular never more colours than documented (COLORTERM=24bit is accepted as well). -/
theorem C164_partial (get : String → String) :
    (colorDepth get = 16777216 ↔ get "COLORTERM" = "truecolor" ∨ get "COLORTERM" = "24bit") ∧
    (colorDepth get = 256 ↔ ¬ (get "COLORTERM" = "truecolor" ∨ get "COLORTERM" = "24bit") ∧
      (get "TERM" = "xterm-256color" ∨ get "TERM" = "screen-256color" ∨ get "TERM" = "tmux-256color")) ∧
    (colorDepth get = 16777216 ∨ colorDepth get = 256 ∨ colorDepth get = 16) ∧
    (colorDepth get = 256 → Has (get "TERM") "256color") := by
  have key : ∀ x, (x = "xterm-256color" ∨ x = "screen-256color" ∨ x = "tmux-256color") → Has x "256color" := by
    intro x hx
    rcases hx with rfl | rfl | rfl
    · exact ⟨"xterm-".toList, [], by decide⟩
    · exact ⟨"screen-".toList, [], by decide⟩
    · exact ⟨"tmux-".toList, [], by decide⟩
  unfold colorDepth
  by_cases h1 : get "COLORTERM" = "truecolor" ∨ get "COLORTERM" = "24bit"
  · rw [if_pos h1]
    refine ⟨⟨fun _ => h1, fun _ => rfl⟩, ⟨fun h => absurd h (by decide), fun h => absurd h1 h.1⟩, .inl rfl,
      fun h => absurd h (by decide)⟩
  · rw [if_neg h1]
    by_cases h2 : get "TERM" = "xterm-256color" ∨ get "TERM" = "screen-256color" ∨ get "TERM" = "tmux-256color"
    · rw [if_pos h2]
      exact ⟨⟨fun h => absurd h (by decide), fun h => absurd h h1⟩, ⟨fun _ => ⟨h1, h2⟩, fun _ => rfl⟩, .inr (.inl rfl),
        fun _ => key _ h2⟩
    · rw [if_neg h2]
      exact ⟨⟨fun h => absurd h (by decide), fun h => absurd h h1⟩,
        ⟨fun h => absurd h (by decide), fun h => absurd h.2 h2⟩, .inr (.inr rfl), fun h => absurd h (by decide)⟩

/-! ### C165 -/

/-- C165: on Linux, in every environment, the ANSI terminal reports 24-bit colour exactly when
AutoDetect does, and colours only when AutoDetect does. -/
def C165_statement : Prop :=
  ∀ (get : String → String), let core := Core.autoDetect Char.toLower .linux get
    (colorDepth get = 16777216 ↔ core.depth = 16777216) ∧ (core.depth = 0 → colorDepth get = 0)

/-- False: NO_COLOR switches AutoDetect off and the terminal still claims 24 bits. -/
theorem C165_no_color_refuted : ∃ get : String → String, get "NO_COLOR" = "1" ∧
    (Core.autoDetect Char.toLower .linux get).depth = 0 ∧ colorDepth get = 16777216 :=
  ⟨fun k => if k = "NO_COLOR" then "1" else if k = "COLORTERM" then "truecolor" else "",
    by decide, by decide +kernel, by decide⟩

theorem C165_refuted : ¬ C165_statement := by
  intro h
  obtain ⟨get, _, h0, ht⟩ := C165_no_color_refuted
  have := (h get).2 h0
  rw [ht] at this
  exact absurd this (by decide)

/-- ... and the other way round: AutoDetect knows iTerm and VS Code, the terminal does not. -/
theorem C165_term_program_refuted : ∃ get : String → String, get "TERM_PROGRAM" = "iTerm.app" ∧
    (Core.autoDetect Char.toLower .linux get).depth = 16777216 ∧ colorDepth get = 16 :=
  ⟨fun k => if k = "TERM_PROGRAM" then "iTerm.app" else if k = "TERM" then "xterm" else "",
    by decide, by decide +kernel, by decide⟩

/-- C165 where only TERM and COLORTERM speak (no NO_COLOR, FORCE_COLOR, TERM_PROGRAM), TERM is set
and not dumb, and COLORTERM is written in lower case: the two agree about 24 bits, and whenever
the terminal reports 256 colours so does AutoDetect. -/
theorem C165_partial (get : String → String) (h1 : get "NO_COLOR" = "") (h2 : get "FORCE_COLOR" = "")
    (h3 : get "TERM_PROGRAM" = "") (h4 : get "TERM" ≠ "") (h5 : get "TERM" ≠ "dumb")
    (h6 : (get "COLORTERM").toList.map Char.toLower = (get "COLORTERM").toList) :
    (colorDepth get = 16777216 ↔ (Core.autoDetect Char.toLower .linux get).depth = 16777216) ∧
    (colorDepth get = 256 → (Core.autoDetect Char.toLower .linux get).depth = 256) := by
  have hd : Core.autoDetect Char.toLower .linux get =
      Core.newCaps true (Core.detectDepth Char.toLower ⟨get, "unix"⟩) true true true := by
    show Core.detect Char.toLower ⟨get, "unix"⟩ = _
    unfold Core.detect Core.detectUnix
    rw [if_neg (fun h => h h1), if_neg (fun h => h h2), if_neg (show ¬ ("unix" = "windows") by decide), if_neg (show ¬ ("unix" = "darwin") by decide),
      if_neg (fun h => h.elim h5 h4)]
  have hl : ∀ d : Int, (d = 0 ∨ d = 8 ∨ d = 256 ∨ d = 16777216) → (Core.newCaps true d true true true).depth = d := by
    intro d hd
    unfold Core.newCaps Core.depthNone Core.depth8 Core.depth256 Core.depthTrue
    simp only
    rw [if_pos hd]
  have hv : Core.detectDepth Char.toLower ⟨get, "unix"⟩ =
      if (get "COLORTERM" = "truecolor" ∨ get "COLORTERM" = "24bit") then 16777216
      else if Core.contains (get "TERM").toList "256color".toList = true then 256 else 8 := by
    unfold Core.detectDepth
    simp only [h6]
    have e1 : ((get "COLORTERM").toList = "truecolor".toList ∨ (get "COLORTERM").toList = "24bit".toList) ↔
        (get "COLORTERM" = "truecolor" ∨ get "COLORTERM" = "24bit") := by
      simp only [String.toList_inj]
    have e2 : ¬ (get "TERM_PROGRAM" = "iTerm.app" ∨ get "TERM_PROGRAM" = "vscode" ∨
      get "TERM_PROGRAM" = "Hyper" ∨ get "TERM_PROGRAM" = "WarpTerminal") := by
      rw [h3]; decide
    have e3 : ¬ get "TERM_PROGRAM" = "Apple_Terminal" := by rw [h3]; decide
    by_cases hc : get "COLORTERM" = "truecolor" ∨ get "COLORTERM" = "24bit"
    · rw [if_pos (e1.2 hc), if_pos hc]; rfl
    · rw [if_neg (fun h => hc (e1.1 h)), if_neg hc, if_neg e2, if_neg e3]
      by_cases h256 : Core.contains (get "TERM").toList "256color".toList = true
      · rw [if_pos h256, if_pos h256]; rfl
      · rw [if_neg h256, if_neg h256]
        split
        · rfl
        · rw [if_neg (fun h => h.elim h5 h4)]; rfl
  rw [hd, hl _ (by rw [hv]; (repeat' split) <;> simp), hv]
  obtain ⟨p1, p2, _, _⟩ := C164_partial get
  constructor
  · rw [p1]
    by_cases hc : get "COLORTERM" = "truecolor" ∨ get "COLORTERM" = "24bit"
    · rw [if_pos hc]; exact ⟨fun _ => rfl, fun _ => hc⟩
    · rw [if_neg hc]
      refine ⟨fun h => absurd h hc, fun h => ?_⟩
      split at h <;> exact absurd h (by decide)
  · intro h
    obtain ⟨hc, ht⟩ := p2.1 h
    rw [if_neg hc]
    have : Core.contains (get "TERM").toList "256color".toList = true := by
      rcases ht with ht | ht | ht <;> rw [ht] <;> decide +kernel
    rw [if_pos this]

example : colorDepth (fun k => if k = "TERM" then "xterm-256color" else "") = 256 := by decide

/-! ### Windows: cursor styles and leaving the alternate screen -/

/-- C115: both implementations accept exactly the same cursor styles; on Windows a block fills the
cell, an underline is a quarter of it and a bar a tenth; nothing else of the buffer changes. -/
theorem C115_styles (t : VT) (b : Buf) (s : Int) :
    ((b.setStyle s).isSome = (setCursorStyle s).isSome) ∧
    (b.setStyle 0 = some { b with csize := 100 }) ∧ (b.setStyle 1 = some { b with csize := 25 }) ∧
    (b.setStyle 2 = some { b with csize := 10 }) := by
  refine ⟨?_, rfl, rfl, rfl⟩
  obtain ⟨_, _, _, _, _, _, _, h1, h2⟩ := C114_cursor_modes t
  by_cases hs : 0 ≤ s ∧ s ≤ 2
  · rw [h2 s hs.1 hs.2]
    have : s = 0 ∨ s = 1 ∨ s = 2 := by omega
    rcases this with rfl | rfl | rfl <;> rfl
  · rw [h1 s (by omega)]
    unfold Buf.setStyle
    rw [if_neg (by omega), if_neg (by omega), if_neg (by omega)]; rfl

/-- C117 on Windows, without Write: whatever cursor and erase calls are made in the alternate
screen (they reach the alternate buffer), leaving it shows the original screen as it was, and the
calls drew only on what the user saw meanwhile. -/
theorem C117_windows_restores_partial (c : Con) (h : c.inAlt = false) (ha : c.altActive = false)
    (hn : c.alternate = none) (fs : List (Buf → Buf)) :
    let inside := fs.foldl (fun d f => d.setCur (f d.cur)) c.enterAlt
    inside.shown = fs.foldl (fun b f => f b) c.enterAlt.shown ∧
    c.enterAlt.shown.g = (fun _ _ => 32) ∧
    inside.exitAlt.shown = c.shown ∧ inside.exitAlt.primary = c.primary ∧
    inside.exitAlt.inAlt = false ∧ inside.exitAlt.altActive = false := by
  have key : ∀ (fs : List (Buf → Buf)) (d : Con) (b : Buf), d.inAlt = true → d.altActive = true →
      d.alternate = some b → d.primary = c.primary →
      let e := fs.foldl (fun d f => d.setCur (f d.cur)) d
      e.inAlt = true ∧ e.altActive = true ∧ e.alternate = some (fs.foldl (fun b f => f b) b) ∧ e.primary = c.primary := by
    intro fs
    induction fs with
    | nil => intro d b h1 h2 h3 h4; exact ⟨h1, h2, h3, h4⟩
    | cons f fs ih =>
      intro d b h1 h2 h3 h4
      have hcur : d.cur = b := by unfold Con.cur; rw [if_pos h1, h3]; rfl
      refine ih (d.setCur (f d.cur)) (f b) ?_ ?_ ?_ ?_
      · unfold Con.setCur; rw [if_pos h1]; exact h1
      · unfold Con.setCur; rw [if_pos h1]; exact h2
      · unfold Con.setCur; rw [if_pos h1, hcur]
      · unfold Con.setCur; rw [if_pos h1]; exact h4
  have he : c.enterAlt = { c with alternate := some { c.primary with g := fun _ _ => 32, cx := 0, cy := 0, visible := true, csize := 25 }, altActive := true, inAlt := true } := by
    unfold Con.enterAlt; rw [h]; rfl
  have hk := key fs c.enterAlt _ (by rw [he]) (by rw [he]) (by rw [he]) (by rw [he])
  intro inside
  obtain ⟨k1, k2, k3, k4⟩ := hk
  have hx : inside.exitAlt = { inside with alternate := none, altActive := false, inAlt := false } := by
    unfold Con.exitAlt
    rw [show inside.inAlt = true from k1]; rfl
  refine ⟨?_, ?_, ?_, ?_, ?_, ?_⟩
  · show (if inside.altActive then inside.alternate.getD inside.primary else inside.primary) = _
    rw [show inside.altActive = true from k2, show inside.alternate = _ from k3, he]; rfl
  · rw [he]; rfl
  · rw [hx]
    show inside.primary = c.shown
    unfold Con.shown
    rw [ha]
    exact k4
  · rw [hx]; exact k4
  · rw [hx]
  · rw [hx]

end Phoenix.Terminal
