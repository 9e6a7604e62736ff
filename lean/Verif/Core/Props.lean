import Verif.Core.Model
/-
Theorems about package core: C73 (capability detection), C111 (dumb terminals), C112 (Apple Terminal),
C118 (value objects), C119 (width with configuration).
-/
set_option linter.unusedVariables false
set_option linter.unusedSimpArgs false
namespace Phoenix.Core

/-! ## C73 capability detection -/

/-- The four depths users may rely on. -/
def LegalDepth (d : Int) : Prop := d = 0 ∨ d = 8 ∨ d = 256 ∨ d = 16777216

theorem newCaps_legal (a : Bool) (d : Int) (m l c : Bool) : LegalDepth (newCaps a d m l c).depth := by
  unfold newCaps LegalDepth
  simp only []
  split
  · assumption
  · exact Or.inl rfl

/-- C73: whatever arguments are given, a capabilities value without ANSI support claims neither mouse nor
alternate screen nor cursor control, its depth is legal, and legal depths and ANSI claims are kept. -/
theorem C73_new (a : Bool) (d : Int) (m l c : Bool) :
    (newCaps a d m l c).ansi = a ∧
    (newCaps a d m l c).mouse = (a && m) ∧ (newCaps a d m l c).alt = (a && l) ∧
    (newCaps a d m l c).cursor = (a && c) ∧ LegalDepth (newCaps a d m l c).depth ∧
    (LegalDepth d → (newCaps a d m l c).depth = d) ∧ (¬ LegalDepth d → (newCaps a d m l c).depth = 0) := by
  refine ⟨rfl, ?_, ?_, ?_, newCaps_legal a d m l c, ?_, ?_⟩
  · cases a <;> rfl
  · cases a <;> rfl
  · cases a <;> rfl
  · intro h; exact if_pos h
  · intro h; exact if_neg h

/-- Capabilities as an application can obtain them: from detection or from the constructor. -/
inductive Obtained (lower : Char → Char) : Caps → Prop where
  | new (a d m l c) : Obtained lower (newCaps a d m l c)
  | detected (e) : Obtained lower (detect lower e)

theorem detect_is_new (lower : Char → Char) (e : Env) :
    ∃ a d m l c, detect lower e = newCaps a d m l c ∧ (a = false → d = 0) := by
  unfold detect detectWindows detectMac detectUnix parseForce
  repeat' split
  all_goals first
    | exact ⟨_, _, _, _, _, rfl, fun _ => rfl⟩
    | exact ⟨_, _, _, _, _, rfl, fun h => by cases h⟩

/-- C73: every obtainable capabilities value is coherent: no ANSI means no mouse, alternate screen or cursor
control, and the depth is one of the four legal values. -/
theorem C73_coherent (lower : Char → Char) (c : Caps) (h : Obtained lower c) :
    LegalDepth c.depth ∧ (c.ansi = false → c.mouse = false ∧ c.alt = false ∧ c.cursor = false) := by
  have key : ∀ a d m l cc, LegalDepth (newCaps a d m l cc).depth ∧
      ((newCaps a d m l cc).ansi = false → (newCaps a d m l cc).mouse = false ∧
        (newCaps a d m l cc).alt = false ∧ (newCaps a d m l cc).cursor = false) := by
    intro a d m l cc
    refine ⟨newCaps_legal a d m l cc, ?_⟩
    intro h
    have h' : a = false := h
    subst h'
    exact ⟨rfl, rfl, rfl⟩
  cases h with
  | new a d m l cc => exact key a d m l cc
  | detected e =>
    obtain ⟨a, d, m, l, cc, hd, -⟩ := detect_is_new lower e
    rw [hd]
    exact key a d m l cc

/-- C73: a detected terminal without ANSI support has no colour either. -/
theorem C73_detect_no_ansi_no_color (lower : Char → Char) (e : Env) (h : (detect lower e).ansi = false) :
    (detect lower e).depth = 0 := by
  obtain ⟨a, d, m, l, cc, hd, hz⟩ := detect_is_new lower e
  rw [hd] at h ⊢
  have : d = 0 := hz h
  subst this
  rfl

/-- C73: NO_COLOR set to anything but the empty string disables everything, whatever else the environment
says, on every platform. -/
theorem C73_no_color (lower : Char → Char) (e : Env) (h : e.get "NO_COLOR" ≠ "") :
    detect lower e = { ansi := false, depth := 0, mouse := false, alt := false, cursor := false } := by
  unfold detect
  rw [if_pos h]
  rfl

/-- C73: FORCE_COLOR (without NO_COLOR) alone determines the result: two environments that agree on it get the
same capabilities, whatever else differs, platform included; and its levels mean what they say. -/
theorem C73_force_color (lower lower' : Char → Char) (e e' : Env) (h : e.get "NO_COLOR" = "") (h' : e'.get "NO_COLOR" = "")
    (hf : e.get "FORCE_COLOR" ≠ "") (heq : e'.get "FORCE_COLOR" = e.get "FORCE_COLOR") :
    detect lower e = detect lower' e' ∧
    (e.get "FORCE_COLOR" = "0" → detect lower e = ⟨false, 0, false, false, false⟩) ∧
    (e.get "FORCE_COLOR" = "1" → detect lower e = ⟨true, 8, true, true, true⟩) ∧
    (e.get "FORCE_COLOR" = "2" → detect lower e = ⟨true, 256, true, true, true⟩) ∧
    (e.get "FORCE_COLOR" ≠ "0" → e.get "FORCE_COLOR" ≠ "1" → e.get "FORCE_COLOR" ≠ "2" →
      detect lower e = ⟨true, 16777216, true, true, true⟩) := by
  have hd : ∀ (lo : Char → Char) (x : Env), x.get "NO_COLOR" = "" → x.get "FORCE_COLOR" ≠ "" →
      detect lo x = parseForce (x.get "FORCE_COLOR") := by
    intro lo x h1 h2
    unfold detect
    rw [if_neg (fun hh => hh h1), if_pos h2]
  rw [hd lower e h hf, hd lower' e' h' (by rw [heq]; exact hf), heq]
  refine ⟨rfl, ?_, ?_, ?_, ?_⟩
  · intro hx; rw [hx]; rfl
  · intro hx; rw [hx]; rfl
  · intro hx; rw [hx]; rfl
  · intro h0 h1 h2
    unfold parseForce
    rw [if_neg h0, if_neg h1, if_neg h2]
    rfl

/-- Depth for a truecolor announcement in COLORTERM. -/
theorem detectDepth_truecolor (lower : Char → Char) (e : Env)
    (h : (e.get "COLORTERM").toList.map lower = "truecolor".toList ∨ (e.get "COLORTERM").toList.map lower = "24bit".toList) :
    detectDepth lower e = 16777216 := by
  unfold detectDepth
  simp only []
  rw [if_pos h]
  rfl

/-- C73: without NO_COLOR and FORCE_COLOR, a real Unix terminal (TERM set and not dumb) gets ANSI, mouse,
alternate screen and cursor control, and 24-bit colour when COLORTERM announces it (in any letter case). -/
theorem C73_unix (lower : Char → Char) (e : Env) (h : e.get "NO_COLOR" = "") (hf : e.get "FORCE_COLOR" = "")
    (hw : e.platform ≠ "windows") (hm : e.platform ≠ "darwin") (ht : e.get "TERM" ≠ "dumb") (ht' : e.get "TERM" ≠ "") :
    (detect lower e).ansi = true ∧ (detect lower e).mouse = true ∧ (detect lower e).alt = true ∧
    (detect lower e).cursor = true ∧ (detect lower e).depth ≠ 0 ∧
    ((e.get "COLORTERM").toList.map lower = "truecolor".toList ∨ (e.get "COLORTERM").toList.map lower = "24bit".toList →
      (detect lower e).depth = 16777216) := by
  have hd : detect lower e = newCaps true (detectDepth lower e) true true true := by
    unfold detect detectUnix
    rw [if_neg (fun hh => hh h), if_neg (fun hh => hh hf), if_neg hw, if_neg hm,
      if_neg (fun hh => hh.elim ht ht')]
  have hl : LegalDepth (detectDepth lower e) ∧ detectDepth lower e ≠ 0 := by
    unfold detectDepth LegalDepth depthTrue depth256 depth8 depthNone
    simp only []
    repeat' split
    all_goals first
      | (refine ⟨by decide, by decide⟩)
      | (rename_i hh; exact (hh.elim ht ht').elim)
  rw [hd]
  have hdep : (newCaps true (detectDepth lower e) true true true).depth = detectDepth lower e := if_pos hl.1
  refine ⟨rfl, rfl, rfl, rfl, ?_, ?_⟩
  · rw [hdep]; exact hl.2
  · intro hc
    rw [hdep]
    exact detectDepth_truecolor lower e hc

/-- C73: the colour questions answer from the depth alone and agree with each other. -/
theorem C73_questions (lower : Char → Char) (c : Caps) (h : Obtained lower c) :
    (c.supportsColor = true ↔ c.depth ≠ 0) ∧ (c.supportsTrueColor = true ↔ c.depth = 16777216) ∧
    (c.supports256 = true ↔ c.depth = 256 ∨ c.depth = 16777216) ∧ (c.isDumb = true ↔ c.ansi = false ∧ c.depth = 0) ∧
    (∀ o : Caps, c.equal (some o) = true ↔ c = o) ∧ c.equal none = false := by
  have hl := (C73_coherent lower c h).1
  unfold Caps.supportsColor Caps.supportsTrueColor Caps.supports256 Caps.isDumb depthNone depthTrue depth256 at *
  refine ⟨?_, ?_, ?_, ?_, ?_, rfl⟩
  · rw [decide_eq_true_eq]; unfold LegalDepth at hl; omega
  · rw [decide_eq_true_eq]
  · rw [decide_eq_true_eq]; unfold LegalDepth at hl; omega
  · rw [Bool.and_eq_true, decide_eq_true_eq]; simp
  · intro o
    rcases c with ⟨c1, c2, c3, c4, c5⟩
    rcases o with ⟨o1, o2, o3, o4, o5⟩
    simp [Caps.equal, and_assoc]

/-- C73, concrete: a Linux terminal with COLORTERM=TrueColor is detected as 24-bit; the hypotheses of the
theorems above are met. -/
example : detect Char.toLower ⟨fun k => if k = "TERM" then "xterm" else if k = "COLORTERM" then "TrueColor" else "", "linux"⟩ = ⟨true, 16777216, true, true, true⟩ := by decide +kernel
example : (detect Char.toLower ⟨fun k => if k = "TERM" then "screen-256color" else "", "unix"⟩).depth = 256 := by
  decide +kernel

/-! ## C111 dumb terminals -/

/-- C111 (what AutoDetect does on Linux and macOS): without FORCE_COLOR, a terminal whose TERM is dumb or unset claims
nothing at all. -/
theorem C111_autodetect (lower : Char → Char) (os : GoOS) (get : String → String) (hos : os ≠ .windows)
    (hf : get "FORCE_COLOR" = "") (ht : get "TERM" = "dumb" ∨ get "TERM" = "") :
    autoDetect lower os get = ⟨false, 0, false, false, false⟩ := by
  have hp : platformString os = "unix" := by cases os <;> first | rfl | exact (hos rfl).elim
  unfold autoDetect detect detectUnix
  rw [hp]
  by_cases hn : get "NO_COLOR" = ""
  · rw [if_neg (fun hh => hh hn), if_neg (fun hh => hh hf), if_neg (show ¬ ("unix" = "windows") by decide),
      if_neg (show ¬ ("unix" = "darwin") by decide), if_pos ht]
    rfl
  · rw [if_pos hn]; rfl

/-- C111, refuted for the detector itself on platform "darwin": with TERM=dumb it claims ANSI, mouse, alternate
screen and cursor control (with no colour). -/
theorem C111_detector_darwin_refuted (lower : Char → Char) (hl : (([] : List Char).map lower) = []) :
    ¬ ∀ e : Env, e.platform ≠ "windows" → e.get "FORCE_COLOR" = "" → e.get "TERM" = "dumb" →
      (detect lower e).ansi = false := by
  intro h
  have := h ⟨fun k => if k = "TERM" then "dumb" else "", "darwin"⟩ (by decide) (by decide) (by decide)
  revert this
  unfold detect detectMac
  rw [if_neg (by decide), if_neg (by decide), if_neg (by decide), if_pos (by decide)]
  intro h
  cases h

/-! ## C112 Apple Terminal -/

/-- C112 (detector on platform "darwin"): Apple Terminal is never reported as 24-bit. -/
theorem C112_detector (lower : Char → Char) (e : Env) (hp : e.platform = "darwin")
    (hf : e.get "FORCE_COLOR" = "") (ht : e.get "TERM_PROGRAM" = "Apple_Terminal") :
    (detect lower e).depth ≠ 16777216 := by
  unfold detect detectMac
  by_cases hn : e.get "NO_COLOR" = ""
  · rw [if_neg (fun hh => hh hn), if_neg (fun hh => hh hf), hp, if_neg (by decide), if_pos rfl]
    by_cases hd : detectDepth lower e = depthTrue
    · rw [if_pos ⟨ht, hd⟩]; decide
    · rw [if_neg (fun hh => hd hh.2)]
      unfold newCaps
      simp only []
      split
      · exact hd
      · decide
  · rw [if_pos hn]; decide

/-- C112, refuted for the public AutoDetect on macOS: the platform string there is "unix", so the Apple Terminal
rule is never reached. -/
theorem C112_autodetect_refuted : ¬ ∀ get : String → String, get "FORCE_COLOR" = "" →
    get "TERM_PROGRAM" = "Apple_Terminal" → (autoDetect Char.toLower .darwin get).depth ≠ 16777216 := by
  intro h
  exact h (fun k => if k = "TERM_PROGRAM" then "Apple_Terminal" else if k = "TERM" then "xterm" else
    if k = "COLORTERM" then "truecolor" else "") (by decide) (by decide) (by decide +kernel)

/-- C112 (why): AutoDetect on macOS gives exactly what it gives on Linux, in every environment. -/
theorem C112_autodetect_mac_is_linux_partial (lower : Char → Char) (get : String → String) :
    autoDetect lower .darwin get = autoDetect lower .linux get := rfl

/-! ## C118 value objects -/

/-- C118: a position never leaves the quadrant, whatever sequence of moves is applied, and a move that does not cross
an edge is exact in that coordinate. -/
theorem C118_position (p : Pos) (moves : List (Int × Int)) :
    moves ≠ [] → 0 ≤ (moves.foldl (fun q m => Pos.add q m.1 m.2) p).row ∧
      0 ≤ (moves.foldl (fun q m => Pos.add q m.1 m.2) p).col := by
  have hadd : ∀ (q : Pos) (a b : Int), 0 ≤ (Pos.add q a b).row ∧ 0 ≤ (Pos.add q a b).col := by
    intro q a b
    unfold Pos.add newPos
    simp only []
    constructor <;> (repeat' split) <;> omega
  have gen : ∀ (ms : List (Int × Int)) (q : Pos), 0 ≤ q.row ∧ 0 ≤ q.col →
      0 ≤ (ms.foldl (fun q m => Pos.add q m.1 m.2) q).row ∧ 0 ≤ (ms.foldl (fun q m => Pos.add q m.1 m.2) q).col := by
    intro ms
    induction ms with
    | nil => intro q h; exact h
    | cons m ms ih => intro q h; exact ih _ (hadd q m.1 m.2)
  cases moves with
  | nil => intro h; exact (h rfl).elim
  | cons m ms => intro _; exact gen ms _ (hadd p m.1 m.2)

theorem C118_position_exact (p : Pos) (dr dc : Int) (hr : 0 ≤ p.row) (hc : 0 ≤ p.col) :
    (0 ≤ p.row + dr → (p.add dr dc).row = p.row + dr) ∧ (p.row + dr < 0 → (p.add dr dc).row = 0) ∧
    (0 ≤ p.col + dc → (p.add dr dc).col = p.col + dc) ∧ (p.col + dc < 0 → (p.add dr dc).col = 0) := by
  unfold Pos.add newPos
  simp only []
  refine ⟨?_, ?_, ?_, ?_⟩ <;> intro h <;> (repeat' split) <;> omega

/-- C118: sizes are at least 1×1, keep legal dimensions, have width times height as their area, and contain exactly the in-range positions;
every constructed size contains the origin. -/
theorem C118_size (w h : Int) :
    1 ≤ (newSize w h).width ∧ 1 ≤ (newSize w h).height ∧ (1 ≤ w → (newSize w h).width = w) ∧
    (1 ≤ h → (newSize w h).height = h) ∧ (newSize w h).area = max 1 w * max 1 h ∧
    (∀ r c : Int, (newSize w h).contains ⟨r, c⟩ = true ↔
      0 ≤ r ∧ r < (newSize w h).height ∧ 0 ≤ c ∧ c < (newSize w h).width) ∧
    (newSize w h).contains (newPos 0 0) = true := by
  have h1 : 1 ≤ (newSize w h).width := by unfold newSize; simp only []; split <;> omega
  have h2 : 1 ≤ (newSize w h).height := by unfold newSize; simp only []; split <;> omega
  have hc : ∀ r c : Int, (newSize w h).contains ⟨r, c⟩ = true ↔
      0 ≤ r ∧ r < (newSize w h).height ∧ 0 ≤ c ∧ c < (newSize w h).width := by
    intro r c
    unfold Size.contains
    simp only [Bool.and_eq_true, decide_eq_true_eq]
    constructor
    · rintro ⟨⟨⟨a, b⟩, c⟩, d⟩; exact ⟨a, b, c, d⟩
    · rintro ⟨a, b, c, d⟩; exact ⟨⟨⟨a, b⟩, c⟩, d⟩
  refine ⟨h1, h2, ?_, ?_, ?_, hc, ?_⟩
  · intro hw; unfold newSize; simp only []; rw [if_neg (by omega)]
  · intro hw; unfold newSize; simp only []; rw [if_neg (by omega)]
  · unfold Size.area newSize
    have e : ∀ n : Int, (if n < 1 then 1 else n) = max 1 n := by intro n; split <;> omega
    simp only [e]
  · exact (hc 0 0).2 ⟨by omega, by omega, by omega, by omega⟩

/-- C118: cells never have negative width; content is kept; an automatically sized cell is as wide as its
text. -/
theorem C118_cell (strW : List Char → Int) (hw : ∀ s, 0 ≤ strW s) (s : List Char) (w : Int) :
    (newCell s w).content = s ∧ 0 ≤ (newCell s w).width ∧ (0 ≤ w → (newCell s w).width = w) ∧
    (newCellAuto strW s).content = s ∧ (newCellAuto strW s).width = stringWidth strW s ∧
    ((newCell s w).isEmpty = true ↔ s = [] ∨ s = [' '] ∨ w ≤ 0) := by
  refine ⟨rfl, ?_, ?_, rfl, ?_, ?_⟩
  · unfold newCell; simp only []; split <;> omega
  · intro h; unfold newCell; simp only []; rw [if_neg (by omega)]
  · unfold newCellAuto newCell stringWidth
    simp only []
    have := hw s
    repeat' split
    all_goals omega
  · unfold Cell.isEmpty newCell
    simp only [Bool.or_eq_true, decide_eq_true_eq, or_assoc]
    have : ((if w < 0 then 0 else w) = 0) ↔ w ≤ 0 := by split <;> omega
    rw [this]

/-- What a chain of With… calls should leave behind: the last size asked for (clamped), the last raw-mode value. -/
def lastSize {σ : Type} : List (TOp σ) → Option (Int × Int)
  | [] => none
  | op :: ops => match lastSize ops with
    | some s => some s
    | none => match op with
      | .withSize w h => some (w, h)
      | .withRawMode _ => none

def lastRaw {σ : Type} : List (TOp σ) → Option (RawMode σ)
  | [] => none
  | op :: ops => match lastRaw ops with
    | some s => some s
    | none => match op with
      | .withSize _ _ => none
      | .withRawMode r => r

/-- C118: after any chain of WithSize/WithRawMode calls the terminal keeps its capabilities, has the last size asked for
clamped to at least 1×1 (80×24 if none), and is raw iff the last non-nil raw-mode value given is enabled; starting from
no capabilities gives the dumb terminal. -/
theorem C118_terminal {σ : Type} (c : Option Caps) (ops : List (TOp σ)) :
    let t := ops.foldl Terminal.step (newTerminal c)
    t.caps = c.getD ⟨false, 0, false, false, false⟩ ∧
    t.size = (match lastSize ops with | some s => newSize s.1 s.2 | none => ⟨80, 24⟩) ∧
    t.isRaw = (match lastRaw ops with | some r => r.enabled | none => false) ∧
    1 ≤ t.size.width ∧ 1 ≤ t.size.height := by
  have gen : ∀ (ops : List (TOp σ)) (t : Terminal σ),
      (ops.foldl Terminal.step t).caps = t.caps ∧
      (ops.foldl Terminal.step t).size = (match lastSize ops with | some s => newSize s.1 s.2 | none => t.size) ∧
      (ops.foldl Terminal.step t).raw = (match lastRaw ops with | some r => some r | none => t.raw) := by
    intro ops
    induction ops with
    | nil => intro t; exact ⟨rfl, rfl, rfl⟩
    | cons op ops ih =>
      intro t
      obtain ⟨h1, h2, h3⟩ := ih (t.step op)
      simp only [List.foldl_cons, lastSize, lastRaw]
      rw [h1, h2, h3]
      refine ⟨?_, ?_, ?_⟩
      · cases op with
        | withSize w h => rfl
        | withRawMode r => cases r <;> rfl
      · cases hL : lastSize ops with
        | some s => rfl
        | none => cases op with
          | withSize w h => rfl
          | withRawMode r => cases r <;> rfl
      · cases hL : lastRaw ops with
        | some s => rfl
        | none => cases op with
          | withSize w h => rfl
          | withRawMode r => cases r <;> rfl
  obtain ⟨h1, h2, h3⟩ := gen ops (newTerminal c)
  intro t
  have hs : t.size = (match lastSize ops with | some s => newSize s.1 s.2 | none => ⟨80, 24⟩) := h2
  refine ⟨h1, hs, ?_, ?_, ?_⟩
  · show Terminal.isRaw _ = _
    unfold Terminal.isRaw
    rw [show t.raw = _ from h3]
    cases lastRaw ops <;> rfl
  · rw [hs]; cases hL : lastSize ops with
    | none => decide
    | some s => exact (C118_size s.1 s.2).1
  · rw [hs]; cases hL : lastSize ops with
    | none => decide
    | some s => exact (C118_size s.1 s.2).2.1

/-- C118: a raw-mode value is created disabled and only from a real state; enabling and disabling never touch the saved
state. -/
theorem C118_rawmode {σ : Type} (s : σ) (flips : List Bool) :
    newRawMode (none : Option σ) = none ∧
    ∃ r, newRawMode (some s) = some r ∧ r.enabled = false ∧
      (flips.foldl (fun (r : RawMode σ) b => if b then r.enable else r.disable) r).original = s ∧
      (flips.foldl (fun (r : RawMode σ) b => if b then r.enable else r.disable) r).enabled = flips.getLast?.getD false := by
  refine ⟨rfl, ⟨false, s⟩, rfl, rfl, ?_, ?_⟩
  · have : ∀ (fs : List Bool) (r : RawMode σ),
        (fs.foldl (fun (r : RawMode σ) b => if b then r.enable else r.disable) r).original = r.original := by
      intro fs
      induction fs with
      | nil => intro r; rfl
      | cons b fs ih => intro r; rw [List.foldl_cons, ih]; cases b <;> rfl
    exact this flips _
  · have : ∀ (fs : List Bool) (r : RawMode σ),
        (fs.foldl (fun (r : RawMode σ) b => if b then r.enable else r.disable) r).enabled = fs.getLast?.getD r.enabled := by
      intro fs
      induction fs with
      | nil => intro r; rfl
      | cons b fs ih =>
        intro r
        rw [List.foldl_cons, ih]
        cases fs with
        | nil => cases b <;> rfl
        | cons c fs => simp [List.getLast?_cons]
    exact this flips _

example : ((⟨5, 3⟩ : Pos).add (-7) 2) = ⟨0, 5⟩ := by decide

/-! ## C119 width with configuration -/

theorem addWide_eq (rw rwWide : Char → Int) : ∀ (s : List Char) (w : Int),
    addWide rw rwWide w s = w + (s.map (fun c => max 0 (rwWide c - rw c))).sum
  | [], w => by simp [addWide]
  | c :: cs, w => by
    rw [addWide, addWide_eq rw rwWide cs, List.map_cons, List.sum_cons]
    split <;> omega

/-- C119: the width under a configuration is the default width plus, in East-Asian-wide mode, the extra columns of each
ambiguous rune; it is 0 for the empty string, never below the default width, and equals it in narrow mode. -/
theorem C119_width (strW : List Char → Int) (rw rwWide : Char → Int) (h0 : strW [] = 0) (s : List Char) :
    stringWidthCfg strW rw rwWide [] ⟨true⟩ = 0 ∧
    stringWidthCfg strW rw rwWide s ⟨false⟩ = stringWidth strW s ∧
    stringWidthCfg strW rw rwWide s ⟨true⟩ = stringWidth strW s + (s.map (fun c => max 0 (rwWide c - rw c))).sum ∧
    stringWidth strW s ≤ stringWidthCfg strW rw rwWide s ⟨true⟩ := by
  have h3 : stringWidthCfg strW rw rwWide s ⟨true⟩ =
      stringWidth strW s + (s.map (fun c => max 0 (rwWide c - rw c))).sum := by
    unfold stringWidthCfg stringWidth
    by_cases h : s = []
    · subst h; simp
    · rw [if_neg h, if_neg h, if_pos rfl, addWide_eq]
  refine ⟨rfl, ?_, h3, ?_⟩
  · unfold stringWidthCfg stringWidth
    by_cases h : s = []
    · rw [if_pos h, if_pos h]
    · rw [if_neg h, if_neg h]; rfl
  · rw [h3]
    have : ∀ l : List Char, 0 ≤ (l.map (fun c => max 0 (rwWide c - rw c))).sum := by
      intro l
      induction l with
      | nil => simp
      | cons c l ih => rw [List.map_cons, List.sum_cons]; omega
    have := this s
    omega

/-- C119: when the default width is additive over concatenation, so is the configured width. -/
theorem C119_additive (strW : List Char → Int) (rw rwWide : Char → Int) (h0 : strW [] = 0)
    (hadd : ∀ a b, strW (a ++ b) = strW a + strW b) (cfg : UConfig) (a b : List Char) :
    stringWidthCfg strW rw rwWide (a ++ b) cfg = stringWidthCfg strW rw rwWide a cfg + stringWidthCfg strW rw rwWide b cfg := by
  have hz : ∀ s, stringWidth strW s = strW s := by
    intro s; unfold stringWidth; split
    · next h => rw [h, h0]
    · rfl
  rcases cfg with ⟨w⟩
  cases w
  · rw [(C119_width strW rw rwWide h0 _).2.1, (C119_width strW rw rwWide h0 _).2.1, (C119_width strW rw rwWide h0 _).2.1,
      hz, hz, hz, hadd]
  · rw [(C119_width strW rw rwWide h0 _).2.2.1, (C119_width strW rw rwWide h0 _).2.2.1, (C119_width strW rw rwWide h0 _).2.2.1,
      hz, hz, hz, hadd, List.map_append, List.sum_append]
    omega

example : stringWidthCfg (fun s => s.length) (fun _ => 1) (fun c => if c = '±' then 2 else 1) "a±±".toList ⟨true⟩ = 5 := by
  decide +kernel

end Phoenix.Core
