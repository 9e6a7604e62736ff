import Verif.Viewport.Props
/-
Key table, content bookkeeping and mode switches of the Viewport (C58, C76, C123, C124), added after
seeded bugs survived the first version of the theorems.
-/
set_option linter.unusedVariables false
set_option linter.unusedSimpArgs false
namespace Phoenix.Viewport
variable {G : Type}

/-- The largest offset: the last page starts there. -/
def VP.last (v : VP G) : Int := max 0 ((v.content.length : Int) - v.height)

/-- The key message prints as one of these names. -/
def named (m : KeyMsg) (names : List String) : Prop := ∃ n ∈ names, m.str = n.toList

theorem matchKey_iff (m : KeyMsg) (names : List String) : matchKey m names = true ↔ named m names := by
  simp [matchKey, named, List.any_eq_true]

/-- All key names the viewport reacts to. -/
def allNames : List String :=
  ["↑", "k", "↓", "j", "pgup", "b", "ctrl+b", "pgdown", "f", "ctrl+f", "space", "home", "g", "end", "G",
   "ctrl+u", "ctrl+d"]

theorem named_append (m : KeyMsg) (a b : List String) : named m (a ++ b) ↔ named m a ∨ named m b := by
  simp only [named, List.mem_append]
  constructor
  · rintro ⟨n, h | h, e⟩
    · exact Or.inl ⟨n, h, e⟩
    · exact Or.inr ⟨n, h, e⟩
  · rintro (⟨n, h, e⟩ | ⟨n, h, e⟩)
    · exact ⟨n, Or.inl h, e⟩
    · exact ⟨n, Or.inr h, e⟩

theorem named_disjoint {m : KeyMsg} {a b : List String} (h : named m a)
    (hd : ∀ x ∈ a, ∀ y ∈ b, x.toList ≠ y.toList) : ¬ named m b := by
  rintro ⟨y, hy, ey⟩
  obtain ⟨x, hx, ex⟩ := h
  exact hd x hx y hy (ex.symm.trans ey)

/-- C123. What every key does to the scroll position, in any reachable state. -/
theorem C123_key_table (v : View G) (h : v.Ok) (m : KeyMsg) :
    let off := (v.step (.key m)).d.off
    (named m ["↑", "k"] → off = max 0 (v.d.off - 1)) ∧
    (named m ["↓", "j"] → off = min v.d.last (v.d.off + 1)) ∧
    (named m ["pgup", "b", "ctrl+b"] → off = max 0 (v.d.off - v.d.height)) ∧
    (named m ["pgdown", "f", "ctrl+f", "space"] → off = min v.d.last (v.d.off + v.d.height)) ∧
    (named m ["home", "g"] → off = 0) ∧
    (named m ["end", "G"] → off = v.d.last) ∧
    (named m ["ctrl+u"] → off = max 0 (v.d.off - v.d.height / 2)) ∧
    (named m ["ctrl+d"] → off = min v.d.last (v.d.off + v.d.height / 2)) ∧
    (¬ named m allNames → v.step (.key m) = v) := by
  obtain ⟨⟨h1, h2, h3, h4⟩, h5⟩ := h
  have hdiv : v.d.height.tdiv 2 = v.d.height / 2 := Int.tdiv_eq_ediv_of_nonneg h2
  have up : ∀ n : Int, 0 ≤ n → (v.d.scrollUp n).off = max 0 (v.d.off - n) := by
    intro n hn
    simp only [VP.scrollUp, newScrollOffset, svcScrollUp]
    (repeat' split) <;> omega
  have down : ∀ n : Int, 0 ≤ n → (v.d.scrollDown n).off = min v.d.last (v.d.off + n) := by
    intro n hn
    simp only [VP.scrollDown, newScrollOffset, svcScrollDown, maxScrollOffset, VP.last]
    (repeat' split) <;> omega
  have top : v.d.scrollToTop.off = 0 := rfl
  have bot : v.d.scrollToBottom.off = v.d.last := by
    simp only [VP.scrollToBottom, newScrollOffset, followModeOffset, maxScrollOffset, VP.last]
    (repeat' split) <;> omega
  have hh2 : 0 ≤ v.d.height / 2 := by omega
  simp only [View.step, View.handleKey]
  refine ⟨?_, ?_, ?_, ?_, ?_, ?_, ?_, ?_, ?_⟩
  · intro hn
    rw [if_pos ((matchKey_iff _ _).2 hn)]; exact up 1 (by omega)
  · intro hn
    rw [if_neg (fun c => named_disjoint hn (by decide) ((matchKey_iff _ _).1 c)), if_pos ((matchKey_iff _ _).2 hn)]
    exact down 1 (by omega)
  · intro hn
    rw [if_neg (fun c => named_disjoint hn (by decide) ((matchKey_iff _ _).1 c)),
      if_neg (fun c => named_disjoint hn (by decide) ((matchKey_iff _ _).1 c)), if_pos ((matchKey_iff _ _).2 hn)]
    exact up _ h2
  · intro hn
    rw [if_neg (fun c => named_disjoint hn (by decide) ((matchKey_iff _ _).1 c)),
      if_neg (fun c => named_disjoint hn (by decide) ((matchKey_iff _ _).1 c)),
      if_neg (fun c => named_disjoint hn (by decide) ((matchKey_iff _ _).1 c)), if_pos ((matchKey_iff _ _).2 hn)]
    exact down _ h2
  · intro hn
    rw [if_neg (fun c => named_disjoint hn (by decide) ((matchKey_iff _ _).1 c)),
      if_neg (fun c => named_disjoint hn (by decide) ((matchKey_iff _ _).1 c)),
      if_neg (fun c => named_disjoint hn (by decide) ((matchKey_iff _ _).1 c)),
      if_neg (fun c => named_disjoint hn (by decide) ((matchKey_iff _ _).1 c)), if_pos ((matchKey_iff _ _).2 hn)]
    exact top
  · intro hn
    rw [if_neg (fun c => named_disjoint hn (by decide) ((matchKey_iff _ _).1 c)),
      if_neg (fun c => named_disjoint hn (by decide) ((matchKey_iff _ _).1 c)),
      if_neg (fun c => named_disjoint hn (by decide) ((matchKey_iff _ _).1 c)),
      if_neg (fun c => named_disjoint hn (by decide) ((matchKey_iff _ _).1 c)),
      if_neg (fun c => named_disjoint hn (by decide) ((matchKey_iff _ _).1 c)), if_pos ((matchKey_iff _ _).2 hn)]
    exact bot
  · intro hn
    rw [if_neg (fun c => named_disjoint hn (by decide) ((matchKey_iff _ _).1 c)),
      if_neg (fun c => named_disjoint hn (by decide) ((matchKey_iff _ _).1 c)),
      if_neg (fun c => named_disjoint hn (by decide) ((matchKey_iff _ _).1 c)),
      if_neg (fun c => named_disjoint hn (by decide) ((matchKey_iff _ _).1 c)),
      if_neg (fun c => named_disjoint hn (by decide) ((matchKey_iff _ _).1 c)),
      if_neg (fun c => named_disjoint hn (by decide) ((matchKey_iff _ _).1 c)), if_pos ((matchKey_iff _ _).2 hn)]
    rw [hdiv]; exact up _ hh2
  · intro hn
    rw [if_neg (fun c => named_disjoint hn (by decide) ((matchKey_iff _ _).1 c)),
      if_neg (fun c => named_disjoint hn (by decide) ((matchKey_iff _ _).1 c)),
      if_neg (fun c => named_disjoint hn (by decide) ((matchKey_iff _ _).1 c)),
      if_neg (fun c => named_disjoint hn (by decide) ((matchKey_iff _ _).1 c)),
      if_neg (fun c => named_disjoint hn (by decide) ((matchKey_iff _ _).1 c)),
      if_neg (fun c => named_disjoint hn (by decide) ((matchKey_iff _ _).1 c)),
      if_neg (fun c => named_disjoint hn (by decide) ((matchKey_iff _ _).1 c)), if_pos ((matchKey_iff _ _).2 hn)]
    rw [hdiv]; exact down _ hh2
  · intro hn
    have no : ∀ l : List String, (∀ x ∈ l, x ∈ allNames) → ¬ matchKey m l = true := by
      intro l hl c
      obtain ⟨x, hx, ex⟩ := (matchKey_iff _ _).1 c
      exact hn ⟨x, hl x hx, ex⟩
    rw [if_neg (no _ (by decide)), if_neg (no _ (by decide)), if_neg (no _ (by decide)), if_neg (no _ (by decide)),
      if_neg (no _ (by decide)), if_neg (no _ (by decide)), if_neg (no _ (by decide)), if_neg (no _ (by decide))]

/-- C123: the names are those of the actual keys. -/
theorem C123_names :
    named { type := .up } ["↑"] ∧ named { type := .down } ["↓"] ∧ named { type := .pgUp } ["pgup"] ∧
    named { type := .pgDown } ["pgdown"] ∧ named { type := .home } ["home"] ∧ named { type := .end } ["end"] ∧
    named { type := .space } ["space"] ∧
    (∀ c : Char, ({ type := .rune, rune := c } : KeyMsg).str = [c]) ∧
    (∀ c : Char, ({ type := .rune, rune := c, ctrl := true } : KeyMsg).str = "ctrl+".toList ++ [c]) := by
  refine ⟨⟨_, by simp, rfl⟩, ⟨_, by simp, rfl⟩, ⟨_, by simp, rfl⟩, ⟨_, by simp, rfl⟩, ⟨_, by simp, rfl⟩, ⟨_, by simp, rfl⟩,
    ⟨_, by simp, rfl⟩, fun c => rfl, fun c => rfl⟩

example : ((View.newWithLines exLines 10 2).step (.key { type := .rune, rune := 'j' })).d.off = 1 := by decide

/-! ## C124 the content is what was set and appended -/

/-- Specification: the content after a history. -/
def contentAfter (init : List (List G)) : List (Op G) → List (List G)
  | [] => init
  | .setLines ls :: ops => contentAfter ls ops
  | .appendLines ls :: ops => contentAfter (init ++ ls) ops
  | _ :: ops => contentAfter init ops

theorem handleKey_content (v : View G) (m : KeyMsg) : (v.handleKey m).d.content = v.d.content := by
  unfold View.handleKey
  (repeat' split) <;> rfl

theorem handleMouse_content (v : View G) (m : MouseMsg) : (v.handleMouse m).d.content = v.d.content := by
  unfold View.handleMouse
  (repeat' split) <;> rfl

/-- C124. After any history the content is the text of the last SetContent/SetLines (or the initial
one) followed by everything appended since, in order; scrolling, keys, mouse and resizing never
change it. -/
theorem C124_content (ls : List (List G)) (w h : Int) (ops : List (Op G)) :
    ((View.newWithLines ls w h).run ops).d.content = contentAfter ls ops := by
  have h0 : (View.newWithLines ls w h).d.content = ls := by
    simp only [View.newWithLines, VP.withContent]; split <;> rfl
  generalize View.newWithLines ls w h = v at h0
  unfold View.run
  have hwc : ∀ (v : VP G) c, (v.withContent c).content = c := by
    intro v c; unfold VP.withContent; split <;> rfl
  induction ops generalizing v ls with
  | nil => exact h0
  | cons op ops ih =>
    rw [List.foldl_cons]
    cases op with
    | setLines l => exact ih l _ (hwc _ _)
    | appendLines l => exact ih (ls ++ l) _ ((hwc _ _).trans (by rw [h0]))
    | followMode b =>
      refine ih ls _ ?_
      show (v.d.withFollowMode b).content = ls
      unfold VP.withFollowMode; split <;> exact h0
    | key m => exact ih ls _ ((handleKey_content v m).trans h0)
    | mouse m =>
      refine ih ls _ ?_
      show (if v.mouseEnabled then v.handleMouse m else v).d.content = ls
      split
      · exact (handleMouse_content v m).trans h0
      · exact h0
    | wrapLines b => exact ih ls _ h0
    | mouseEnabled b => exact ih ls _ h0
    | setWheelScrollLines n => exact ih ls _ h0
    | scrollToBottom => exact ih ls _ h0
    | scrollToTop => exact ih ls _ h0
    | setYOffset o => exact ih ls _ h0
    | setSize w h => exact ih ls _ h0

example : contentAfter exLines [.appendLines ["six".toList], .key { type := .up }, .setLines [['a']], .appendLines [['b']]]
    = [['a'], ['b']] := rfl

/-! ## C58, C76: mode switches and the end of a drag -/

/-- C58: switching follow mode on jumps to the last page; switching it off, or setting an offset
explicitly, keeps/sets the position and stops following. -/
theorem C58_explicit_switches (v : VP G) (hv : v.Ok) (o : Int) :
    (v.withFollowMode true).follow = true ∧ (v.withFollowMode true).off = v.last ∧
    (v.withFollowMode false).follow = false ∧ (v.withFollowMode false).off = v.off ∧
    (v.withScrollOffset o).follow = false ∧ (v.withScrollOffset o).off = max 0 (min v.last o) := by
  obtain ⟨h1, h2, h3, h4⟩ := hv
  refine ⟨rfl, ?_, rfl, rfl, rfl, ?_⟩
  · simp only [VP.withFollowMode, newScrollOffset, followModeOffset, maxScrollOffset, VP.last, if_true]
    (repeat' split) <;> omega
  · simp only [VP.withScrollOffset, newScrollOffset, maxScrollOffset, VP.last]
    (repeat' split) <;> omega

/-- C76: a release ends the drag: afterwards motions have no effect until the next left press; and with
the mouse disabled no mouse message has any effect. -/
theorem C76_drag_ends (v : View G) (rel : MouseMsg) (hr : rel.action = .release)
    (hb : rel.button ≠ .wheelUp ∧ rel.button ≠ .wheelDown) (ms : List MouseMsg)
    (hms : ∀ m ∈ ms, m.button ≠ .wheelUp ∧ m.button ≠ .wheelDown ∧ (m.action = .press → m.button ≠ .left)) :
    (v.run (.mouse rel :: ms.map .mouse)).d = v.d ∧
    (v.mouseEnabled = false → ∀ m : MouseMsg, v.step (.mouse m) = v) := by
  constructor
  · by_cases hm : v.mouseEnabled = true
    · have h1 : (v.step (.mouse rel)).d = v.d ∧ (v.step (.mouse rel)).isDragging = false := by
        simp only [View.step, hm, if_true, View.handleMouse]
        obtain ⟨x, y, b, a, _, _, _⟩ := rel
        simp only at hr hb ⊢
        subst hr
        cases b <;> simp_all <;> (split <;> simp_all)
      show (List.foldl View.step (v.step (.mouse rel)) (ms.map .mouse)).d = v.d
      generalize v.step (.mouse rel) = u at h1
      obtain ⟨e1, e2⟩ := h1
      rw [← e1]
      clear e1 hm
      induction ms with
      | nil => rfl
      | cons m ms ih =>
        rw [List.map_cons, List.foldl_cons]
        have hs : u.step (.mouse m) = u := by
          simp only [View.step, View.handleMouse]
          obtain ⟨m1, m2, m3⟩ := hms m (by simp)
          obtain ⟨x, y, b, a, _, _, _⟩ := m
          simp only at m1 m2 m3 ⊢
          cases b <;> cases a <;> simp_all
        rw [hs]
        exact ih (fun m' hm' => hms m' (by simp [hm']))
    · have hs : ∀ m : MouseMsg, v.step (.mouse m) = v := by intro m; simp [View.step, hm]
      show (List.foldl View.step (v.step (.mouse rel)) (ms.map .mouse)).d = v.d
      rw [hs]
      clear hms
      induction ms with
      | nil => rfl
      | cons m ms ih => rw [List.map_cons, List.foldl_cons, hs]; exact ih
  · intro hm m
    simp [View.step, hm]

example : let v := (View.newWithLines exLines 10 2).run [.mouseEnabled true, .mouse ⟨0, 5, .left, .press, false, false, false⟩,
      .mouse ⟨0, 4, .left, .motion, false, false, false⟩]
    v.isDragging = true ∧ v.d.off = 1 := by decide

end Phoenix.Viewport
