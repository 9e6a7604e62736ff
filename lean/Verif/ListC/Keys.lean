import Verif.ListC.Props
import Verif.Viewport.Keys
/-
Key table of the List (C125) and incremental filtering (C126), added after seeded bugs survived the
first version of the theorems.
-/
set_option linter.unusedVariables false
set_option linter.unusedSimpArgs false
namespace Phoenix.ListC
open Phoenix.Viewport (named)
variable {I : Type} (dflt : I → List Char → Bool)

/-- Everything of the list that a focus move must leave alone. -/
def SameButFocus (a b : L I) : Prop :=
  a.items = b.items ∧ a.filtered = b.filtered ∧ a.selected = b.selected ∧ a.query = b.query ∧
  a.single = b.single ∧ a.height = b.height

/-- Everything of the list that a selection change must leave alone. -/
def SameButSelection (a b : L I) : Prop :=
  a.items = b.items ∧ a.filtered = b.filtered ∧ a.focused = b.focused ∧ a.query = b.query ∧
  a.single = b.single ∧ a.height = b.height ∧ a.scroll = b.scroll

/-- All key names with a default binding. -/
def allNames : List String :=
  ["↑", "k", "↓", "j", "pgup", "ctrl+u", "pgdown", "ctrl+d", "home", "g", "end", "G", "space", "enter",
   "ctrl+a", "esc", "q", "ctrl+c"]

theorem keymap_named (m : KeyMsg) (names : List String) (a : Action)
    (h : ∀ n ∈ names, defaultKeymap n.toList = a) (hn : named m names) : defaultKeymap m.str = a := by
  obtain ⟨n, h1, h2⟩ := hn
  rw [h2]; exact h n h1

theorem keymap_other (m : KeyMsg) (h : ¬ named m allNames) : defaultKeymap m.str = .other := by
  have hn : ∀ n ∈ allNames, m.str ≠ n.toList := fun n hn e => h ⟨n, hn, e⟩
  simp only [allNames, List.forall_mem_cons] at hn
  obtain ⟨h1, h2, h3, h4, h5, h6, h7, h8, h9, h10, h11, h12, h13, h14, h15, h16, h17, h18, _⟩ := hn
  simp only [defaultKeymap]
  rw [if_neg (by simp only [h1, h2, or_self, not_false_eq_true]), if_neg (by simp only [h3, h4, or_self, not_false_eq_true]),
    if_neg (by simp only [h5, h6, or_self, not_false_eq_true]), if_neg (by simp only [h7, h8, or_self, not_false_eq_true]),
    if_neg (by simp only [h9, h10, or_self, not_false_eq_true]), if_neg (by simp only [h11, h12, or_self, not_false_eq_true]),
    if_neg h13, if_neg h14, if_neg h15, if_neg h16, if_neg (by simp only [h17, h18, or_self, not_false_eq_true])]

theorem nav_same (l : L I) (f : Int) : SameButFocus (l.navigate f) l := by
  unfold L.navigate; split <;> exact ⟨rfl, rfl, rfl, rfl, rfl, rfl⟩

theorem nav_focus {l : L I} (hne : l.filtered ≠ []) (f : Int) : (l.navigate f).focused = f := by
  unfold L.navigate
  rw [if_neg (by rwa [List.length_eq_zero_iff])]; rfl

/-- C125, focus keys. -/
theorem C125_focus_keys (c : C I) (hk : c.keymap = defaultKeymap) (h : c.d.Ok) (hne : c.d.filtered ≠ [])
    (m : KeyMsg) :
    let c' := c.step dflt (.key m)
    let n : Int := c.d.filtered.length
    (named m ["↑", "k"] → c'.d.focused = (c.d.focused - 1) % n ∧ SameButFocus c'.d c.d) ∧
    (named m ["↓", "j"] → c'.d.focused = (c.d.focused + 1) % n ∧ SameButFocus c'.d c.d) ∧
    (named m ["pgup", "ctrl+u"] → c'.d.focused = max 0 (c.d.focused - c.d.height) ∧ SameButFocus c'.d c.d) ∧
    (named m ["pgdown", "ctrl+d"] → c'.d.focused = min (n - 1) (c.d.focused + c.d.height) ∧ SameButFocus c'.d c.d) ∧
    (named m ["home", "g"] → c'.d.focused = 0 ∧ SameButFocus c'.d c.d) ∧
    (named m ["end", "G"] → c'.d.focused = n - 1 ∧ SameButFocus c'.d c.d) := by
  have hpos : 0 < c.d.filtered.length := List.length_pos_iff.2 hne
  have hf : 0 ≤ c.d.focused ∧ c.d.focused < c.d.filtered.length := by
    rcases h.focus with h' | h'
    · exact absurd h'.1 hne
    · exact h'
  have hh := h.height
  simp only [C.step, C.handleKey, hk]
  refine ⟨?_, ?_, ?_, ?_, ?_, ?_⟩
  · intro hn
    rw [keymap_named m _ .moveUp (by decide) hn]
    refine ⟨?_, nav_same _ _⟩
    show (c.d.navigate _).focused = _
    rw [nav_focus hne, navUp, if_neg (by omega)]
    split
    · rw [show c.d.focused - 1 = -1 by omega]
      rw [Int.emod_eq_add_self_emod, Int.emod_eq_of_lt (by omega) (by omega)]; omega
    · rw [Int.emod_eq_of_lt (by omega) (by omega)]
  · intro hn
    rw [keymap_named m _ .moveDown (by decide) hn]
    refine ⟨?_, nav_same _ _⟩
    show (c.d.navigate _).focused = _
    rw [nav_focus hne, navDown, if_neg (by omega)]
    split
    · rw [show c.d.focused + 1 = c.d.filtered.length by omega, Int.emod_self]
    · rw [Int.emod_eq_of_lt (by omega) (by omega)]
  · intro hn
    rw [keymap_named m _ .pageUp (by decide) hn]
    refine ⟨?_, nav_same _ _⟩
    show (c.d.navigate _).focused = _
    rw [nav_focus hne, navPageUp, if_neg (by omega)]
    split <;> omega
  · intro hn
    rw [keymap_named m _ .pageDown (by decide) hn]
    refine ⟨?_, nav_same _ _⟩
    show (c.d.navigate _).focused = _
    rw [nav_focus hne, navPageDown, if_neg (by omega)]
    split <;> omega
  · intro hn
    rw [keymap_named m _ .moveToStart (by decide) hn]
    exact ⟨nav_focus hne _, nav_same _ _⟩
  · intro hn
    rw [keymap_named m _ .moveToEnd (by decide) hn]
    refine ⟨?_, nav_same _ _⟩
    show (c.d.navigate _).focused = _
    rw [nav_focus hne, navEnd, if_neg (by omega)]

/-- C125, selection keys and keys that change nothing. -/
theorem C125_selection_keys (c : C I) (hk : c.keymap = defaultKeymap) (h : c.d.Ok) (hne : c.d.filtered ≠ [])
    (m : KeyMsg) :
    let c' := c.step dflt (.key m)
    (named m ["space"] → SameButSelection c'.d c.d ∧
      (c.d.single = true → c'.d.selected = [c.d.focused]) ∧
      (c.d.single = false → ∀ i, i ∈ c'.d.selected ↔ (i ∈ c.d.selected ↔ i ≠ c.d.focused))) ∧
    (named m ["ctrl+a"] → SameButSelection c'.d c.d ∧
      (c.d.single = true → c'.d.selected = c.d.selected) ∧
      (c.d.single = false → ∀ i, i ∈ c'.d.selected ↔ 0 ≤ i ∧ i < c.d.filtered.length)) ∧
    (named m ["esc"] → SameButSelection c'.d c.d ∧ c'.d.selected = []) ∧
    (named m ["enter", "q", "ctrl+c"] → c' = c) := by
  have hlen : c.d.filtered.length ≠ 0 := by rwa [ne_eq, List.length_eq_zero_iff]
  simp only [C.step, C.handleKey, hk]
  refine ⟨?_, ?_, ?_, ?_⟩
  · intro hn
    rw [keymap_named m _ .toggle (by decide) hn]
    have ht := C53_toggle c.d h.selNodup hne
    refine ⟨?_, ht.1, ?_⟩
    · show SameButSelection c.d.toggle c.d
      unfold L.toggle; (repeat' split) <;> exact ⟨rfl, rfl, rfl, rfl, rfl, rfl, rfl⟩
    · intro hs i
      rw [(ht.2 hs).1 i]
      by_cases e : i = c.d.focused
      · subst e; simp
      · simp [e]
  · intro hn
    rw [keymap_named m _ .selectAll (by decide) hn]
    refine ⟨?_, ?_, ?_⟩
    · show SameButSelection c.d.selectAll c.d
      unfold L.selectAll; split <;> exact ⟨rfl, rfl, rfl, rfl, rfl, rfl, rfl⟩
    · intro hs; show c.d.selectAll.selected = _; simp [L.selectAll, hs]
    · intro hs i
      show i ∈ c.d.selectAll.selected ↔ _
      simp only [L.selectAll, hs, hlen, Bool.false_eq_true, or_self, if_false, List.mem_map, List.mem_range]
      constructor
      · rintro ⟨k, hk, rfl⟩; omega
      · rintro ⟨h1, h2⟩; exact ⟨i.toNat, by omega, by omega⟩
  · intro hn
    rw [keymap_named m _ .clearSelection (by decide) hn]
    exact ⟨⟨rfl, rfl, rfl, rfl, rfl, rfl, rfl⟩, rfl⟩
  · rintro ⟨n, hn, e⟩
    simp only [List.mem_cons, List.not_mem_nil, or_false] at hn
    rcases hn with rfl | rfl | rfl
    · rw [e, show defaultKeymap "enter".toList = .confirm by decide]
    · rw [e, show defaultKeymap "q".toList = .quit by decide]
    · rw [e, show defaultKeymap "ctrl+c".toList = .quit by decide]

/-- C125, every other key: with the filter hidden nothing changes; with the filter shown a character
becomes the query, Backspace empties it, and nothing else has an effect. -/
theorem C125_other_keys (c : C I) (hk : c.keymap = defaultKeymap) (m : KeyMsg) (hn : ¬ named m allNames) :
    let c' := c.step dflt (.key m)
    (c.showFilter = false → c' = c) ∧
    (c.showFilter = true → m.type = .rune → c'.d.query = [m.rune] ∧ c'.d.items = c.d.items ∧
      c'.d.filtered = c.d.items.filter fun it => (c.d.filterFunc.getD dflt) it [m.rune]) ∧
    (c.showFilter = true → m.type = .backspace → c'.d.query = [] ∧ c'.d.items = c.d.items ∧
      c'.d.filtered = c.d.items) ∧
    (m.type ≠ .rune → m.type ≠ .backspace → c' = c) := by
  have hr : ∀ l : L I, l.resetFocus.query = l.query ∧ l.resetFocus.items = l.items ∧ l.resetFocus.filtered = l.filtered := by
    intro l; unfold L.resetFocus; split <;> exact ⟨rfl, rfl, rfl⟩
  simp only [C.step, C.handleKey, hk, keymap_other m hn]
  refine ⟨?_, ?_, ?_, ?_⟩
  · intro hs; simp [hs]
  · intro hs ht
    simp only [hs, ht, and_self, if_true]
    obtain ⟨h1, h2, h3⟩ := hr (({ c.d with query := [m.rune] } : L I).applyFilter dflt)
    exact ⟨h1, h2, h3.trans (by simp [L.applyFilter, svcFilter])⟩
  · intro hs ht
    simp only [hs, ht, reduceCtorEq, and_false, and_true, if_true, if_false]
    obtain ⟨h1, h2, h3⟩ := hr (({ c.d with query := [] } : L I).applyFilter dflt)
    exact ⟨h1, h2, h3.trans (by simp [L.applyFilter, svcFilter])⟩
  · intro h1 h2; simp [h1, h2]

example : named { type := .up } ["↑", "k"] ∧ named { type := .rune, rune := 'G' } ["end", "G"] ∧
    ¬ named { type := .rune, rune := 'x' } allNames := by
  refine ⟨⟨"↑", by simp, rfl⟩, ⟨"G", by simp, rfl⟩, ?_⟩
  rintro ⟨n, hn, e⟩
  simp only [allNames, List.mem_cons, List.not_mem_nil, or_false] at hn
  rcases hn with rfl | rfl | rfl | rfl | rfl | rfl | rfl | rfl | rfl | rfl | rfl | rfl | rfl | rfl | rfl | rfl | rfl | rfl <;>
    exact absurd e (by decide)

/-! ## C126 incremental filtering -/

def typed (s : List Char) : List (Op I) := s.map fun ch => .key { type := .rune, rune := ch }

/-- Full C126, which does not hold: after typing a text without bound characters the list shows
the items matching that text. Each character replaces the query instead of extending it. -/
theorem C126_typing_refuted :
    ¬ ∀ (items : List (List Char)) (s : List Char), (∀ ch ∈ s, ¬ named { type := .rune, rune := ch } allNames) →
      (((C.new exDflt items true).step exDflt (.showFilter true)).run exDflt (typed s)).d.query = s := by
  intro h
  have := h exItems ['a', 'p'] (by
    intro ch hch
    rintro ⟨n, hn, e⟩
    simp only [List.mem_cons, List.not_mem_nil, or_false] at hch
    simp only [allNames, List.mem_cons, List.not_mem_nil, or_false] at hn
    rcases hch with rfl | rfl <;>
    rcases hn with rfl | rfl | rfl | rfl | rfl | rfl | rfl | rfl | rfl | rfl | rfl | rfl | rfl | rfl | rfl | rfl | rfl | rfl <;>
    exact absurd e (by decide))
  revert this; decide

/-- C126, what does hold: the query is the last character typed, and exactly the matching items are shown. -/
theorem C126_last_character_partial (items : List I) (single : Bool) (s : List Char) (ch : Char)
    (hs : ∀ x ∈ s, ¬ named { type := .rune, rune := x } allNames) (hch : ¬ named { type := .rune, rune := ch } allNames) :
    let l := (((C.new dflt items single).step dflt (.showFilter true)).run dflt (typed (s ++ [ch]))).d
    l.query = [ch] ∧ l.filtered = items.filter fun it => dflt it [ch] := by
  have inv : ∀ (s : List Char), (∀ x ∈ s, ¬ named { type := .rune, rune := x } allNames) →
      ∀ c : C I, c.keymap = defaultKeymap → c.showFilter = true → c.d.items = items → c.d.filterFunc = none →
      (c.run dflt (typed s)).keymap = defaultKeymap ∧ (c.run dflt (typed s)).showFilter = true ∧
      (c.run dflt (typed s)).d.items = items ∧ (c.run dflt (typed s)).d.filterFunc = none := by
    intro s
    induction s with
    | nil => intro _ c h1 h2 h3 h4; exact ⟨h1, h2, h3, h4⟩
    | cons x s ih =>
      intro hs c h1 h2 h3 h4
      have ho := keymap_other { type := .rune, rune := x } (hs x (by simp))
      have hrun : c.run dflt (typed (x :: s)) = (c.step dflt (.key { type := .rune, rune := x })).run dflt (typed s) := rfl
      have hstep : c.step dflt (.key { type := .rune, rune := x }) = { c with d := c.d.setFilterQuery dflt [x] } := by
        simp only [C.step, C.handleKey, h1, ho, h2, and_self, if_true]
      rw [hrun, hstep]
      refine ih (fun y hy => hs y (by simp [hy])) _ h1 h2 ?_ ?_
      · show (c.d.setFilterQuery dflt [x]).items = items
        unfold L.setFilterQuery L.resetFocus; split <;> exact h3
      · show (c.d.setFilterQuery dflt [x]).filterFunc = none
        unfold L.setFilterQuery L.resetFocus; split <;> exact h4
  intro l
  have h0 : (C.new dflt items single).d.items = items ∧ (C.new dflt items single).d.filterFunc = none := by
    unfold C.new L.withItems L.resetFocus; split <;> exact ⟨rfl, rfl⟩
  obtain ⟨i1, i2, i3, i4⟩ := inv s hs ((C.new dflt items single).step dflt (.showFilter true)) rfl rfl h0.1 h0.2
  have hl : l = ((((C.new dflt items single).step dflt (.showFilter true)).run dflt (typed s)).step dflt
      (.key { type := .rune, rune := ch })).d := by
    simp only [l, typed, List.map_append, C.run, List.foldl_append]; rfl
  rw [hl]
  generalize ((C.new dflt items single).step dflt (.showFilter true)).run dflt (typed s) = c at *
  obtain ⟨h1, _, h3⟩ := (C125_other_keys dflt c i1 { type := .rune, rune := ch } hch).2.1 i2 rfl
  exact ⟨h1, h3.trans (by rw [i3, i4]; rfl)⟩

/-- C125, before anything is configured: a new list hides its filter and has the default bindings, and both stay until the
program says otherwise, whatever keys arrive; so the keys without a command change nothing at all. -/
theorem C125_new_list (items : List I) (single : Bool) (ops : List (Op I)) (m : KeyMsg) (hn : ¬ named m allNames)
    (h1 : ∀ b, Op.showFilter b ∉ ops) (h2 : ∀ k, Op.keyBindings k ∉ ops) :
    let c := (C.new dflt items single).run dflt ops
    c.step dflt (.key m) = c ∧ c.showFilter = false ∧ c.keymap = defaultKeymap := by
  intro c
  have inv : ∀ (ops : List (Op I)) (c : C I), c.showFilter = false → c.keymap = defaultKeymap →
      (∀ b, Op.showFilter b ∉ ops) → (∀ k, Op.keyBindings k ∉ ops) →
      (c.run dflt ops).showFilter = false ∧ (c.run dflt ops).keymap = defaultKeymap := by
    intro ops
    induction ops with
    | nil => intro c a b _ _; exact ⟨a, b⟩
    | cons o os ih =>
      intro c a b x y
      refine ih (c.step dflt o) ?_ ?_ (fun b hb => x b (List.mem_cons_of_mem _ hb)) (fun k hk => y k (List.mem_cons_of_mem _ hk))
      · cases o with
        | showFilter z => exact absurd List.mem_cons_self (x z)
        | key m => simp only [C.step, C.handleKey]; split <;> (try exact a) <;> (split <;> (try exact a) <;> (split <;> exact a))
        | _ => exact a
      · cases o with
        | keyBindings z => exact absurd List.mem_cons_self (y z)
        | key m => simp only [C.step, C.handleKey]; split <;> (try exact b) <;> (split <;> (try exact b) <;> (split <;> exact b))
        | _ => exact b
  obtain ⟨a, b⟩ := inv ops (C.new dflt items single) rfl rfl h1 h2
  exact ⟨(C125_other_keys dflt c b m hn).1 a, a, b⟩

example : ((C.new exDflt exItems true).run exDflt [.height 3, .key { type := .down }]).step exDflt
    (.key { type := .rune, rune := 'x' }) = (C.new exDflt exItems true).run exDflt [.height 3, .key { type := .down }] :=
  (C125_new_list exDflt exItems true [.height 3, .key { type := .down }] { type := .rune, rune := 'x' }
    (by
      rintro ⟨n, hn, e⟩
      simp only [allNames, List.mem_cons, List.not_mem_nil, or_false] at hn
      rcases hn with rfl | rfl | rfl | rfl | rfl | rfl | rfl | rfl | rfl | rfl | rfl | rfl | rfl | rfl | rfl | rfl | rfl | rfl <;>
        exact absurd e (by decide)) (by simp) (by simp)).1

end Phoenix.ListC
