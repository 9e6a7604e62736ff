import Verif.Tea.DialogScreen
import Verif.ListC.View
import Verif.Viewport.Props
/-
C204, C205: what the List and the Viewport show in a running program, from the bytes of the keyboard to the cells of the
terminal.  All parts are the models of the parts: Tea/KeyScreenModel.lean (decoder, goroutine, loop, inline renderer,
terminal), Tea/DialogModel.lean (the program around the component), ListC/Model.lean, ListC/View.lean, Viewport/Model.lean.
-/
set_option linter.unusedVariables false
set_option linter.unusedSimpArgs false
namespace Phoenix.Dialog
open Phoenix.Program Phoenix.Inline Phoenix.Picture Phoenix.Editor

variable {σ β Pen : Type}

/-! ### Specification -/

/-- Cell `j` of a terminal row that shows the characters `l` in the normal pen and nothing else. -/
def charCell (p0 : Pen) (l : Str) (j : Nat) : Cell Pen :=
  ((l[j]?).map fun c => (⟨[c], p0, false⟩ : Cell Pen)).getD (Cell.blank p0)

/-- The terminal shows exactly these lines from the row on where the program was started; all rows above are as they were,
all rows below are empty. -/
structure ShowsText (d : Dev Pen) (t0 t : TT Pen) (lines : List Str) : Prop where
  rows : ∀ i l, lines[i]? = some l → ∀ j, t.rows (t0.row + i) j = charCell d.p0 l j
  above : ∀ i, i < t0.row → t.rows i = t0.rows i
  below : ∀ i, t0.row + lines.length ≤ i → ∀ j, t.rows i j = Cell.blank d.p0

/-! ### Any component whose view does not get shorter -/

theorem paint_text {d : Dev Pen} (l : Str) (h : ∀ c ∈ l, Narrow d c) : Paint d l (charCell d.p0 l) l.length := by
  have := paint_line d d.p0 l h
  have e : pic d.p0 d.p0 (TextArea.plain l) = charCell d.p0 l := by
    funext j
    unfold pic charCell TextArea.plain
    rw [List.getElem?_map]
    cases l[j]? <;> rfl
  rw [e] at this
  exact this

theorem steady_text {c : Comp σ β} {cap : Nat} {chunks : List (List Nat)} {d : Dev Pen} {t0 : TT Pen}
    {view : σ → Str} {f : KeyScreen.St (DMsg β) (M σ β) Pen}
    (h : KeyScreen.Reach (app c) (fun m => view m.comp) (fun _ => none) cap .key d t0 chunks f)
    (ha : Alone f.s) (hW : 0 < d.W) (h0 : Ready d t0) (L : Nat → List Str)
    (hL : ∀ i, splitLines (view (after c ((Input.messages chunks).take i))) = L i)
    (hfit : ∀ i, (L i).length ≤ d.H ∧ ∀ l ∈ L i, l.length < d.W ∧ ∀ ch ∈ l, Narrow d ch)
    (hsame : ∀ i, (L i).length ≤ (L (i + 1)).length) :
    ∃ k, f.s.p.model.comp = after c ((Input.messages chunks).take k) ∧ ShowsText d t0 f.scr.2 (L k) ∧
      (f.s.stolen = 0 → f.s.cancelled = false → f.s.p.loop = .select → f.s.p.queue = [] → f.s.ended = true →
        (Input.messages chunks).length ≤ k) := by
  obtain ⟨k, h1, h2, h3⟩ := dialog_screen (view := view) h ha hW h0 (by
    intro i
    rw [hL i]
    refine ⟨(hfit i).1, fun l hl => ?_⟩
    obtain ⟨a, b⟩ := (hfit i).2 l hl
    exact ⟨_, _, paint_text l b, a⟩) (by
    intro i hlt
    rw [hL i, hL (i + 1)] at hlt
    have := hsame i
    omega)
  rw [hL k] at h2
  refine ⟨k, h1, ⟨?_, h2.above, h2.below⟩, h3⟩
  intro i l hl j
  obtain ⟨n, hp⟩ := h2.shown i l hl
  have := paint_unique d hp (paint_text l ((hfit k).2 l (List.mem_of_getElem? hl)).2)
  exact congrFun this j

theorem splitLines_text (s : Str) : splitLines s = ListC.textLines s := by
  induction s with
  | nil => rfl
  | cons c cs ih =>
    unfold splitLines ListC.textLines
    by_cases hc : c = '\n'
    · rw [if_pos hc, if_pos hc, ih]
    · rw [if_neg hc, if_neg hc, ih]
      cases e : ListC.textLines cs with
      | nil => exact absurd e (ListC.textLines_ne cs)
      | cons l ls => rfl

/-! ### List -/

section
variable {I : Type} (dflt : I → List Char → Bool) (label : I → List Char)

/-- components/list/list.go:194-249: Update on a key; the quit action returns tea.Quit() (234-235), nothing else returns a
command. -/
def listComp (c : ListC.C I) : Comp (ListC.C I) Unit where
  init := c
  upd := fun c k => (c.handleKey dflt k, if c.keymap k.str = .quit then .quit else .none)

/-- The list after some keys. -/
def listAfter (c : ListC.C I) (ks : List KeyMsg) : ListC.C I := ks.foldl (fun c k => c.handleKey dflt k) c

/-- A list with hidden filter and no key that clears a filter keeps everything but focus, scrolling and selection. -/
theorem list_key {c : ListC.C I} (hs : c.showFilter = false) (hk : ∀ x, c.keymap x ≠ .clearFilter) (m : KeyMsg) :
    let c' := c.handleKey dflt m
    c'.showFilter = false ∧ c'.keymap = c.keymap ∧ c'.d.filtered = c.d.filtered ∧ c'.d.height = c.d.height := by
  have nav : ∀ f, (c.d.navigate f).filtered = c.d.filtered ∧ (c.d.navigate f).height = c.d.height := by
    intro f; unfold ListC.L.navigate; split <;> exact ⟨rfl, rfl⟩
  have tog : c.d.toggle.filtered = c.d.filtered ∧ c.d.toggle.height = c.d.height := by
    unfold ListC.L.toggle; (repeat' split) <;> exact ⟨rfl, rfl⟩
  have all : c.d.selectAll.filtered = c.d.filtered ∧ c.d.selectAll.height = c.d.height := by
    unfold ListC.L.selectAll; split <;> exact ⟨rfl, rfl⟩
  intro c'
  have e : c' = c.handleKey dflt m := rfl
  clear_value c'
  subst e
  unfold ListC.C.handleKey
  have := hk m.str
  cases hh : c.keymap m.str with
  | clearFilter => exact absurd hh this
  | moveUp => exact ⟨hs, rfl, nav _⟩
  | moveDown => exact ⟨hs, rfl, nav _⟩
  | pageUp => exact ⟨hs, rfl, nav _⟩
  | pageDown => exact ⟨hs, rfl, nav _⟩
  | moveToStart => exact ⟨hs, rfl, nav _⟩
  | moveToEnd => exact ⟨hs, rfl, nav _⟩
  | toggle => exact ⟨hs, rfl, tog⟩
  | selectAll => exact ⟨hs, rfl, all⟩
  | clearSelection => exact ⟨hs, rfl, rfl, rfl⟩
  | confirm => exact ⟨hs, rfl, rfl, rfl⟩
  | quit => exact ⟨hs, rfl, rfl, rfl⟩
  | other => simp [hs]

theorem list_after (ks : List KeyMsg) : ∀ {c : ListC.C I}, c.showFilter = false → (∀ x, c.keymap x ≠ .clearFilter) →
    (listAfter dflt c ks).showFilter = false ∧ (listAfter dflt c ks).d.filtered = c.d.filtered ∧
    (listAfter dflt c ks).d.height = c.d.height := by
  induction ks with
  | nil => intro c h _; exact ⟨h, rfl, rfl⟩
  | cons k ks ih =>
    intro c hs hk
    obtain ⟨h1, h2, h3, h4⟩ := list_key dflt hs hk k
    obtain ⟨g1, g2, g3⟩ := ih h1 (by rw [h2]; exact hk)
    exact ⟨g1, g2.trans h3, g3.trans h4⟩

/-- C204.  A program around a List (any history of public calls before it starts that C169 allows; filter hidden, no key
bound to clearing the filter, at least one item displayed), running inline in a terminal in which its lines fit; keys as
bytes in any pieces, nobody else sending messages.  In every execution, at every moment, for some number `k` of the first
keys the terminal shows, cell by cell, `min height n` consecutive ones of the `n` items from item number `start` on, the one
focused after these `k` keys among them, each drawn by the item renderer with its number and the selected and focused flags
it has after these `k` keys, and nothing else; rows above are as they were, rows below are empty.  When the input is read
and the program is idle `k` covers all keys. -/
theorem C204_list_screen (muted info : List Char → List Char) (hm : ∀ x, '\n' ∉ x → '\n' ∉ muted x)
    (hi : ∀ x, '\n' ∉ x → '\n' ∉ info x) (items : List I) (single : Bool) (ops : List (ListC.VOp I))
    (ht : ListC.TameRun dflt (ListC.C.new dflt items single) (ListC.plainOps ops))
    {d : Dev Pen} {t0 : TT Pen} (h0 : Ready d t0) {cap : Nat} {chunks : List (List Nat)}
    {f : KeyScreen.St (DMsg Unit) (M (ListC.C I) Unit) Pen} :
    let v := (ListC.LV.new dflt label items single).run dflt ops
    let draw := lastSaid ListC.saysRenderer (ListC.defaultItemRenderer label) ops
    let keys := Input.messages chunks
    v.c.showFilter = false → (∀ x, v.c.keymap x ≠ .clearFilter) → v.c.d.filtered ≠ [] → 0 < v.c.d.height →
    min v.c.d.height.toNat v.c.d.filtered.length ≤ d.H →
    (∀ it ∈ v.c.d.filtered, ∀ i s b, (draw it i s b).length < d.W ∧ ∀ ch ∈ draw it i s b, Narrow d ch) →
    KeyScreen.Reach (app (listComp dflt v.c)) (fun m => ListC.LV.view muted info ⟨m.comp, v.renderer⟩) (fun _ => none) cap
      .key d t0 chunks f → Alone f.s →
    ∃ (k start : Nat) (rows : List Str),
      let l := (listAfter dflt v.c (keys.take k)).d
      f.s.p.model.comp = listAfter dflt v.c (keys.take k) ∧
      ShowsText d t0 f.scr.2 rows ∧
      rows.length = min v.c.d.height.toNat v.c.d.filtered.length ∧
      (∀ i, i < rows.length → ∃ it, v.c.d.filtered[start + i]? = some it ∧
        rows[i]? = some (draw it (start + i) (decide (((start + i : Nat) : Int) ∈ l.selected))
          (decide (((start + i : Nat) : Int) = l.focused)))) ∧
      ((start : Int) ≤ l.focused ∧ l.focused < start + rows.length) ∧
      (f.s.stolen = 0 → f.s.cancelled = false → f.s.p.loop = .select → f.s.p.queue = [] → f.s.ended = true →
        keys.length ≤ k) := by
  intro v draw keys hsf hcf hne hh hH hdraw h ha
  have hinv := fun i => list_after dflt (keys.take i) hsf hcf
  -- the component after keys is a component after a longer history
  have hrun : ∀ ks : List KeyMsg, (ListC.LV.run dflt v (ks.map fun k => .op (.key k))) = ⟨listAfter dflt v.c ks, v.renderer⟩ := by
    have : ∀ (ks : List KeyMsg) (w : ListC.LV I),
        ListC.LV.run dflt w (ks.map fun k => .op (.key k)) = ⟨listAfter dflt w.c ks, w.renderer⟩ := by
      intro ks
      induction ks with
      | nil => intro w; rfl
      | cons k ks ih => intro w; exact ih _
    exact fun ks => this ks v
  have hhist : ∀ ks : List KeyMsg, (ListC.LV.new dflt label items single).run dflt (ops ++ ks.map fun k => .op (.key k)) =
      ⟨listAfter dflt v.c ks, v.renderer⟩ := by
    intro ks
    rw [← hrun ks]
    exact List.foldl_append
  have hplain : ∀ ks : List KeyMsg, ListC.plainOps (ops ++ ks.map fun k => ListC.VOp.op (.key k)) =
      ListC.plainOps ops ++ ks.map .key := by
    intro ks
    unfold ListC.plainOps
    rw [List.filterMap_append]
    congr 1
    induction ks with
    | nil => rfl
    | cons k ks ih => rw [List.map_cons, List.filterMap_cons, ih]; rfl
  have htame : ∀ (os : List (ListC.Op I)) (ks : List KeyMsg) (c : ListC.C I), ListC.TameRun dflt c os →
      ListC.TameRun dflt c (os ++ ks.map .key) := by
    intro os
    induction os with
    | nil =>
      intro ks
      induction ks with
      | nil => intro c _; trivial
      | cons k ks ih => intro c h; exact ⟨trivial, ih _ trivial⟩
    | cons o os ih => intro ks c h; exact ⟨h.1, ih ks _ h.2⟩
  have hlast : ∀ ks : List KeyMsg, lastSaid ListC.saysRenderer (ListC.defaultItemRenderer label)
      (ops ++ ks.map fun k => ListC.VOp.op (.key k)) = draw := by
    intro ks
    show _ = lastSaid _ _ ops
    have e : (ks.map fun k => (ListC.VOp.op (.key k) : ListC.VOp I)).filterMap ListC.saysRenderer = [] := by
      induction ks with
      | nil => rfl
      | cons k ks ih => rw [List.map_cons, List.filterMap_cons]; exact ih
    unfold lastSaid
    rw [List.filterMap_append, e, List.append_nil]
  have hmain : ∀ i, ∃ (start : Nat) (rows : List Str),
      splitLines (ListC.LV.view muted info ⟨listAfter dflt v.c (keys.take i), v.renderer⟩) = rows ∧
      rows.length = min v.c.d.height.toNat v.c.d.filtered.length ∧
      (∀ j, j < rows.length → ∃ it, v.c.d.filtered[start + j]? = some it ∧
        rows[j]? = some (draw it (start + j) (decide (((start + j : Nat) : Int) ∈ (listAfter dflt v.c (keys.take i)).d.selected))
          (decide (((start + j : Nat) : Int) = (listAfter dflt v.c (keys.take i)).d.focused)))) ∧
      ((start : Int) ≤ (listAfter dflt v.c (keys.take i)).d.focused ∧
        (listAfter dflt v.c (keys.take i)).d.focused < start + rows.length) := by
    intro i
    obtain ⟨g1, g2, g3⟩ := hinv i
    have key := ListC.C169_list_view_partial dflt label muted info hm hi items single
      (ops ++ (keys.take i).map fun k => .op (.key k)) (by rw [hplain]; exact htame _ _ _ ht)
    simp only [hhist, hlast] at key
    obtain ⟨start, rows, k1, k2, k3, k4⟩ := key (by rw [g3]; exact hh) (by
      intro it hit i s b hc
      rw [g2] at hit
      have := ((hdraw it hit i s b).2 _ hc).2.1
      revert this; decide)
    rw [g2] at k1 k2 k3 k4
    rw [g3] at k2
    rw [if_neg hne, if_neg (by rw [g1]; simp), List.append_nil] at k1
    exact ⟨start, rows, by rw [splitLines_text]; exact k1, k2, k3, k4 hne⟩
  obtain ⟨k, e1, e2, e3⟩ := steady_text (view := fun c => ListC.LV.view muted info ⟨c, v.renderer⟩) h ha (by
      obtain ⟨it, hit⟩ := List.exists_mem_of_ne_nil _ hne
      have := (hdraw it hit 0 true true).1
      omega) h0
    (fun i => splitLines (ListC.LV.view muted info ⟨listAfter dflt v.c (keys.take i), v.renderer⟩)) (fun i => rfl) (by
      intro i
      obtain ⟨start, rows, m1, m2, m3, m4⟩ := hmain i
      show (splitLines _).length ≤ _ ∧ ∀ l ∈ splitLines _, _
      rw [m1]
      refine ⟨by rw [m2]; exact hH, ?_⟩
      intro l hl
      obtain ⟨j, hj, ej⟩ := List.getElem_of_mem hl
      obtain ⟨it, hit, hrow⟩ := m3 j hj
      rw [List.getElem?_eq_getElem hj, ej] at hrow
      rw [Option.some.inj hrow]
      exact hdraw it (List.mem_of_getElem? hit) _ _ _) (by
      intro i
      obtain ⟨_, _, m1, m2, _⟩ := hmain i
      obtain ⟨_, _, n1, n2, _⟩ := hmain (i + 1)
      show (splitLines _).length ≤ (splitLines _).length
      rw [m1, n1, m2, n2]
      exact Nat.le_refl _)
  obtain ⟨start, rows, m1, m2, m3, m4⟩ := hmain k
  refine ⟨k, start, rows, e1, ?_, m2, m3, m4, e3⟩
  rw [← m1]
  exact e2

theorem ite_ne {α : Type} {p : Prop} [Decidable p] {a b z : α} (ha : a ≠ z) (hb : b ≠ z) : (if p then a else b) ≠ z := by
  by_cases h : p
  · rw [if_pos h]; exact ha
  · rw [if_neg h]; exact hb

/-- No key of the default map clears the filter. -/
theorem default_no_clear (x : List Char) : ListC.defaultKeymap x ≠ .clearFilter := by
  unfold ListC.defaultKeymap
  iterate 11 refine ite_ne (by decide) ?_
  decide

theorem demo_draw : ∀ it ∈ [['a'], ['b']], ∀ (i : Nat) (s b : Bool),
    (ListC.defaultItemRenderer id it i s b).length < demoWide.W ∧ ∀ ch ∈ ListC.defaultItemRenderer id it i s b, Narrow demoWide ch := by
  intro it hit i s b
  rw [show ListC.defaultItemRenderer id it i s b = ListC.defaultItemRenderer id it 0 s b from rfl]
  unfold Narrow
  simp only [List.mem_cons, List.not_mem_nil, or_false] at hit
  rcases hit with rfl | rfl <;> cases s <;> cases b <;> refine ⟨by decide, ?_⟩ <;> decide

/-- The hypotheses are met: `j` typed to a new list of two items; the second one carries the mark. -/
example : ∃ f, KeyScreen.Reach (app (listComp ListC.exDflt (ListC.C.new ListC.exDflt [['a'], ['b']] false)))
      (fun m => ListC.LV.view id id ⟨m.comp, ListC.defaultItemRenderer id⟩) (fun _ => none) 100 .key demoWide demoTop [[106]] f ∧
    Alone f.s ∧ f.scr.2.rows 0 0 = ⟨[' '], false, false⟩ ∧ f.scr.2.rows 1 0 = ⟨['>'], false, false⟩ ∧
    f.scr.2.rows 1 2 = ⟨['b'], false, false⟩ ∧ f.scr.2.rows 2 0 = Cell.blank false := by
  let a := app (listComp ListC.exDflt (ListC.C.new ListC.exDflt [['a'], ['b']] false))
  let chunks : List (List Nat) := [[106]]
  have r : Typing.Reach a 100 .key chunks (Typing.start a chunks) := .start
  have r := Typing.Reach.step _ _ r (.read _ (some { type := .rune, rune := 'j' }) ⟨[], []⟩ rfl rfl rfl)
  have r := Typing.Reach.step _ _ r (.put _ (.key { type := .rune, rune := 'j' }) rfl rfl (by decide))
  have r := Typing.Reach.step _ _ r (.eof _ rfl rfl rfl)
  have r := Typing.Reach.step _ _ r (.prog _ _ (.recv _ _ _ rfl rfl))
  have r := Typing.Reach.step _ _ r (.prog _ _ (.update _ _ rfl))
  obtain ⟨f, hf, e⟩ := KeyScreen.reach_of_typing a (fun m => ListC.LV.view id id ⟨m.comp, ListC.defaultItemRenderer id⟩)
    (fun _ => none) 100 .key demoWide demoTop chunks r
  refine ⟨f, hf, by rw [e]; rfl, ?_⟩
  have hk : Input.messages chunks = [{ type := .rune, rune := 'j' }] := by decide +kernel
  obtain ⟨k, start, rows, h1, h2, h3, h4, h5, h6⟩ := C204_list_screen ListC.exDflt id id id (fun _ h => h) (fun _ h => h)
    [['a'], ['b']] false [] trivial (d := demoWide) demoWide_ready (cap := 100) (chunks := chunks)
    rfl default_no_clear (by decide) (by decide) (by decide) demo_draw hf (by rw [e] <;> rfl)
  have hkl := h6 (by rw [e] <;> rfl) (by rw [e] <;> rfl) (by rw [e] <;> rfl) (by rw [e] <;> rfl) (by rw [e] <;> rfl)
  rw [hk] at hkl h4 h5
  rw [List.take_of_length_le hkl] at h4 h5
  have h3 : rows.length = 2 := h3
  obtain ⟨c, hc⟩ : ∃ c, c = (listAfter ListC.exDflt (ListC.C.new ListC.exDflt [['a'], ['b']] false)
    [{ type := .rune, rune := 'j' }]).d := ⟨_, rfl⟩
  have hfo : c.focused = 1 ∧ c.selected = [] := by rw [hc]; decide +kernel
  have h4 : ∀ i, i < rows.length → ∃ it, [['a'], ['b']][start + i]? = some it ∧
        rows[i]? = some (ListC.defaultItemRenderer id it (start + i) (decide (((start + i : Nat) : Int) ∈ c.selected))
          (decide (((start + i : Nat) : Int) = c.focused))) := by rw [hc]; exact h4
  have h5 : (start : Int) ≤ c.focused ∧ c.focused < start + rows.length := by rw [hc]; exact h5
  rw [hfo.1, hfo.2] at h4
  obtain ⟨p0, e0, r0⟩ := h4 0 (by omega)
  obtain ⟨p1, e1, r1⟩ := h4 1 (by omega)
  have hst : start = 0 := by
    have : start + 1 < [['a'], ['b']].length := (List.getElem?_eq_some_iff.1 e1).1
    have : start + 1 < 2 := this
    omega
  subst hst
  cases e0
  cases e1
  exact ⟨h2.rows 0 _ r0 0, h2.rows 1 _ r1 0, h2.rows 1 _ r1 2, h2.below 2 (by rw [h3]; decide) 0⟩

end

/-! ### Viewport -/

section
open Phoenix.Viewport (View VP)

/-- components/viewport/viewport.go:152-216: Update on a key; it returns no command. -/
def pagerComp (v : View Char) : Comp (View Char) Unit where
  init := v
  upd := fun v k => (v.handleKey k, .none)

/-- components/viewport/viewport.go:262-270 `View`: the visible lines joined by newlines. -/
def pagerView (gw : Char → Nat) (v : View Char) : Str := ListC.joinItems (v.d.visibleLines gw)

/-- The viewport after some keys. -/
def pagerAfter (v : View Char) (ks : List KeyMsg) : View Char := ks.foldl (fun v k => v.handleKey k) v

/-- What keys leave alone. -/
def SamePage (a b : VP Char) : Prop :=
  a.content = b.content ∧ a.height = b.height ∧ a.width = b.width ∧ a.wrap = b.wrap

theorem pager_key (v : View Char) (k : KeyMsg) : SamePage (v.handleKey k).d v.d := by
  have up : ∀ n, SamePage (v.d.scrollUp n) v.d := fun n => ⟨rfl, rfl, rfl, rfl⟩
  have down : ∀ n, SamePage (v.d.scrollDown n) v.d := fun n => ⟨rfl, rfl, rfl, rfl⟩
  unfold View.handleKey
  (repeat' split) <;> exact ⟨rfl, rfl, rfl, rfl⟩

theorem pager_after (ks : List KeyMsg) : ∀ v : View Char, SamePage (pagerAfter v ks).d v.d := by
  induction ks with
  | nil => intro v; exact ⟨rfl, rfl, rfl, rfl⟩
  | cons k ks ih =>
    intro v
    obtain ⟨a1, a2, a3, a4⟩ := ih (v.handleKey k)
    obtain ⟨b1, b2, b3, b4⟩ := pager_key v k
    exact ⟨a1.trans b1, a2.trans b2, a3.trans b3, a4.trans b4⟩

theorem cut_take {w : Int} {line out : List Char} (hw : 0 ≤ w)
    (h : Viewport.IsCut (fun _ => 1) w line out) : out = line.take w.toNat := by
  have hs : ∀ l : List Char, ((l.map fun _ => 1).sum : Nat) = l.length := by
    intro l; induction l with
    | nil => rfl
    | cons c l ih => simp only [List.map_cons, List.sum_cons, ih, List.length_cons]; omega
  have h1 := h.fits
  have h2 := h.longest (line.take w.toNat) (List.take_prefix _ _)
  rw [hs] at h1 h2
  have h3 := h2 (by rw [List.length_take]; omega)
  have h4 := List.prefix_iff_eq_take.1 h.isPrefix
  rw [List.length_take] at h3
  by_cases hl : line.length ≤ w.toNat
  · rw [List.take_of_length_le hl]
    have : line.length ≤ out.length := by omega
    rw [h4, List.take_of_length_le this]
  · have : out.length = w.toNat := by omega
    rw [h4, this]

/-- C205.  A program around a Viewport without line wrapping (any history of public calls before it starts) whose content
consists of ordinary characters one column wide, running inline in a terminal at least as high as the viewport and wider;
keys as bytes in any pieces, nobody else sending messages.  In every execution, at every moment, for some number `k` of the
first keys the terminal shows, cell by cell, exactly the lines offset .. offset + height - 1 of the content, each cut to the
viewport's width, where offset is the scroll offset after these `k` keys; it never shows less than a full page if the
content fills one; rows above are as they were, rows below are empty.  When the input is read and the program is idle `k`
covers all keys. -/
theorem C205_viewport_screen {d : Dev Pen} {t0 : TT Pen} (h0 : Ready d t0) {cap : Nat} {chunks : List (List Nat)}
    (ls : List Str) (w h : Int) (ops : List (Viewport.Op Char))
    {f : KeyScreen.St (DMsg Unit) (M (View Char) Unit) Pen} :
    let v := (View.newWithLines ls w h).run ops
    let keys := Input.messages chunks
    v.d.wrap = false → 0 < v.d.width → 0 < v.d.height → v.d.content ≠ [] →
    v.d.width < d.W → v.d.height ≤ d.H → (∀ l ∈ v.d.content, ∀ ch ∈ l, Narrow d ch) →
    KeyScreen.Reach (app (pagerComp v)) (fun m => pagerView (fun _ => 1) m.comp) (fun _ => none) cap .key d t0 chunks f →
    Alone f.s →
    ∃ (k off : Nat),
      f.s.p.model.comp = pagerAfter v (keys.take k) ∧ (off : Int) = (pagerAfter v (keys.take k)).d.off ∧
      ShowsText d t0 f.scr.2
        (((v.d.content.drop off).take v.d.height.toNat).map fun l => l.take v.d.width.toNat) ∧
      ((v.d.content.drop off).take v.d.height.toNat).length = min v.d.height.toNat v.d.content.length ∧
      (f.s.stolen = 0 → f.s.cancelled = false → f.s.p.loop = .select → f.s.p.queue = [] → f.s.ended = true →
        keys.length ≤ k) := by
  intro v keys hwrap hw hh hne hW hH hnar hr ha
  have hok : ∀ i, (pagerAfter v (keys.take i)).d.Ok := by
    intro i
    have e : pagerAfter v (keys.take i) = (View.newWithLines ls w h).run (ops ++ (keys.take i).map .key) := by
      show _ = List.foldl _ _ _
      rw [List.foldl_append, List.foldl_map]
      rfl
    rw [e]
    exact Viewport.C57_reachable_ok ls w h _
  have hshown : ∀ i, (pagerAfter v (keys.take i)).d.visibleLines (fun _ => 1) =
      ((v.d.content.drop (pagerAfter v (keys.take i)).d.off.toNat).take v.d.height.toNat).map (fun l => l.take v.d.width.toNat) ∧
      ((v.d.content.drop (pagerAfter v (keys.take i)).d.off.toNat).take v.d.height.toNat).length =
        min v.d.height.toNat v.d.content.length := by
    intro i
    obtain ⟨s1, s2, s3, s4⟩ := pager_after (keys.take i) v
    have ok := hok i
    have key := Viewport.C57_visible_window (fun _ => 1) _ ok (by rw [s4]; exact hwrap) (by rw [s3]; exact hw)
    simp only [s1, s2, s3] at key
    obtain ⟨c1, c2, c3⟩ := key
    refine ⟨?_, ?_⟩
    · refine List.ext_getElem (by rw [c1, List.length_map]) ?_
      intro j hj1 hj2
      rw [List.getElem_map]
      exact cut_take (by omega) (c3 j hj1 (by rw [← c1]; exact hj1))
    · obtain ⟨o1, o2, o3, o4⟩ := ok
      rw [s1, s2] at o4
      rw [List.length_take, List.length_drop]
      have : 0 < v.d.content.length := List.length_pos_iff.2 hne
      omega
  have hlines : ∀ i, splitLines (pagerView (fun _ => 1) (pagerAfter v (keys.take i))) =
      ((v.d.content.drop (pagerAfter v (keys.take i)).d.off.toNat).take v.d.height.toNat).map (fun l => l.take v.d.width.toNat) := by
    intro i
    obtain ⟨e1, e2⟩ := hshown i
    unfold pagerView
    rw [e1, splitLines_text]
    generalize hL : ((v.d.content.drop (pagerAfter v (keys.take i)).d.off.toNat).take v.d.height.toNat).map
      (fun l => l.take v.d.width.toNat) = L
    have hno : ∀ x ∈ L, '\n' ∉ x := by
      intro x hx
      rw [← hL] at hx
      obtain ⟨l, hl, rfl⟩ := List.mem_map.1 hx
      intro hc
      have := (hnar l (List.mem_of_mem_drop (List.mem_of_mem_take hl)) _ (List.mem_of_mem_take hc)).2.1
      revert this; decide
    cases L with
    | nil =>
      have := congrArg List.length hL
      rw [List.length_map, e2, List.length_nil] at this
      have : 0 < v.d.content.length := List.length_pos_iff.2 hne
      omega
    | cons r rs => exact ListC.textLines_join hno
  obtain ⟨k, e1, e2, e3⟩ := steady_text (view := pagerView fun _ => 1) hr ha (by omega) h0 _ hlines (by
      intro i
      refine ⟨by rw [List.length_map, (hshown i).2]; omega, ?_⟩
      intro l hl
      obtain ⟨x, hx, rfl⟩ := List.mem_map.1 hl
      refine ⟨by rw [List.length_take]; omega, ?_⟩
      intro ch hc
      exact hnar x (List.mem_of_mem_drop (List.mem_of_mem_take hx)) ch (List.mem_of_mem_take hc)) (by
      intro i
      rw [List.length_map, List.length_map, (hshown i).2, (hshown (i + 1)).2]
      exact Nat.le_refl _)
  have hoff := (hok k).2.2.1
  exact ⟨k, (pagerAfter v (keys.take k)).d.off.toNat, e1, by omega, e2, (hshown k).2, e3⟩

def demoPage : List Str := [['a'], ['b'], ['c']]

/-- The hypotheses are met: in a viewport of two lines on three lines of content `j` is typed; lines two and three are
shown. -/
example : ∃ f, KeyScreen.Reach (app (pagerComp (View.newWithLines demoPage 5 2))) (fun m => pagerView (fun _ => 1) m.comp)
      (fun _ => none) 100 .key demoWide demoTop [[106]] f ∧ Alone f.s ∧
    f.scr.2.rows 0 0 = ⟨['b'], false, false⟩ ∧ f.scr.2.rows 1 0 = ⟨['c'], false, false⟩ ∧ f.scr.2.rows 2 0 = Cell.blank false := by
  let a := app (pagerComp (View.newWithLines demoPage 5 2))
  let chunks : List (List Nat) := [[106]]
  have r : Typing.Reach a 100 .key chunks (Typing.start a chunks) := .start
  have r := Typing.Reach.step _ _ r (.read _ (some { type := .rune, rune := 'j' }) ⟨[], []⟩ rfl rfl rfl)
  have r := Typing.Reach.step _ _ r (.put _ (.key { type := .rune, rune := 'j' }) rfl rfl (by decide))
  have r := Typing.Reach.step _ _ r (.eof _ rfl rfl rfl)
  have r := Typing.Reach.step _ _ r (.prog _ _ (.recv _ _ _ rfl rfl))
  have r := Typing.Reach.step _ _ r (.prog _ _ (.update _ _ rfl))
  obtain ⟨f, hf, e⟩ := KeyScreen.reach_of_typing a (fun m => pagerView (fun _ => 1) m.comp)
    (fun _ => none) 100 .key demoWide demoTop chunks r
  refine ⟨f, hf, by rw [e]; rfl, ?_⟩
  have hk : Input.messages chunks = [{ type := .rune, rune := 'j' }] := by decide +kernel
  obtain ⟨k, off, h1, h2, h3, h4, h6⟩ := C205_viewport_screen (d := demoWide) demoWide_ready (cap := 100) (chunks := chunks)
    demoPage 5 2 [] rfl (by decide) (by decide) (by decide) (by decide) (by decide)
    (by unfold Narrow; decide) hf (by rw [e] <;> rfl)
  have hkl := h6 (by rw [e] <;> rfl) (by rw [e] <;> rfl) (by rw [e] <;> rfl) (by rw [e] <;> rfl) (by rw [e] <;> rfl)
  rw [hk] at hkl h2
  rw [List.take_of_length_le hkl] at h2
  have ho : (pagerAfter (View.newWithLines demoPage 5 2) [{ type := .rune, rune := 'j' }]).d.off = 1 := by decide +kernel
  have : (off : Int) = 1 := h2.trans ho
  have : off = 1 := by omega
  subst this
  exact ⟨h3.rows 0 ['b'] rfl 0, h3.rows 1 ['c'] rfl 0, h3.below 2 (by decide) 0⟩

end

end Phoenix.Dialog
