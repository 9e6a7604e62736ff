import Verif.Render.Props
/-
C178: a renderer that starts while the terminal's cursor is not at home.
-/
set_option linter.unusedVariables false
set_option linter.unusedSimpArgs false
namespace Phoenix.Render

/-- A terminal as a program finds it: any screen contents, the cursor anywhere, default attributes. -/
def Term.found (W H : Nat) (scr : Nat → Nat → TCell) (cx cy : Nat) : Term :=
  { Term.init W H with scr := scr, cx := cx, cy := cy }

/-- The full claim: after Clear, whatever the screen showed and wherever the cursor was, any history of
calls (with buffers that fit and single-column cells) leaves the last picture on the screen. -/
def C178_statement : Prop :=
  ∀ (wd : Char → Nat) (W H : Nat) (_ : 0 < W) (_ : 0 < H) (w h : Int) (scr : Nat → Nat → TCell) (cx cy : Nat)
    (_ : cx < W) (_ : cy < H) (ops : List ROp) (_ : ∀ b, ROp.render b ∈ ops → Fits wd W H b) (x y : Nat) (_ : x < W) (_ : y < H),
    (((Term.found W H scr cx cy).feed wd ((Renderer.new w h).run (.clear :: ops)).2).scr x y).ch
      = glyphAt (picture ops none) x y

/-- Refuted: the cursor is in column 2 of line 1 (a shell prompt), the program clears the screen and
renders a single "a": the "a" appears in column 2 of line 1, the top left corner stays blank.  The renderer
believes its cursor is at home and never moves it there. -/
theorem C178_start_refuted : ¬ C178_statement := by
  intro h
  have := h (fun _ => 1) 4 3 (by decide) (by decide) 1 1 (fun _ _ => ⟨'$', {}, 1⟩) 2 1 (by decide) (by decide)
    [.render ⟨1, 1, [[⟨'a', {}, 1⟩]]⟩] (by
      intro b hb
      simp only [List.mem_singleton, ROp.render.injEq] at hb
      subst hb
      refine ⟨by decide, by decide, ?_⟩
      intro x y hx hy
      have hx : x < 1 := hx
      have hy : y < 1 := hy
      obtain rfl : x = 0 := by omega
      obtain rfl : y = 0 := by omega
      exact ⟨rfl, rfl⟩) 0 0 (by decide) (by decide)
  exact absurd this (by decide)

/-- Where it goes instead. -/
example : (((Term.found 4 3 (fun _ _ => ⟨'$', {}, 1⟩) 2 1).feed (fun _ => 1)
    ((Renderer.new 1 1).run [.clear, .render ⟨1, 1, [[⟨'a', {}, 1⟩]]⟩]).2).scr 2 1).ch = 'a' := by decide

/-! What holds. -/

/-- The same terminal with its cursor elsewhere. -/
def Term.place (t : Term) (cx cy : Nat) : Term := { t with cx := cx, cy := cy }

/-- Tokens that neither print nor look at the cursor. -/
def Token.still : Token → Prop
  | .clearScreen | .hideCursor | .showCursor => True
  | _ => False

theorem feed_place (wd) (cx cy : Nat) (pre : List Token) (hp : ∀ k ∈ pre, k.still) (mx my : Int) (rest : List Token)
    (t : Term) :
    (t.place cx cy).feed wd (pre ++ .move mx my :: rest) = t.feed wd (pre ++ .move mx my :: rest) := by
  induction pre generalizing t with
  | nil => rfl
  | cons k pre ih =>
    have hk := hp k (by simp)
    have ih := ih (fun k hk => hp k (by simp [hk]))
    show ((t.place cx cy).exec wd k).feed wd (pre ++ .move mx my :: rest) = (t.exec wd k).feed wd (pre ++ .move mx my :: rest)
    cases k with
    | clearScreen => exact ih (t.exec wd .clearScreen)
    | hideCursor => exact ih (t.exec wd .hideCursor)
    | showCursor => exact ih (t.exec wd .showCursor)
    | move x y => exact hk.elim
    | sgr l => exact hk.elim
    | char c => exact hk.elim
    | clearLine => exact hk.elim
    | reset => exact hk.elim

/-- A renderer that has drawn nothing: it believes the cursor is at home and the screen is blank. -/
structure Fresh (r : Renderer) : Prop where
  x : r.writer.x = 0
  y : r.writer.y = 0
  wf : r.prev.WF
  width : r.prev.width = r.width.toNat
  height : r.prev.height = r.height.toNat
  blank : ∀ x y : Nat, r.prev.get x y = Cell.empty

theorem Fresh.new (w h : Int) : Fresh (Renderer.new w h) :=
  ⟨rfl, rfl, Buffer.new_wf _ _, Buffer.new_width _ _, Buffer.new_height _ _, fun x y => Buffer.new_get w h x y⟩

theorem fresh_move {r : Renderer} (h : Fresh r) : r.writer.moveCursor 0 0 = (r.writer, []) := by
  unfold Writer.moveCursor
  rw [if_pos ⟨h.x.symm, h.y.symm⟩]

theorem fresh_clear {r : Renderer} (h : Fresh r) : Fresh r.clear.1 ∧ r.clear.2 = [.clearScreen] := by
  unfold Renderer.clear
  rw [fresh_move h]
  refine ⟨⟨h.x, h.y, Buffer.clear_wf h.wf, ?_, ?_, fun x y => Buffer.clear_get h.wf x y⟩, rfl⟩
  · show r.prev.clear.width = _
    unfold Buffer.clear; rw [Buffer.assign_width]; exact h.width
  · show r.prev.clear.height = _
    unfold Buffer.clear; rw [Buffer.assign_height]; exact h.height

theorem fresh_resize {r : Renderer} (h : Fresh r) (w hh : Int) : Fresh (r.resize w hh).1 ∧ (r.resize w hh).2 = [.clearScreen] := by
  unfold Renderer.resize
  exact fresh_clear ⟨h.x, h.y, Buffer.new_wf _ _, Buffer.new_width _ _, Buffer.new_height _ _, fun x y => Buffer.new_get w hh x y⟩

/-- Calls that draw nothing. -/
def ROp.draws : ROp → Bool
  | .render _ => true
  | _ => false

theorem fresh_run (ops : List ROp) (hops : ∀ op ∈ ops, op.draws = false) : ∀ {r : Renderer}, Fresh r →
    Fresh (r.run ops).1 ∧ ∀ k ∈ (r.run ops).2, k.still := by
  induction ops with
  | nil => intro r h; exact ⟨h, by simp [Renderer.run]⟩
  | cons op ops ih =>
    intro r h
    have ih := @ih (fun op hop => hops op (by simp [hop]))
    have key : Fresh (r.step op).1 ∧ ∀ k ∈ (r.step op).2, k.still := by
      cases op with
      | render b => have := hops (.render b) (by simp); cases this
      | renderNil => exact ⟨h, by simp [Renderer.step]⟩
      | clear => exact ⟨(fresh_clear h).1, by simp [Renderer.step, (fresh_clear h).2, Token.still]⟩
      | resize w hh => exact ⟨(fresh_resize h w hh).1, by simp [Renderer.step, (fresh_resize h w hh).2, Token.still]⟩
      | hideCursor => exact ⟨h, by simp [Renderer.step, Token.still]⟩
      | showCursor => exact ⟨h, by simp [Renderer.step, Token.still]⟩
    obtain ⟨a1, a2⟩ := ih key.1
    refine ⟨a1, ?_⟩
    intro k hk
    have hk : k ∈ (r.step op).2 ++ ((r.step op).1.run ops).2 := hk
    rcases List.mem_append.1 hk with hk | hk
    · exact key.2 k hk
    · exact a2 k hk

theorem writes_starts_with_move {w : Writer} (hx : w.x = 0) (hy : w.y = 0) (l : List (Nat × Nat × Cell)) (hne : l ≠ [])
    (h0 : ∀ c, (0, 0, c) ∉ l) : ∃ mx my rest, (writes w l).2 = .move mx my :: rest := by
  cases l with
  | nil => exact absurd rfl hne
  | cons q l =>
    obtain ⟨x, y, c⟩ := q
    have hn : ¬ ((x : Int) = w.x ∧ (y : Int) = w.y) := by
      rw [hx, hy]
      rintro ⟨a, b⟩
      obtain rfl : x = 0 := by omega
      obtain rfl : y = 0 := by omega
      exact h0 c (by simp)
    simp only [writes, Writer.writeCellAt, Writer.moveCursor]
    rw [if_neg hn]
    exact ⟨x, y, _, rfl⟩

theorem fresh_render {r : Renderer} (h : Fresh r) (b : Buffer) (h0 : b.get 0 0 = Cell.empty)
    (hx : ∃ x y : Nat, x < b.width ∧ y < b.height ∧ (b.get x y).isEmpty = false) :
    ∃ pre mx my rest, (r.render b).2 = pre ++ .move mx my :: rest ∧ ∀ k ∈ pre, k.still := by
  obtain ⟨x, y, hxw, hyh, hne⟩ := hx
  have full : ∃ pre mx my rest, (r.renderFull b).2 = pre ++ .move mx my :: rest ∧ ∀ k ∈ pre, k.still := by
    have e : (r.renderFull b).2 = [.clearScreen] ++ (writes r.writer (fullCells b)).2 := by
      unfold Renderer.renderFull
      rw [fresh_move h]
      simp only [drawCells_writes]
      rfl
    obtain ⟨mx, my, rest, hw⟩ := writes_starts_with_move h.x h.y (fullCells b)
      (by intro e; have := mem_fullCells.2 ⟨hxw, hyh, rfl, hne⟩; rw [e] at this; simp at this)
      (by
        intro c hc
        obtain ⟨-, -, e1, e2⟩ := mem_fullCells.1 hc
        have : c = Cell.empty := e1.trans h0
        rw [this] at e2; revert e2; decide)
    exact ⟨[.clearScreen], mx, my, rest, by rw [e, hw], by simp [Token.still]⟩
  unfold Renderer.render
  split
  · exact full
  · rename_i hsz
    simp only [not_or, Decidable.not_not] at hsz
    have hw : r.prev.width = b.width := by rw [h.width, ← hsz.1]; simp
    have hh : r.prev.height = b.height := by rw [h.height, ← hsz.2]; simp
    have hmem : (x, y, b.get x y) ∈ diffCells r.prev b := by
      rw [mem_diffCells]
      refine ⟨hxw, hyh, rfl, ?_⟩
      rw [h.blank]
      intro e
      rw [← e] at hne; revert hne; decide
    simp only []
    split
    · rename_i hl
      exfalso
      rw [diff_eq_map hw hh, List.length_map] at hl
      rw [List.eq_nil_of_length_eq_zero hl] at hmem
      simp at hmem
    · split
      · exact full
      · rw [removeRedundant_eq, diff_eq_map hw hh, applyOps_writes]
        obtain ⟨mx, my, rest, hw⟩ := writes_starts_with_move h.x h.y (diffCells r.prev b)
          (by intro e; rw [e] at hmem; simp at hmem)
          (by
            intro c hc
            obtain ⟨-, -, -, e2⟩ := mem_diffCells.1 hc
            rw [h.blank] at e2
            exact e2 h0.symm)
        exact ⟨[], mx, my, rest, by rw [hw]; rfl, by simp⟩

theorem run_append (a b : List ROp) (r : Renderer) :
    (r.run (a ++ b)).2 = (r.run a).2 ++ ((r.run a).1.run b).2 := by
  induction a generalizing r with
  | nil => simp [Renderer.run]
  | cons op a ih => simp only [List.cons_append, Renderer.run, ih, List.append_assoc]

/-- C178, what holds.  After Clear, whatever the screen showed and wherever the cursor was, if the first
thing drawn leaves the top left cell blank, the screen shows the last picture after every continuation. -/
theorem C178_blank_corner_partial (wd : Char → Nat) (W H : Nat) (hW : 0 < W) (hH : 0 < H) (w h : Int)
    (scr : Nat → Nat → TCell) (cx cy : Nat) (pre rest : List ROp) (b : Buffer)
    (hpre : ∀ op ∈ pre, op.draws = false) (h0 : b.get 0 0 = Cell.empty)
    (hb : ∃ x y : Nat, x < b.width ∧ y < b.height ∧ (b.get x y).isEmpty = false)
    (hf : ∀ b', ROp.render b' ∈ pre ++ .render b :: rest → Fits wd W H b') (x y : Nat) (hx : x < W) (hy : y < H) :
    (((Term.found W H scr cx cy).feed wd ((Renderer.new w h).run (.clear :: (pre ++ .render b :: rest))).2).scr x y).ch
      = glyphAt (picture (pre ++ .render b :: rest) none) x y := by
  have c13 := C13_glyph_exact wd W H hW hH w h (.clear :: (pre ++ .render b :: rest))
    (fun b' hb' => hf b' (by simpa using hb')) x y hx hy
  have hp : picture (.clear :: (pre ++ .render b :: rest)) none = picture (pre ++ .render b :: rest) none := rfl
  rw [hp] at c13
  rw [← c13]
  congr 2
  -- the tokens: still ones, then a cursor move
  obtain ⟨f1, f2⟩ := fresh_run (.clear :: pre) (by
    intro op hop
    rcases List.mem_cons.1 hop with rfl | hop
    · rfl
    · exact hpre op hop) (Fresh.new w h)
  obtain ⟨p2, mx, my, r2, e2, s2⟩ := fresh_render f1 b h0 hb
  have e : ∃ r3, ((Renderer.new w h).run (.clear :: (pre ++ .render b :: rest))).2 =
      (((Renderer.new w h).run (.clear :: pre)).2 ++ p2) ++ .move mx my :: r3 := by
    have : (.clear :: (pre ++ .render b :: rest) : List ROp) = (.clear :: pre) ++ .render b :: rest := rfl
    rw [this, run_append]
    have e3 : ∀ r : Renderer, (r.run (.render b :: rest)).2 = (r.render b).2 ++ ((r.render b).1.run rest).2 := fun _ => rfl
    rw [e3, e2]
    generalize (((Renderer.new w h).run (.clear :: pre)).1.render b).1.run rest = z
    exact ⟨r2 ++ z.2, by simp only [List.append_assoc, List.cons_append]⟩
  obtain ⟨r3, e⟩ := e
  rw [e]
  have hst : ∀ k ∈ ((Renderer.new w h).run (.clear :: pre)).2 ++ p2, k.still := by
    intro k hk
    rcases List.mem_append.1 hk with hk | hk
    · exact f2 k hk
    · exact s2 k hk
  -- the first token clears the screen
  have hc : ∃ q, ((Renderer.new w h).run (.clear :: pre)).2 = .clearScreen :: q := by
    refine ⟨((Renderer.new w h).clear.1.run pre).2, ?_⟩
    show ((Renderer.new w h).clear).2 ++ ((Renderer.new w h).clear.1.run pre).2 = _
    rw [(fresh_clear (Fresh.new w h)).2]; rfl
  obtain ⟨q, hq⟩ := hc
  rw [hq] at hst ⊢
  have a1 : Term.found W H scr cx cy = ({ Term.init W H with scr := scr } : Term).place cx cy := rfl
  rw [a1, feed_place wd cx cy _ hst mx my r3]
  rfl

example : ∃ x y : Nat, x < 2 ∧ y < 1 ∧ ((⟨2, 1, [[Cell.empty, ⟨'a', {}, 1⟩]]⟩ : Buffer).get x y).isEmpty = false :=
  ⟨1, 0, by decide, by decide, by decide⟩

end Phoenix.Render
