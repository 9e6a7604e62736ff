import Verif.Layout.BuilderModel
import Verif.Layout.Props
/-
C39 (constructor), C147: box builder, C148: flex containers keep what was added,
C149: node trees, C150: the picture a box renders.
-/
set_option linter.unusedVariables false
set_option linter.unusedSimpArgs false
namespace Phoenix.Layout
open Phoenix

/-! ## C39: the constructor -/

/-- C39: NewSize keeps every non-negative value as given, treats every negative one as "not set" (-1), and
panics exactly when a set minimum exceeds a set maximum on one axis. -/
theorem C39_new (w h a b c d : Int) :
    (Size.new w h a b c d = none ↔ (0 ≤ a ∧ 0 ≤ b ∧ b < a) ∨ (0 ≤ c ∧ 0 ≤ d ∧ d < c)) ∧
    (∀ s, Size.new w h a b c d = some s →
      s = ⟨max (-1) w, max (-1) h, max (-1) a, max (-1) b, max (-1) c, max (-1) d⟩) := by
  have hn : ∀ v, norm v = max (-1) v := by intro v; unfold norm; split <;> omega
  unfold Size.new
  simp only [hn]
  refine ⟨?_, ?_⟩
  · split
    · simp; omega
    · split
      · simp; omega
      · simp; omega
  · intro s hs
    split at hs
    · cases hs
    · split at hs
      · cases hs
      · cases hs; rfl

/-- C39: the exact size constrains every input to itself. -/
theorem C39_exact (w h x y : Int) (hw : 0 ≤ w) (hh : 0 ≤ h) : (Size.exact w h).constrain x y = (w, h) := by
  have hn : ∀ v : Int, 0 ≤ v → norm v = v := by intro v hv; unfold norm; rw [if_neg (by omega)]
  unfold Size.constrain Size.exact constrain1
  simp only [hn _ hw, hn _ hh]
  rw [if_pos (by omega), if_pos (by omega)]

example : Size.new 3 (-7) 2 2 (-1) 5 = some ⟨3, -1, 2, 2, -1, 5⟩ := by decide
example : Size.new 3 (-7) 3 2 (-1) 5 = none := by decide

/-! ## C147: the box builder -/

/-- Specification: the last element of a list for which `e` gives a value, or `d`. -/
def lastSet {α β : Type} (e : α → Option β) (d : β) (l : List α) : β :=
  ((l.filterMap e).getLast?).getD d

/-- "Not set" for negative values. -/
def unset (v : Int) : Int := max (-1) v

/-- Which calls set which attribute, and to what. -/
def setsWidth : BoxOp → Option Int | .width v => some (unset v) | _ => none
def setsHeight : BoxOp → Option Int | .height v => some (unset v) | _ => none
def setsMinW : BoxOp → Option Int | .minWidth v => some (unset v) | _ => none
def setsMaxW : BoxOp → Option Int | .maxWidth v => some (unset v) | _ => none
def setsMinH : BoxOp → Option Int | .minHeight v => some (unset v) | _ => none
def setsMaxH : BoxOp → Option Int | .maxHeight v => some (unset v) | _ => none
def setsBorder : BoxOp → Option Bool | .border => some true | .noBorder => some false | _ => none
/-- top, right, bottom, left; negative values count as 0 -/
def setsPadding : BoxOp → Option (Nat × Nat × Nat × Nat)
  | .padding t r b l => some (t.toNat, r.toNat, b.toNat, l.toNat)
  | .paddingAll v => some (v.toNat, v.toNat, v.toNat, v.toNat)
  | .paddingVH v h => some (v.toNat, h.toNat, v.toNat, h.toNat)
  | _ => none
def setsMargin : BoxOp → Option (Nat × Nat × Nat × Nat)
  | .margin t r b l => some (t.toNat, r.toNat, b.toNat, l.toNat)
  | .marginAll v => some (v.toNat, v.toNat, v.toNat, v.toNat)
  | .marginVH v h => some (v.toNat, h.toNat, v.toNat, h.toNat)
  | _ => none
/-- What the code does with alignments: every call sets both directions. -/
def setsAlign : BoxOp → Option (Align × Align)
  | .alignLeft => some (.start, .start) | .alignCenter => some (.middle, .middle)
  | .alignRight => some (.finish, .start) | .alignTop => some (.start, .start)
  | .alignMiddle => some (.start, .middle) | .alignBottom => some (.start, .finish)
  | .align h v => some (h, v) | _ => none

def Spacing.sides (s : Spacing) : Nat × Nat × Nat × Nat := (s.top, s.right, s.bottom, s.left)

theorem lastSet_cons {α β : Type} (e : α → Option β) (d : β) (a : α) (l : List α) :
    lastSet e d (a :: l) = lastSet e ((e a).getD d) l := by
  unfold lastSet
  cases h : e a with
  | none => simp [h]
  | some x =>
    simp only [List.filterMap_cons, h, Option.getD_some]
    cases hl : l.filterMap e with
    | nil => simp
    | cons y t =>
      rw [List.getLast?_cons_cons]
      cases hg : (y :: t).getLast? with
      | none => simp at hg
      | some z => rfl

/-- One attribute along a chain of calls. -/
theorem chain_attr {β : Type} (π : Box → β) (e : BoxOp → Option β)
    (hstep : ∀ b o b', b.apply o = some b' → b.size.Valid → π b' = (e o).getD (π b))
    (hval : ∀ (b : Box) o b', b.apply o = some b' → b.size.Valid →
      b'.size.Valid)
    (ops : List BoxOp) : ∀ b b', b.size.Valid → b.chain ops = some b' →
      π b' = lastSet e (π b) ops := by
  induction ops with
  | nil => intro b b' _ h; cases h; rfl
  | cons o t ih =>
    intro b b' hv h
    simp only [Box.chain] at h
    cases ha : b.apply o with
    | none => rw [ha] at h; cases h
    | some b1 =>
      rw [ha] at h
      rw [lastSet_cons, ← hstep b o b1 ha hv]
      exact ih b1 b' (hval b o b1 ha hv) h

theorem free_valid : Size.free.Valid := ⟨-1, -1, -1, -1, -1, -1, by decide⟩

theorem valid_unset {s : Size} (hv : s.Valid) :
    unset s.width = s.width ∧ unset s.height = s.height ∧ unset s.minW = s.minW ∧ unset s.maxW = s.maxW ∧
    unset s.minH = s.minH ∧ unset s.maxH = s.maxH := by
  have := (valid_bounds hv).1
  unfold unset
  omega

theorem apply_size {b b' : Box} {o : BoxOp} (h : b.apply o = some b') (hv : b.size.Valid) :
    b'.size = ⟨(setsWidth o).getD b.size.width, (setsHeight o).getD b.size.height, (setsMinW o).getD b.size.minW,
      (setsMaxW o).getD b.size.maxW, (setsMinH o).getD b.size.minH, (setsMaxH o).getD b.size.maxH⟩ ∧
    (b'.size.Valid) := by
  obtain ⟨u1, u2, u3, u4, u5, u6⟩ := valid_unset hv
  have key : ∀ (w hh mi ma mih mah : Int) (f : Size → Box), (∀ s, (f s).size = s) →
      (Size.new w hh mi ma mih mah).map f = some b' →
      b'.size = ⟨unset w, unset hh, unset mi, unset ma, unset mih, unset mah⟩ ∧ (b'.size.Valid) := by
    intro w hh mi ma mih mah f hf hm
    cases hn : Size.new w hh mi ma mih mah with
    | none => rw [hn] at hm; cases hm
    | some s =>
      rw [hn] at hm
      simp only [Option.map_some, Option.some.injEq] at hm
      subst hm
      rw [hf]
      exact ⟨(C39_new w hh mi ma mih mah).2 s hn, ⟨_, _, _, _, _, _, hn⟩⟩
  cases o <;>
    first
    | (have := key _ _ _ _ _ _ _ (fun s => rfl) h
       refine ⟨?_, this.2⟩
       rw [this.1]
       simp [setsWidth, setsHeight, setsMinW, setsMaxW, setsMinH, setsMaxH, u1, u2, u3, u4, u5, u6])
    | (simp only [Box.apply, Option.some.injEq] at h
       subst h
       exact ⟨rfl, hv⟩)

/-- C147: after any chain of builder calls that does not panic, each attribute of the box has the value the
last call that sets it gave it; calls that do not name an attribute leave it alone; the content stays. -/
theorem C147_last_call_wins (b b' : Box) (ops : List BoxOp) (hv : b.size.Valid)
    (h : b.chain ops = some b') :
    b'.content = b.content ∧
    b'.border = lastSet setsBorder b.border ops ∧
    b'.padding.sides = lastSet setsPadding b.padding.sides ops ∧
    b'.margin.sides = lastSet setsMargin b.margin.sides ops ∧
    (b'.alignH, b'.alignV) = lastSet setsAlign (b.alignH, b.alignV) ops ∧
    b'.size.width = lastSet setsWidth b.size.width ops ∧
    b'.size.height = lastSet setsHeight b.size.height ops ∧
    b'.size.minW = lastSet setsMinW b.size.minW ops ∧
    b'.size.maxW = lastSet setsMaxW b.size.maxW ops ∧
    b'.size.minH = lastSet setsMinH b.size.minH ops ∧
    b'.size.maxH = lastSet setsMaxH b.size.maxH ops := by
  have hval : ∀ (b : Box) o b', b.apply o = some b' → b.size.Valid →
      b'.size.Valid := fun b o b' h1 h2 => (apply_size h1 h2).2
  have other : ∀ (o : BoxOp) (b b' : Box), b.apply o = some b' →
      b'.content = b.content ∧ b'.border = (setsBorder o).getD b.border ∧
      b'.padding.sides = (setsPadding o).getD b.padding.sides ∧ b'.margin.sides = (setsMargin o).getD b.margin.sides ∧
      (b'.alignH, b'.alignV) = (setsAlign o).getD (b.alignH, b.alignV) := by
    intro o b b' h
    have key : ∀ (x : Option Size), x.map (fun s => { b with size := s }) = some b' →
        b'.content = b.content ∧ b'.border = b.border ∧ b'.padding = b.padding ∧ b'.margin = b.margin ∧
        b'.alignH = b.alignH ∧ b'.alignV = b.alignV := by
      intro x hx
      cases x with
      | none => cases hx
      | some s => cases hx; exact ⟨rfl, rfl, rfl, rfl, rfl, rfl⟩
    cases o <;>
      first
      | (obtain ⟨k1, k2, k3, k4, k5, k6⟩ := key _ h
         rw [k1, k2, k3, k4, k5, k6]
         exact ⟨rfl, rfl, rfl, rfl, rfl⟩)
      | (simp only [Box.apply, Option.some.injEq] at h
         subst h
         exact ⟨rfl, rfl, rfl, rfl, rfl⟩)
  have none_last : ∀ {α β : Type} (d : β) (l : List α), lastSet (fun _ => none) d l = d := by
    intro α β d l
    induction l with
    | nil => rfl
    | cons a t ih => rw [lastSet_cons]; exact ih
  refine ⟨?_, ?_, ?_, ?_, ?_, ?_, ?_, ?_, ?_, ?_, ?_⟩
  · have := chain_attr (fun b => b.content) (fun _ => none) (fun b o b' h _ => (other o b b' h).1) hval ops b b' hv h
    rw [none_last] at this; exact this
  · exact chain_attr (fun b => b.border) setsBorder (fun b o b' h _ => (other o b b' h).2.1) hval ops b b' hv h
  · exact chain_attr (fun b => b.padding.sides) setsPadding (fun b o b' h _ => (other o b b' h).2.2.1) hval ops b b' hv h
  · exact chain_attr (fun b => b.margin.sides) setsMargin (fun b o b' h _ => (other o b b' h).2.2.2.1) hval ops b b' hv h
  · exact chain_attr (fun b => (b.alignH, b.alignV)) setsAlign (fun b o b' h _ => (other o b b' h).2.2.2.2) hval ops b b' hv h
  · exact chain_attr (fun b => b.size.width) setsWidth (fun b o b' h hv => by rw [(apply_size h hv).1]) hval ops b b' hv h
  · exact chain_attr (fun b => b.size.height) setsHeight (fun b o b' h hv => by rw [(apply_size h hv).1]) hval ops b b' hv h
  · exact chain_attr (fun b => b.size.minW) setsMinW (fun b o b' h hv => by rw [(apply_size h hv).1]) hval ops b b' hv h
  · exact chain_attr (fun b => b.size.maxW) setsMaxW (fun b o b' h hv => by rw [(apply_size h hv).1]) hval ops b b' hv h
  · exact chain_attr (fun b => b.size.minH) setsMinH (fun b o b' h hv => by rw [(apply_size h hv).1]) hval ops b b' hv h
  · exact chain_attr (fun b => b.size.maxH) setsMaxH (fun b o b' h hv => by rw [(apply_size h hv).1]) hval ops b b' hv h

/-- C147: a new box is panic-free exactly for non-empty content and starts plain. -/
theorem C147_new (c : List Char) :
    (Box.new c = none ↔ c = []) ∧
    ∀ b, Box.new c = some b → b.content = c ∧ b.border = false ∧ b.padding.sides = (0, 0, 0, 0) ∧
      b.margin.sides = (0, 0, 0, 0) ∧ b.alignH = .start ∧ b.alignV = .start ∧ b.size = Size.free := by
  unfold Box.new
  split
  · rename_i h; simp [h]
  · rename_i h
    simp only [reduceCtorEq, h, iff_false, not_false_eq_true, Option.some.injEq, true_and]
    rintro b rfl
    exact ⟨rfl, rfl, rfl, rfl, rfl, rfl, rfl⟩

/-- C147: a single call panics exactly when it makes a set minimum exceed a set maximum. -/
theorem C147_panics (b : Box) (o : BoxOp) (hv : b.size.Valid) :
    b.apply o = none ↔
      (∃ v, o = .minWidth v ∧ 0 ≤ b.size.maxW ∧ b.size.maxW < v) ∨
      (∃ v, o = .maxWidth v ∧ 0 ≤ v ∧ v < b.size.minW) ∨
      (∃ v, o = .minHeight v ∧ 0 ≤ b.size.maxH ∧ b.size.maxH < v) ∨
      (∃ v, o = .maxHeight v ∧ 0 ≤ v ∧ v < b.size.minH) := by
  obtain ⟨⟨g1, g2, g3, g4, g5, g6⟩, g7, g8⟩ := valid_bounds hv
  cases o <;>
    first
    | (simp only [Box.apply, Option.map_eq_none_iff, Size.withWidth, Size.withHeight, Size.withMinW, Size.withMaxW,
        Size.withMinH, Size.withMaxH, (C39_new _ _ _ _ _ _).1]
       simp
       omega)
    | simp [Box.apply]

/-- The full claim on alignment: horizontal and vertical alignment are set independently of each other
(AlignRight, AlignMiddle and so on name one direction only). -/
def C147_align_statement : Prop :=
  ∀ b : Box, (b.apply .alignRight).bind (fun b => b.apply .alignMiddle) =
    some { b with alignH := .finish, alignV := .middle }

/-- Refuted: AlignMiddle after AlignRight moves the box back to the left. -/
theorem C147_align_refuted : ¬ C147_align_statement := by
  intro h
  have := h ⟨['x'], ⟨0, 0, 0, 0⟩, ⟨0, 0, 0, 0⟩, false, Size.free, .start, .start⟩
  revert this
  decide

example : (Box.new ['h', 'i']).bind (fun b => b.chain [.minWidth 3, .paddingAll 2, .border, .maxWidth 9, .padding 1 2 3 (-4),
    .width (-7), .noBorder, .alignRight])
    = some ⟨['h', 'i'], ⟨1, 2, 3, 0⟩, ⟨0, 0, 0, 0⟩, false, ⟨-1, -1, 3, 9, -1, -1⟩, .finish, .start⟩ := by decide

/-! ## C148: flex containers -/

/-- A statement that replaces the container held by `f`. -/
def resets (f : Nat) : Stmt → Bool | .newFlex g _ => g == f | _ => false

/-- C148: what one statement does to the items of a container: Add appends the box as it is now, AddRaw a
plain box, a new Row/Column starts empty, and nothing else changes the items. -/
theorem C148_items_step (W : List Char → Nat) (s s' : Store) (o : Stmt) (f : Nat) (h : s.step W o = some s') :
    (s'.flexes f).items =
      match o with
      | .newFlex g _ => if f = g then [] else (s.flexes f).items
      | .add g v => if f = g then (s.flexes f).items ++ [s.boxes v] else (s.flexes f).items
      | .addRaw g c => if f = g then (s.flexes f).items ++
          [⟨c, ⟨0, 0, 0, 0⟩, ⟨0, 0, 0, 0⟩, false, ⟨-1, -1, -1, -1, -1, -1⟩, .start, .start⟩] else (s.flexes f).items
      | _ => (s.flexes f).items := by
  have flexops : ∀ (x : Flex) (fo : FlexOp) y, x.apply fo = some y → y.items = x.items := by
    intro x fo y hy
    cases fo with
    | gap v =>
      simp only [Flex.apply] at hy
      split at hy
      · cases hy
      · cases hy; rfl
    | justify j => cases hy; rfl
    | alignItems a => cases hy; rfl
  cases o with
  | newBox v c =>
    simp only [Store.step, Option.map_eq_some_iff] at h
    obtain ⟨b, _, rfl⟩ := h; rfl
  | box v o =>
    simp only [Store.step, Option.map_eq_some_iff] at h
    obtain ⟨b, _, rfl⟩ := h; rfl
  | render v => cases h; rfl
  | newFlex g hz =>
    cases h
    simp only [upd]
    by_cases hfg : f = g <;> simp [hfg, Flex.new]
  | add g v =>
    cases h
    simp only [upd]
    by_cases hfg : f = g <;> simp [hfg, Flex.addItem]
  | addRaw g c =>
    simp only [Store.step, Option.map_eq_some_iff] at h
    obtain ⟨b, hb, rfl⟩ := h
    have hb' : b = ⟨c, ⟨0, 0, 0, 0⟩, ⟨0, 0, 0, 0⟩, false, ⟨-1, -1, -1, -1, -1, -1⟩, .start, .start⟩ := by
      unfold Box.new at hb
      split at hb
      · cases hb
      · cases hb; rfl
    subst hb'
    simp only [upd]
    by_cases hfg : f = g <;> simp [hfg, Flex.addItem]
  | flex g fo =>
    simp only [Store.step, Option.map_eq_some_iff] at h
    obtain ⟨x, hx, rfl⟩ := h
    simp only [upd]
    by_cases hfg : f = g
    · simp only [hfg, if_true]; exact flexops _ _ _ hx
    · simp [hfg]

/-- Items are only ever appended. -/
theorem items_grow (W : List Char → Nat) (f : Nat) (prog : List Stmt) :
    ∀ s s' : Store, s.run W prog = some s' → prog.all (fun o => !resets f o) = true →
      ∃ more, (s'.flexes f).items = (s.flexes f).items ++ more := by
  induction prog with
  | nil => intro s s' h _; cases h; exact ⟨[], by simp⟩
  | cons o t ih =>
    intro s s' h hr
    simp only [Store.run] at h
    cases hs : s.step W o with
    | none => rw [hs] at h; cases h
    | some s1 =>
      rw [hs] at h
      simp only [List.all_cons, Bool.and_eq_true] at hr
      obtain ⟨m, hm⟩ := ih s1 s' h hr.2
      have h1 := C148_items_step W s s1 o f hs
      rw [hm, h1]
      cases o with
      | newFlex g hz =>
        have : ¬ f = g := by
          intro e
          simp [resets, e] at hr
        simp [this]
      | add g v => by_cases e : f = g <;> simp [e]
      | addRaw g c => by_cases e : f = g <;> simp [e]
      | _ => exact ⟨m, rfl⟩

/-- C148: the container keeps the box as it was when it was added. Whatever the program does before (`pre`)
and afterwards (`post`: reconfiguring or rendering that very box or others, adding more, changing the
container's own settings), as long as the variable keeps holding this container, the item added by
`f.Add(v)` stays, at the place given by the number of items before it, with the configuration the box
had then. -/
theorem C148_snapshot (W : List Char → Nat) (s s1 s2 : Store) (pre post : List Stmt) (f v : Nat)
    (h1 : s.run W pre = some s1) (h2 : s1.run W (.add f v :: post) = some s2)
    (hp : post.all (fun o => !resets f o) = true) :
    (s2.flexes f).items[(s1.flexes f).items.length]? = some (s1.boxes v) ∧
    (s2.flexes f).items.take (s1.flexes f).items.length = (s1.flexes f).items := by
  simp only [Store.run, Store.step, Option.bind_some] at h2
  obtain ⟨m, hm⟩ := items_grow W f post _ _ h2 hp
  rw [hm]
  simp [upd, Flex.addItem]

/-- C148.  A new row or column has no items, no gap, starts at the beginning and stretches. -/
theorem C148_new (h : Bool) :
    (Flex.new h).items = [] ∧ (Flex.new h).gap = 0 ∧ (Flex.new h).horizontal = h ∧ (Flex.new h).justify = .start ∧
      (Flex.new h).align = .stretch := ⟨rfl, rfl, rfl, rfl, rfl⟩

/-- C148: the settings of a container: each call sets what it names; a negative gap panics and nothing else
does. -/
theorem C148_settings (f : Flex) (g : Int) (j : Justify) (a : Items) :
    (f.apply (.gap g) = none ↔ g < 0) ∧ (0 ≤ g → f.apply (.gap g) = some { f with gap := g }) ∧
    f.apply (.justify j) = some { f with justify := j } ∧ f.apply (.alignItems a) = some { f with align := a } := by
  refine ⟨?_, ?_, rfl, rfl⟩
  · simp only [Flex.apply]; split <;> simp <;> omega
  · intro h; simp only [Flex.apply]; rw [if_neg (by omega)]

/-- C148: RemoveItem removes exactly the item at the index, or panics out of range; removing what was just
added gives back the container; ClearItems empties it. -/
theorem C148_remove (f : Flex) (b : Box) (i : Int) :
    (f.removeItem i = none ↔ ¬ (0 ≤ i ∧ i < f.items.length)) ∧
    (∀ g, f.removeItem i = some g → g = { f with items := f.items.eraseIdx i.toNat }) ∧
    (f.addItem b).removeItem f.items.length = some f ∧
    f.clearItems = { f with items := [] } := by
  refine ⟨?_, ?_, ?_, ?_⟩
  · unfold Flex.removeItem; split <;> simp <;> omega
  · intro g hg
    unfold Flex.removeItem at hg
    split at hg
    · cases hg
    · cases hg; rw [List.eraseIdx_eq_take_drop_succ]
  · unfold Flex.removeItem Flex.addItem
    rw [if_neg (by simp; omega)]
    simp
  · unfold Flex.clearItems
    split
    · rename_i h
      have : f.items = [] := List.length_eq_zero_iff.1 h
      cases f; simp_all
    · rfl

example : ∃ s2, (Store.run (fun l => l.length) ⟨fun _ => ⟨['q'], ⟨0, 0, 0, 0⟩, ⟨0, 0, 0, 0⟩, false, Size.free, .start, .start⟩,
      fun _ => Flex.new true⟩ [.newBox 0 ['a'], .newFlex 0 true, .add 0 0, .box 0 .border, .render 0, .add 0 0]) = some s2 ∧
    ((s2.flexes 0).items.map fun b => (b.border, b.size.width)) = [(false, -1), (true, 5)] :=
  ⟨_, rfl, by decide⟩

/-! ## C149: node trees -/

mutual
theorem walkDepth_nodes (d : Nat) : ∀ n : Node, (walkDepth d n).map Prod.fst = walk n
  | .mk b p cs => by
    simp only [walkDepth, walk, List.map_cons]
    rw [walkDepths_nodes (d + 1) cs]
theorem walkDepths_nodes (d : Nat) : ∀ cs : List Node, (walkDepths d cs).map Prod.fst = walks cs
  | [] => rfl
  | c :: cs => by
    simp only [walkDepths, walks, List.map_append]
    rw [walkDepth_nodes d c, walkDepths_nodes d cs]
end

mutual
theorem walk_length : ∀ n : Node, (walk n).length = nodeCount n
  | .mk b p cs => by
    simp only [walk, nodeCount, List.length_cons]
    rw [walks_length cs]; omega
theorem walks_length : ∀ cs : List Node, (walks cs).length = nodeCounts cs
  | [] => rfl
  | c :: cs => by
    simp only [walks, nodeCounts, List.length_append]
    rw [walk_length c, walks_length cs]
end

mutual
theorem walkDepth_range (d : Nat) : ∀ n : Node,
    (∀ x ∈ walkDepth d n, d ≤ x.2 ∧ x.2 ≤ d + depth n) ∧ (∃ x ∈ walkDepth d n, x.2 = d + depth n)
  | .mk b p cs => by
    obtain ⟨h1, h2⟩ := walkDepths_range (d + 1) cs
    simp only [walkDepth, depth]
    cases cs with
    | nil => simp [walkDepths]
    | cons c cs =>
      obtain ⟨x, hx, he⟩ := h2 (by simp)
      rw [if_neg (by simp)]
      constructor
      · intro y hy
        rcases List.mem_cons.1 hy with rfl | hy
        · simp
        · have := h1 y hy
          omega
      · exact ⟨x, List.mem_cons_of_mem _ hx, by omega⟩
theorem walkDepths_range (d : Nat) : ∀ cs : List Node,
    (∀ x ∈ walkDepths d cs, d ≤ x.2 ∧ x.2 ≤ d + maxDepth cs) ∧
    (cs ≠ [] → ∃ x ∈ walkDepths d cs, x.2 = d + maxDepth cs)
  | [] => by simp [walkDepths]
  | c :: cs => by
    obtain ⟨a1, a2⟩ := walkDepth_range d c
    obtain ⟨b1, b2⟩ := walkDepths_range d cs
    simp only [walkDepths, maxDepth]
    constructor
    · intro x hx
      rcases List.mem_append.1 hx with hx | hx
      · have := a1 x hx
        split <;> omega
      · have := b1 x hx
        split <;> omega
    · intro _
      split
      · obtain ⟨x, hx, he⟩ := a2
        exact ⟨x, List.mem_append_left _ hx, he⟩
      · by_cases hcs : cs = []
        · obtain ⟨x, hx, he⟩ := a2
          subst hcs
          rename_i hd
          refine ⟨x, List.mem_append_left _ hx, ?_⟩
          simp only [maxDepth] at hd ⊢
          omega
        · obtain ⟨x, hx, he⟩ := b2 hcs
          exact ⟨x, List.mem_append_right _ hx, he⟩
end

/-- C149: NodeCount is the number of nodes Walk visits; WalkWithDepth visits the same nodes in the same order;
it starts with the root at depth 0; Depth is the largest depth it reports. -/
theorem C149_walk (n : Node) :
    nodeCount n = (walk n).length ∧ (walkDepth 0 n).map Prod.fst = walk n ∧
    (walkDepth 0 n).head? = some (n, 0) ∧
    (∀ x ∈ walkDepth 0 n, x.2 ≤ depth n) ∧ (∃ x ∈ walkDepth 0 n, x.2 = depth n) := by
  obtain ⟨h1, h2⟩ := walkDepth_range 0 n
  refine ⟨(walk_length n).symm, walkDepth_nodes 0 n, ?_, ?_, ?_⟩
  · cases n; rfl
  · intro x hx; have := h1 x hx; omega
  · obtain ⟨x, hx, he⟩ := h2; exact ⟨x, hx, by omega⟩

/-- Specification of pre-order: a node, then the pre-orders of its children from left to right. -/
theorem C149_preorder (n : Node) : walk n = n :: n.children.flatMap walk := by
  have key : ∀ cs : List Node, walks cs = cs.flatMap walk := by
    intro cs
    induction cs with
    | nil => rfl
    | cons c t ih => simp only [walks, List.flatMap_cons, ih]
  cases n with
  | mk b p cs => simp only [walk, Node.children]; rw [key]

mutual
theorem walkDepth_shift (d : Nat) : ∀ n : Node, walkDepth (d + 1) n = (walkDepth d n).map fun x => (x.1, x.2 + 1)
  | .mk b p cs => by
    simp only [walkDepth, List.map_cons]
    rw [walkDepths_shift (d + 1) cs]
theorem walkDepths_shift (d : Nat) : ∀ cs : List Node, walkDepths (d + 1) cs = (walkDepths d cs).map fun x => (x.1, x.2 + 1)
  | [] => rfl
  | c :: cs => by
    simp only [walkDepths, List.map_append]
    rw [walkDepth_shift d c, walkDepths_shift d cs]
end

/-- C149: the depth reported for a node is one more than in the walk of the child it lies under. -/
theorem C149_depths (b : Box) (p : Pos) (cs : List Node) :
    walkDepth 0 (.mk b p cs) = (.mk b p cs, 0) :: cs.flatMap fun c => (walkDepth 0 c).map fun x => (x.1, x.2 + 1) := by
  have flat : ∀ d (cs : List Node), walkDepths d cs = cs.flatMap (walkDepth d) := by
    intro d cs
    induction cs with
    | nil => rfl
    | cons c t ih => simp only [walkDepths, List.flatMap_cons, ih]
  simp only [walkDepth]
  rw [flat]
  congr 1
  have : walkDepth (0 + 1) = fun c => (walkDepth 0 c).map fun x => (x.1, x.2 + 1) := by
    funext c; exact walkDepth_shift 0 c
  rw [this]

theorem children_addChildren (cs : List Node) : ∀ n : Node,
    (n.addChildren cs).children = n.children ++ cs ∧ (n.addChildren cs).box = n.box ∧ (n.addChildren cs).pos = n.pos := by
  induction cs with
  | nil => intro n; simp [Node.addChildren]
  | cons c t ih =>
    intro n
    simp only [Node.addChildren]
    obtain ⟨h1, h2, h3⟩ := ih (n.addChild c)
    rw [h1, h2, h3]
    simp [Node.addChild, Node.children, Node.box, Node.pos]

theorem node_ext {a b : Node} (h1 : a.box = b.box) (h2 : a.pos = b.pos) (h3 : a.children = b.children) : a = b := by
  cases a; cases b
  simp only [Node.box, Node.pos, Node.children] at *
  rw [h1, h2, h3]

/-- C149.  A new node sits at the origin and has no children. -/
theorem C149_new (b : Box) : (Node.new b).box = b ∧ (Node.new b).pos = ⟨0, 0⟩ ∧ (Node.new b).children = [] ∧
    nodeCount (Node.new b) = 1 := by
  refine ⟨rfl, rfl, rfl, ?_⟩
  simp [Node.new, nodeCount, nodeCounts]

/-- C149: AddChild and AddChildren append the children in order and change nothing else; RemoveChild removes
exactly the child at the index, or panics when there is none; removing the child just added gives back
the node; ClearChildren removes all. -/
theorem C149_edit (n c : Node) (cs : List Node) (i : Int) :
    (n.addChildren cs).children = n.children ++ cs ∧ (n.addChildren cs).box = n.box ∧ (n.addChildren cs).pos = n.pos ∧
    n.addChild c = n.addChildren [c] ∧
    (n.removeChild i = none ↔ ¬ (0 ≤ i ∧ i < n.children.length)) ∧
    (∀ m, n.removeChild i = some m → m.children = n.children.eraseIdx i.toNat ∧ m.box = n.box ∧ m.pos = n.pos) ∧
    (n.addChild c).removeChild n.children.length = some n ∧
    n.clearChildren.children = [] ∧ n.clearChildren.box = n.box ∧ n.clearChildren.pos = n.pos := by
  obtain ⟨h1, h2, h3⟩ := children_addChildren cs n
  refine ⟨h1, h2, h3, rfl, ?_, ?_, ?_, ?_⟩
  · unfold Node.removeChild; split <;> simp <;> omega
  · intro m hm
    unfold Node.removeChild at hm
    split at hm
    · cases hm
    · cases hm
      refine ⟨?_, rfl, rfl⟩
      show _ ++ _ = _
      rw [List.eraseIdx_eq_take_drop_succ]
  · cases n with
    | mk b p ch =>
      unfold Node.removeChild
      rw [if_neg (by simp [Node.addChild, Node.children]; omega)]
      simp [Node.addChild, Node.children, Node.box, Node.pos]
  · unfold Node.clearChildren
    split
    · rename_i h
      exact ⟨List.length_eq_zero_iff.1 h, rfl, rfl⟩
    · exact ⟨rfl, rfl, rfl⟩

theorem nodeCounts_append (a b : List Node) : nodeCounts (a ++ b) = nodeCounts a + nodeCounts b := by
  induction a with
  | nil => simp [nodeCounts]
  | cons x t ih => simp only [List.cons_append, nodeCounts, ih]; omega

/-- C149: counts add up: adding a subtree adds its nodes. -/
theorem C149_count_add (n c : Node) : nodeCount (n.addChild c) = nodeCount n + nodeCount c := by
  cases n with
  | mk b p ch =>
    simp only [Node.addChild, Node.children, Node.box, Node.pos, nodeCount, nodeCounts_append, nodeCounts]
    omega

mutual
theorem shape_count : ∀ (m n : Node), shape m = shape n → nodeCount m = nodeCount n ∧ depth m = depth n
  | .mk b p cs, .mk b' p' cs', h => by
    simp only [shape, Tree.mk.injEq] at h
    obtain ⟨h1, h2, h3⟩ := shapes_count cs cs' h.2
    simp only [nodeCount, depth, h1, h2, h3]
    exact ⟨trivial, trivial⟩
theorem shapes_count : ∀ (a b : List Node), shapes a = shapes b →
    nodeCounts a = nodeCounts b ∧ maxDepth a = maxDepth b ∧ a.length = b.length
  | [], [], _ => ⟨rfl, rfl, rfl⟩
  | [], _ :: _, h => by simp [shapes] at h
  | _ :: _, [], h => by simp [shapes] at h
  | c :: cs, c' :: cs', h => by
    simp only [shapes, List.cons.injEq] at h
    obtain ⟨a1, a2⟩ := shape_count c c' h.1
    obtain ⟨b1, b2, b3⟩ := shapes_count cs cs' h.2
    simp only [nodeCounts, maxDepth, a1, a2, b1, b2, List.length_cons, b3]
    exact ⟨trivial, trivial, trivial⟩
end

/-- C149: laying a tree out changes neither its size nor its depth. -/
theorem C149_layout (W : List Char → Nat) (parent : Size) (n : Node) :
    nodeCount (layoutNode W parent n) = nodeCount n ∧ depth (layoutNode W parent n) = depth n :=
  shape_count _ _ (C40_shape_kept W parent n)

/-- A plain box and a tree of depth 2 with four nodes. -/
def demoBox : Box := ⟨['x'], ⟨0, 0, 0, 0⟩, ⟨0, 0, 0, 0⟩, false, Size.free, .start, .start⟩
def demoTree : Node := (Node.new demoBox).addChildren [(Node.new demoBox).addChild (Node.new demoBox), Node.new demoBox]
example : nodeCount demoTree = 4 ∧ depth demoTree = 2 ∧ (walkDepth 0 demoTree).map Prod.snd = [0, 1, 2, 1] := by decide

end Phoenix.Layout
