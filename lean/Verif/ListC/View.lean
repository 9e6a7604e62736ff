import Verif.ListC.Props
import Verif.Util
set_option linter.unusedVariables false
set_option linter.unusedSimpArgs false
/-
C169: the text List.View returns.

Sources: components/list/list.go:252-291, components/list/internal/domain/model/list.go:52-61, 74-78.
Simplification: a Go string is its list of characters; the two colour styles are parameters (`muted`, `info`:
any function of the text).
-/
namespace Phoenix.ListC

section
variable {I : Type}

/-- model/list.go:52-61 `defaultItemRenderer`. -/
def defaultItemRenderer (label : I → List Char) (it : I) (_index : Nat) (selected focused : Bool) : List Char :=
  let prefix_ := if selected then ['✓', ' '] else [' ', ' ']
  let prefix_ := if focused then ['>', ' '] else prefix_
  prefix_ ++ label it

/-- list.go:57-62 with the item renderer of model/list.go:10-25. -/
structure LV (I : Type) where
  c : C I
  renderer : I → Nat → Bool → Bool → List Char

/-- list.go:97-147, with ItemRenderer. -/
inductive VOp (I : Type) where
  | op (o : Op I)
  | renderer (f : I → Nat → Bool → Bool → List Char)

variable (dflt : I → List Char → Bool) (label : I → List Char)

/-- list.go:66-84 `New`. -/
def LV.new (items : List I) (single : Bool) : LV I :=
  { c := C.new dflt items single, renderer := defaultItemRenderer label }

/-- list.go:97-147. -/
def LV.step (v : LV I) : VOp I → LV I
  | .op o => { v with c := v.c.step dflt o }
  | .renderer f => { v with renderer := f }

def LV.run (v : LV I) (ops : List (VOp I)) : LV I := ops.foldl (LV.step dflt) v

/-- list.go:274-279: the items with a newline before all but the first. -/
def joinItems : List (List Char) → List Char
  | [] => []
  | r :: rs => r ++ rs.flatMap fun x => '\n' :: x

/-- list.go:252-291 `View`; model/list.go:291-301: an index out of range renders as "". -/
def LV.view (muted info : List Char → List Char) (v : LV I) : List Char :=
  let items := v.c.d.renderVisible.map fun r : Option (Row I) =>
    (r.map fun r => v.renderer r.item r.index r.selected r.focused).getD []
  (if items.length = 0 then
    (if v.c.d.query ≠ [] then muted "(no matches)".toList else muted "(empty list)".toList)
   else joinItems items) ++
  (if v.c.showFilter && decide (v.c.d.query ≠ []) then '\n' :: info "Filter: (active)".toList else [])

/-! ## specification -/

/-- The lines of a text. -/
def textLines : List Char → List (List Char)
  | [] => [[]]
  | b :: bs => if b = '\n' then [] :: textLines bs else ((b :: (textLines bs).headD []) :: (textLines bs).tail)

theorem textLines_ne (l : List Char) : textLines l ≠ [] := by
  cases l with
  | nil => simp [textLines]
  | cons b l => unfold textLines; split <;> simp

theorem textLines_one {l : List Char} (h : '\n' ∉ l) : textLines l = [l] := by
  induction l with
  | nil => rfl
  | cons b l ih =>
    simp only [List.mem_cons, not_or] at h
    unfold textLines
    rw [if_neg (fun e => h.1 e.symm), ih h.2]
    rfl

theorem textLines_cut (a b : List Char) : textLines (a ++ '\n' :: b) = textLines a ++ textLines b := by
  induction a with
  | nil => simp only [List.nil_append, textLines, if_true]; rfl
  | cons x a ih =>
    simp only [List.cons_append, textLines, ih]
    by_cases hx : x = '\n'
    · rw [if_pos hx, if_pos hx, List.cons_append]
    · rw [if_neg hx, if_neg hx]
      cases e : textLines a with
      | nil => exact absurd e (textLines_ne a)
      | cons y ys => rfl

theorem textLines_join {r : List Char} {rs : List (List Char)} (h : ∀ x ∈ r :: rs, '\n' ∉ x) :
    textLines (joinItems (r :: rs)) = r :: rs := by
  induction rs generalizing r with
  | nil =>
    simp only [joinItems, List.flatMap_nil, List.append_nil]
    exact textLines_one (h r List.mem_cons_self)
  | cons x xs ih =>
    have ih := ih (fun y hy => h y (List.mem_cons_of_mem _ hy))
    simp only [joinItems] at ih
    simp only [joinItems, List.flatMap_cons, List.cons_append]
    rw [textLines_cut, textLines_one (h r List.mem_cons_self), ih]
    rfl

/-- The calls of a history without ItemRenderer. -/
def plainOps (ops : List (VOp I)) : List (Op I) :=
  ops.filterMap fun o => match o with | .op o => some o | .renderer _ => none

/-- What ItemRenderer calls say. -/
def saysRenderer : VOp I → Option (I → Nat → Bool → Bool → List Char)
  | .renderer f => some f
  | .op _ => none

/-- C169: after any history in which heights are not negative and Filter is not called while a query is
active, with a positive height, the lines of List.View are: `min height n` consecutive items of the `n`
displayed ones from item number `start` on, the focused one among them, each drawn on its own line by the
item renderer set last with the item's number and its right selected and focused flags; or one line saying
that there are none; then the note that a filter is active, if there is a query and the filter is shown.
(The renderer and the styles put no line breaks in.) -/
theorem C169_list_view_partial (muted info : List Char → List Char) (hm : ∀ x, '\n' ∉ x → '\n' ∉ muted x)
    (hi : ∀ x, '\n' ∉ x → '\n' ∉ info x) (items : List I) (single : Bool) (ops : List (VOp I))
    (ht : TameRun dflt (C.new dflt items single) (plainOps ops)) :
    let v := (LV.new dflt label items single).run dflt ops
    let f := lastSaid saysRenderer (defaultItemRenderer label) ops
    let l := v.c.d
    0 < l.height → (∀ it ∈ l.filtered, ∀ i s b, '\n' ∉ f it i s b) →
    ∃ (start : Nat) (rows : List (List Char)),
      textLines (v.view muted info) =
        (if l.filtered = [] then [muted (if l.query = [] then "(empty list)".toList else "(no matches)".toList)] else rows) ++
        (if v.c.showFilter = true ∧ l.query ≠ [] then [info "Filter: (active)".toList] else []) ∧
      rows.length = min l.height.toNat l.filtered.length ∧
      (∀ k, k < rows.length → ∃ it, l.filtered[start + k]? = some it ∧
        rows[k]? = some (f it (start + k) (decide (((start + k : Nat) : Int) ∈ l.selected)) (decide (((start + k : Nat) : Int) = l.focused)))) ∧
      (l.filtered ≠ [] → (start : Int) ≤ l.focused ∧ l.focused < start + rows.length) := by
  intro v f l hh hl
  have hc : v.c = (C.new dflt items single).run dflt (plainOps ops) := by
    have : ∀ (ops : List (VOp I)) (v : LV I), (v.run dflt ops).c = v.c.run dflt (plainOps ops) := by
      intro ops
      induction ops with
      | nil => intro v; rfl
      | cons o ops ih =>
        intro v
        show ((v.step dflt o).run dflt ops).c = _
        rw [ih]
        cases o <;> rfl
    exact this ops _
  have hr : v.renderer = f := by
    show (LV.run dflt _ ops).renderer = _
    unfold LV.run
    rw [foldl_last (LV.step dflt) (fun s => s.renderer) saysRenderer _ ops]
    · rfl
    · intro s op; cases op <;> rfl
  have hld : l = ((C.new dflt items single).run dflt (plainOps ops)).d := by
    show v.c.d = _; rw [hc]
  have hh0 := hh
  rw [hld] at hh
  obtain ⟨h1, h2, h3⟩ := C51_focused_row_visible_partial dflt items single (plainOps ops) ht hh
  rw [← hld] at h1 h2 h3
  have hvl : v.c.d = l := rfl
  obtain ⟨start, hst⟩ : ∃ s : Nat, l.filtered ≠ [] → l.scroll = s := by
    refine ⟨l.scroll.toNat, fun hne => ?_⟩
    have := (h3 hne).1
    omega
  refine ⟨start, l.renderVisible.map fun r : Option (Row I) => (r.map fun r => f r.item r.index r.selected r.focused).getD [],
    ?_, by rw [List.length_map]; exact h1, ?_, ?_⟩
  · unfold LV.view
    simp only [hvl, hr, List.length_map]
    have htail : ∀ a : List Char, textLines (a ++ (if v.c.showFilter && decide (l.query ≠ []) then '\n' :: info "Filter: (active)".toList else [])) =
        textLines a ++ (if v.c.showFilter = true ∧ l.query ≠ [] then [info "Filter: (active)".toList] else []) := by
      intro a
      by_cases hq : l.query = []
      · simp [hq]
      · cases v.c.showFilter with
        | false => simp
        | true =>
          simp only [hq, Bool.true_and, ne_eq, not_false_eq_true, decide_true, if_true, and_self]
          rw [textLines_cut, textLines_one (hi _ (by decide +kernel))]
    rw [htail]
    congr 1
    by_cases he : l.filtered = []
    · rw [if_pos (by rw [h1, he]; simp), if_pos he]
      by_cases hq : l.query = []
      · simp only [hq, ne_eq, not_true_eq_false, if_false, if_true]
        exact textLines_one (hm _ (by decide +kernel))
      · simp only [hq, ne_eq, not_false_eq_true, if_false, if_true]
        exact textLines_one (hm _ (by decide +kernel))
    · have hpos : 0 < l.filtered.length := List.length_pos_iff.2 he
      rw [if_neg (by omega), if_neg he]
      have hlines : ∀ x ∈ (l.renderVisible.map fun r : Option (Row I) => (r.map fun r => f r.item r.index r.selected r.focused).getD []), '\n' ∉ x := by
        intro x hx
        rw [List.mem_map] at hx
        obtain ⟨r, hr', rfl⟩ := hx
        obtain ⟨k, hk, e⟩ := List.getElem_of_mem hr'
        obtain ⟨it, hit, hrow⟩ := h2 k hk
        rw [List.getElem?_eq_getElem hk, e] at hrow
        injection hrow with hrow
        subst hrow
        exact hl it (List.mem_of_getElem? hit) _ _ _
      cases hrows : (l.renderVisible.map fun r : Option (Row I) => (r.map fun r => f r.item r.index r.selected r.focused).getD []) with
      | nil =>
        have := congrArg List.length hrows
        rw [List.length_map, h1, List.length_nil] at this
        omega
      | cons r rs => rw [hrows] at hlines; exact textLines_join hlines
  · intro k hk
    rw [List.length_map] at hk
    obtain ⟨it, hit, hrow⟩ := h2 k hk
    have hne : l.filtered ≠ [] := by
      intro e; rw [h1, e] at hk; simp at hk
    have hs := hst hne
    have e : (l.scroll + (k : Int)).toNat = start + k := by omega
    have e' : l.scroll + (k : Int) = ((start + k : Nat) : Int) := by omega
    rw [e] at hit
    refine ⟨it, hit, ?_⟩
    rw [List.getElem?_map, hrow, e, e']
    rfl
  · intro hne
    have hs := hst hne
    have := h3 hne
    rw [List.length_map, h1]
    omega

/-- C169, full claim: with the default renderer the first two characters of an item's line tell whether it is
selected. -/
def C169_mark_statement : Prop :=
  ∀ (label : Nat → List Char) (it : Nat) (i : Nat) (b : Bool),
    defaultItemRenderer label it i true b ≠ defaultItemRenderer label it i false b

/-- C169 refuted: the focus mark hides the selection mark, so selecting the item under the cursor does not
change the screen. -/
theorem C169_mark_refuted : ¬ C169_mark_statement := fun h => h (fun _ => []) 0 0 true rfl

/-- C169: what the marks do tell: '>' the focused item, '✓' a selected item that is not focused. -/
theorem C169_mark_partial (it : I) (i : Nat) (s b : Bool) :
    (defaultItemRenderer label it i s b).head? = some (if b then '>' else if s then '✓' else ' ') := by
  cases s <;> cases b <;> rfl

end

/-! ### concrete case -/

private def vops : List (VOp (List Char)) := [.op (.height 2), .op (.key { type := .space }), .op (.key { type := .down })]

example : ((LV.new exDflt id exItems false).run exDflt vops).view id id = "✓ apple\n> banana".toList := by decide +kernel

example : TameRun exDflt (C.new exDflt exItems false) (plainOps vops) := by
  refine ⟨?_, trivial, trivial, trivial⟩
  show (0 : Int) ≤ 2
  decide

end Phoenix.ListC
