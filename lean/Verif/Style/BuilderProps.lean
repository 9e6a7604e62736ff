import Verif.Style.BuilderModel
import Verif.Style.TextProps
import Verif.Util
/-
C158: the style builder.
-/
set_option linter.unusedVariables false
set_option linter.unusedSimpArgs false
namespace Phoenix.Style
open Phoenix

/-! ### Specification: what each setter says about each aspect -/

/-- A non-negative reading of a number given by a caller. -/
def atLeast0 (n : Int) : Nat := if n < 0 then 0 else n.toNat

def saysPadTop : Setter → Option Nat
  | .padding p => some p.top
  | .paddingTop n | .paddingAll n | .paddingVertical n => some (atLeast0 n)
  | _ => none

def saysPadBottom : Setter → Option Nat
  | .padding p => some p.bottom
  | .paddingBottom n | .paddingAll n | .paddingVertical n => some (atLeast0 n)
  | _ => none

def saysPadLeft : Setter → Option Nat
  | .padding p => some p.left
  | .paddingLeft n | .paddingAll n | .paddingHorizontal n => some (atLeast0 n)
  | _ => none

def saysPadRight : Setter → Option Nat
  | .padding p => some p.right
  | .paddingRight n | .paddingAll n | .paddingHorizontal n => some (atLeast0 n)
  | _ => none

def saysMarTop : Setter → Option Nat
  | .margin p => some p.top
  | .marginTop n | .marginAll n | .marginVertical n => some (atLeast0 n)
  | _ => none

def saysMarBottom : Setter → Option Nat
  | .margin p => some p.bottom
  | .marginBottom n | .marginAll n | .marginVertical n => some (atLeast0 n)
  | _ => none

def saysMarLeft : Setter → Option Nat
  | .margin p => some p.left
  | .marginLeft n | .marginAll n | .marginHorizontal n => some (atLeast0 n)
  | _ => none

def saysMarRight : Setter → Option Nat
  | .margin p => some p.right
  | .marginRight n | .marginAll n | .marginHorizontal n => some (atLeast0 n)
  | _ => none

def saysAlignH : Setter → Option Align
  | .align h _ | .alignHorizontal h => some h
  | _ => none

def saysAlignV : Setter → Option Align
  | .align _ v | .alignVertical v => some v
  | _ => none

/-! ### Proof -/

theorem fold_last {α : Type} (π : Sty → α) (says : Setter → Option α)
    (h : ∀ s op, π (s.set op) = (says op).getD (π s)) (ops : List Setter) (s : Sty) :
    π (ops.foldl Sty.set s) = lastSaid says (π s) ops := foldl_last Sty.set π says h ops s

theorem toNat_max (n : Int) : (max 0 n).toNat = atLeast0 n := by
  unfold atLeast0; split <;> omega

theorem toNat_max_nat (n : Nat) : (max 0 (n : Int)).toNat = n := by omega

/-- C158.  Reading a style built by any chain of setters: every aspect other than the border sides
holds what the last setter of that aspect said, whatever was called before, between or after:
colours, border characters, border colour, decorations and colour depth. -/
theorem C158_last_wins (ops : List Setter) :
    (build ops).fg = lastSaid (fun | .foreground c => some (some c) | _ => none) none ops ∧
    (build ops).bg = lastSaid (fun | .background c => some (some c) | _ => none) none ops ∧
    (build ops).border = lastSaid (fun | .border b => some (some b) | _ => none) none ops ∧
    (build ops).borderColor = lastSaid (fun | .borderColor c => some (some c) | _ => none) none ops ∧
    (build ops).bold = lastSaid (fun | .bold on => some on | _ => none) false ops ∧
    (build ops).italic = lastSaid (fun | .italic on => some on | _ => none) false ops ∧
    (build ops).underline = lastSaid (fun | .underline on => some on | _ => none) false ops ∧
    (build ops).strike = lastSaid (fun | .strikethrough on => some on | _ => none) false ops ∧
    (build ops).cap = lastSaid (fun | .capability c => some c | _ => none) .trueColor ops := by
  refine ⟨fold_last Sty.fg _ ?_ ops Sty.new, fold_last Sty.bg _ ?_ ops Sty.new, fold_last Sty.border _ ?_ ops Sty.new,
    fold_last Sty.borderColor _ ?_ ops Sty.new, fold_last Sty.bold _ ?_ ops Sty.new, fold_last Sty.italic _ ?_ ops Sty.new,
    fold_last Sty.underline _ ?_ ops Sty.new, fold_last Sty.strike _ ?_ ops Sty.new, fold_last Sty.cap _ ?_ ops Sty.new⟩ <;>
  · intro s op
    cases op <;> simp only [Sty.set, Sty.setBorder, Option.getD_none, Option.getD_some] <;> split <;> rfl

/-- C158.  Padding and margin: each side is what the last setter that mentions this side said (0 when
none did), never negative; the other sides are kept. -/
theorem C158_spacing (ops : List Setter) :
    (((build ops).padding.getD ⟨0, 0, 0, 0⟩).top = lastSaid saysPadTop 0 ops ∧
     ((build ops).padding.getD ⟨0, 0, 0, 0⟩).bottom = lastSaid saysPadBottom 0 ops ∧
     ((build ops).padding.getD ⟨0, 0, 0, 0⟩).left = lastSaid saysPadLeft 0 ops ∧
     ((build ops).padding.getD ⟨0, 0, 0, 0⟩).right = lastSaid saysPadRight 0 ops) ∧
    (((build ops).margin.getD ⟨0, 0, 0, 0⟩).top = lastSaid saysMarTop 0 ops ∧
     ((build ops).margin.getD ⟨0, 0, 0, 0⟩).bottom = lastSaid saysMarBottom 0 ops ∧
     ((build ops).margin.getD ⟨0, 0, 0, 0⟩).left = lastSaid saysMarLeft 0 ops ∧
     ((build ops).margin.getD ⟨0, 0, 0, 0⟩).right = lastSaid saysMarRight 0 ops) := by
  refine ⟨⟨fold_last (fun s => (s.padding.getD ⟨0, 0, 0, 0⟩).top) _ ?_ ops Sty.new,
    fold_last (fun s => (s.padding.getD ⟨0, 0, 0, 0⟩).bottom) _ ?_ ops Sty.new,
    fold_last (fun s => (s.padding.getD ⟨0, 0, 0, 0⟩).left) _ ?_ ops Sty.new,
    fold_last (fun s => (s.padding.getD ⟨0, 0, 0, 0⟩).right) _ ?_ ops Sty.new⟩,
    fold_last (fun s => (s.margin.getD ⟨0, 0, 0, 0⟩).top) _ ?_ ops Sty.new,
    fold_last (fun s => (s.margin.getD ⟨0, 0, 0, 0⟩).bottom) _ ?_ ops Sty.new,
    fold_last (fun s => (s.margin.getD ⟨0, 0, 0, 0⟩).left) _ ?_ ops Sty.new,
    fold_last (fun s => (s.margin.getD ⟨0, 0, 0, 0⟩).right) _ ?_ ops Sty.new⟩ <;>
  · intro s op
    cases op <;> simp only [Sty.set, Sty.setBorder, setPadding, setMargin, newSides, sidesOr, Option.some_or, Option.none_or,
      Option.getD_none, Option.getD_some, saysPadTop, saysPadBottom, saysPadLeft, saysPadRight, saysMarTop, saysMarBottom,
      saysMarLeft, saysMarRight, toNat_max, toNat_max_nat] <;> first | rfl | (split <;> rfl)

/-- C158.  Sizes: each of the six sizes is what the last setter of that size said, never negative, and
unset when none was called. -/
theorem C158_sizes (ops : List Setter) :
    ((build ops).size.bind (·.width)) = lastSaid (fun | .width n => some (some (atLeast0 n)) | _ => none) none ops ∧
    ((build ops).size.bind (·.height)) = lastSaid (fun | .height n => some (some (atLeast0 n)) | _ => none) none ops ∧
    ((build ops).size.bind (·.minWidth)) = lastSaid (fun | .minWidth n => some (some (atLeast0 n)) | _ => none) none ops ∧
    ((build ops).size.bind (·.maxWidth)) = lastSaid (fun | .maxWidth n => some (some (atLeast0 n)) | _ => none) none ops ∧
    ((build ops).size.bind (·.minHeight)) = lastSaid (fun | .minHeight n => some (some (atLeast0 n)) | _ => none) none ops ∧
    ((build ops).size.bind (·.maxHeight)) = lastSaid (fun | .maxHeight n => some (some (atLeast0 n)) | _ => none) none ops := by
  refine ⟨fold_last (fun s => s.size.bind (·.width)) _ ?_ ops Sty.new, fold_last (fun s => s.size.bind (·.height)) _ ?_ ops Sty.new,
    fold_last (fun s => s.size.bind (·.minWidth)) _ ?_ ops Sty.new, fold_last (fun s => s.size.bind (·.maxWidth)) _ ?_ ops Sty.new,
    fold_last (fun s => s.size.bind (·.minHeight)) _ ?_ ops Sty.new, fold_last (fun s => s.size.bind (·.maxHeight)) _ ?_ ops Sty.new⟩ <;>
  · intro s op
    rcases s with ⟨_, _, _, _, _, _, _, _, _, _, z, _, _, _, _, _, _⟩
    cases op <;> cases z <;> simp only [Sty.set, Sty.setBorder, setSize, sizeOr, Option.some_or, Option.none_or,
      Option.getD_none, Option.getD_some, Option.bind_some, Option.bind_none, toNat_max] <;> first | rfl | (split <;> rfl)

/-- C158.  Alignment: each axis is what the last setter that mentions this axis said (left, top when
none did); the other axis is kept. -/
theorem C158_alignment (ops : List Setter) :
    (((build ops).align.map Prod.fst).getD .start) = lastSaid saysAlignH .start ops ∧
    (((build ops).align.map Prod.snd).getD .start) = lastSaid saysAlignV .start ops := by
  refine ⟨fold_last (fun s => (s.align.map Prod.fst).getD .start) _ ?_ ops Sty.new,
    fold_last (fun s => (s.align.map Prod.snd).getD .start) _ ?_ ops Sty.new⟩ <;>
  · intro s op
    cases op <;> simp only [Sty.set, Sty.setBorder, setAlign, Option.some_or, Option.none_or, Option.map_some,
      Option.getD_none, Option.getD_some, saysAlignH, saysAlignV] <;> first | rfl | (split <;> rfl)

/-- C158.  An aspect is set at all exactly when one of its setters was called: padding, margin, size,
alignment. -/
theorem C158_set_at_all (ops : List Setter) :
    (build ops).padding.isSome = ops.any (fun op => (saysPadTop op).isSome || (saysPadBottom op).isSome ||
      (saysPadLeft op).isSome || (saysPadRight op).isSome) ∧
    (build ops).margin.isSome = ops.any (fun op => (saysMarTop op).isSome || (saysMarBottom op).isSome ||
      (saysMarLeft op).isSome || (saysMarRight op).isSome) ∧
    (build ops).align.isSome = ops.any (fun op => (saysAlignH op).isSome || (saysAlignV op).isSome) := by
  have gen : ∀ (π : Sty → Bool) (p : Setter → Bool), (∀ s op, π (s.set op) = (p op || π s)) → ∀ (ops : List Setter) (s : Sty),
      π (ops.foldl Sty.set s) = (ops.any p || π s) := by
    intro π p h ops
    induction ops with
    | nil => intro s; simp
    | cons op ops ih => intro s; rw [List.foldl_cons, ih, h, List.any_cons]; cases p op <;> cases ops.any p <;> simp
  refine ⟨?_, ?_, ?_⟩
  · unfold build
    rw [gen (fun s => s.padding.isSome) _ ?_ ops Sty.new]
    · exact Bool.or_false _
    · intro s op
      rcases s with ⟨_, _, _, _, _, _, _, _, p, _, _, _, _, _, _, _, _⟩
      cases op <;> cases p <;> simp only [Sty.set, Sty.setBorder, setPadding] <;> first | rfl | (split <;> rfl)
  · unfold build
    rw [gen (fun s => s.margin.isSome) _ ?_ ops Sty.new]
    · exact Bool.or_false _
    · intro s op
      rcases s with ⟨_, _, _, _, _, _, _, _, _, p, _, _, _, _, _, _, _⟩
      cases op <;> cases p <;> simp only [Sty.set, Sty.setBorder, setMargin] <;> first | rfl | (split <;> rfl)
  · unfold build
    rw [gen (fun s => s.align.isSome) _ ?_ ops Sty.new]
    · exact Bool.or_false _
    · intro s op
      rcases s with ⟨_, _, _, _, _, _, _, _, _, _, _, p, _, _, _, _, _⟩
      cases op <;> cases p <;> simp only [Sty.set, Sty.setBorder, setAlign] <;> first | rfl | (split <;> rfl)

/-! ### Border sides -/

def saysTop : Setter → Option Bool | .borderTop on => some on | _ => none
def saysBottom : Setter → Option Bool | .borderBottom on => some on | _ => none
def saysLeft : Setter → Option Bool | .borderLeft on => some on | _ => none
def saysRight : Setter → Option Bool | .borderRight on => some on | _ => none

/-- The four side switches of a style. -/
def switches (s : Sty) : List Bool := [s.bTop, s.bBottom, s.bLeft, s.bRight]

theorem switches_no_border (ops : List Setter) (s : Sty) (h : ∀ b, Setter.border b ∉ ops) :
    switches (ops.foldl Sty.set s) = [lastSaid saysTop s.bTop ops, lastSaid saysBottom s.bBottom ops,
      lastSaid saysLeft s.bLeft ops, lastSaid saysRight s.bRight ops] := by
  have gen : ∀ (π : Sty → Bool) (says : Setter → Option Bool),
      (∀ s op, (∀ b, op ≠ Setter.border b) → π (s.set op) = (says op).getD (π s)) →
      ∀ (ops : List Setter) (s : Sty), (∀ b, Setter.border b ∉ ops) → π (ops.foldl Sty.set s) = lastSaid says (π s) ops := by
    intro π says hs ops
    induction ops with
    | nil => intro s _; rfl
    | cons op ops ih =>
      intro s hb
      rw [List.foldl_cons, ih _ (fun b hm => hb b (List.mem_cons_of_mem _ hm)),
        hs s op (fun b he => hb b (he ▸ List.mem_cons_self))]
      unfold lastSaid
      cases hsay : says op with
      | none => simp [List.filterMap_cons, hsay]
      | some a => simp only [List.filterMap_cons, hsay, List.getLast?_cons, Option.getD_some]
  unfold switches
  rw [gen Sty.bTop saysTop ?_ ops s h, gen Sty.bBottom saysBottom ?_ ops s h, gen Sty.bLeft saysLeft ?_ ops s h,
    gen Sty.bRight saysRight ?_ ops s h] <;>
  · intro s op hb
    cases op <;> first | rfl | exact absurd rfl (hb _)

/-- C158, border sides: after the last `Border` call the side switches called since then decide, and a
side that was not switched since is as it was — or on, when no side at all was on at that call. -/
theorem C158_sides_partial (pre post : List Setter) (b : Border) (h : ∀ b', Setter.border b' ∉ post) :
    let s := build pre
    let allOff := s.bTop = false ∧ s.bBottom = false ∧ s.bLeft = false ∧ s.bRight = false
    switches (build (pre ++ [.border b] ++ post)) =
      [lastSaid saysTop (if allOff then true else s.bTop) post, lastSaid saysBottom (if allOff then true else s.bBottom) post,
       lastSaid saysLeft (if allOff then true else s.bLeft) post, lastSaid saysRight (if allOff then true else s.bRight) post] := by
  intro s allOff
  unfold build
  rw [List.foldl_append, List.foldl_append, switches_no_border _ _ h]
  change [lastSaid saysTop (s.setBorder b).bTop post, lastSaid saysBottom (s.setBorder b).bBottom post,
      lastSaid saysLeft (s.setBorder b).bLeft post, lastSaid saysRight (s.setBorder b).bRight post] = _
  have hd : (s.setBorder b).bTop = (if allOff then true else s.bTop) ∧
      (s.setBorder b).bBottom = (if allOff then true else s.bBottom) ∧
      (s.setBorder b).bLeft = (if allOff then true else s.bLeft) ∧
      (s.setBorder b).bRight = (if allOff then true else s.bRight) := by
    simp only [allOff, Sty.setBorder]
    cases h1 : s.bTop <;> cases h2 : s.bBottom <;> cases h3 : s.bLeft <;> cases h4 : s.bRight <;> simp [h1, h2, h3, h4]
  rw [hd.1, hd.2.1, hd.2.2.1, hd.2.2.2]

/-- C158.  Without a `Border` call the switches are what was last said of each side, and then the style
is rejected exactly when one of them is on; with a `Border` call it is always accepted. -/
theorem C158_accepted (ops : List Setter) :
    ((∀ b, Setter.border b ∉ ops) → ((build ops).valid = true ↔
      lastSaid saysTop false ops = false ∧ lastSaid saysBottom false ops = false ∧
      lastSaid saysLeft false ops = false ∧ lastSaid saysRight false ops = false)) ∧
    ((∃ b, Setter.border b ∈ ops) → (build ops).valid = true) := by
  have hborder : ∀ (ops : List Setter) (s : Sty), (∃ b, Setter.border b ∈ ops) ∨ s.border.isSome = true →
      (ops.foldl Sty.set s).border.isSome = true := by
    intro ops
    induction ops with
    | nil => intro s h; rcases h with ⟨b, hb⟩ | h
             · cases hb
             · exact h
    | cons op ops ih =>
      intro s h
      rw [List.foldl_cons]
      apply ih
      rcases h with ⟨b, hb⟩ | h
      · rcases List.mem_cons.1 hb with rfl | hb
        · right; simp only [Sty.set, Sty.setBorder]; split <;> rfl
        · exact .inl ⟨b, hb⟩
      · right
        cases op <;> simp only [Sty.set, Sty.setBorder] <;> first | exact h | (split <;> rfl)
  constructor
  · intro h
    have hs := switches_no_border ops Sty.new h
    have hn : (build ops).border = none := by
      have hb := (C158_last_wins ops).2.2.1
      rw [hb]
      unfold lastSaid
      have : ops.filterMap (fun op => match op with | .border b => some (some b) | _ => none) = ([] : List (Option Border)) := by
        rw [List.filterMap_eq_nil_iff]
        intro op hop
        cases op <;> first | rfl | exact absurd hop (h _)
      rw [this]; rfl
    simp only [switches, List.cons.injEq, and_true] at hs
    obtain ⟨h1, h2, h3, h4⟩ := hs
    unfold Sty.valid
    rw [hn]
    have e1 : (build ops).bTop = lastSaid saysTop false ops := h1
    have e2 : (build ops).bBottom = lastSaid saysBottom false ops := h2
    have e3 : (build ops).bLeft = lastSaid saysLeft false ops := h3
    have e4 : (build ops).bRight = lastSaid saysRight false ops := h4
    rw [e1, e2, e3, e4]
    simp [Bool.or_eq_false_iff, and_assoc]
  · intro h
    have := hborder ops Sty.new (.inl h)
    unfold Sty.valid
    change (build ops).border.isSome = true at this
    cases hb : (build ops).border with
    | none => rw [hb] at this; cases this
    | some b => simp

/-- The full claim: the order of calls that concern different aspects does not matter; a side switched
off stays off whether the border is chosen before or after. -/
def C158_order_statement : Prop :=
  ∀ (ops : List Setter) (b : Border), (build (ops ++ [.borderTop false, .border b])).hasTop = false

/-- C158 is false for border sides: `New().BorderTop(false).Border(b)` draws the top side, because
choosing a border while all sides are off switches all of them on. -/
theorem C158_order_refuted : ¬ C158_order_statement := by
  intro h
  have := h [] ⟨[45], [45], [124], [124], [43], [43], [43], [43]⟩
  revert this
  decide

/-- Switching all four sides off and changing the border brings the whole border back. -/
theorem C158_sides_come_back_refuted (b : Border) :
    let off : List Setter := [.border b, .borderTop false, .borderBottom false, .borderLeft false, .borderRight false]
    (switches (build off) = [false, false, false, false]) ∧ switches (build (off ++ [.border b])) = [true, true, true, true] := by
  exact ⟨rfl, rfl⟩

/-- The constructors of paddings and margins clamp every side at zero, and the sums are the sums of
the sides. -/
theorem C158_constructors (t r b l : Int) :
    newSides t r b l = ⟨atLeast0 t, atLeast0 r, atLeast0 b, atLeast0 l⟩ ∧
    uniformSides t = newSides t t t t ∧ verticalHorizontal t r = newSides t r t r ∧
    (newSides t r b l).horizontal = atLeast0 l + atLeast0 r ∧ (newSides t r b l).vertical = atLeast0 t + atLeast0 b := by
  simp only [newSides, uniformSides, verticalHorizontal, Sides.horizontal, Sides.vertical, toNat_max, and_self]

example : build [.paddingAll 2, .bold true, .paddingLeft (-5), .width (-3), .bold false, .alignVertical .finish] =
    { Sty.new with padding := some ⟨2, 2, 2, 0⟩, size := some ⟨some 0, none, none, none, none, none⟩,
                   align := some (.start, .finish) } := by decide

/-- A chain meeting the hypothesis of C158_sides_partial with switches before and after. -/
example : (∀ b', Setter.border b' ∉ [Setter.borderLeft true, .bold true]) ∧
    switches (build ([Setter.borderTop true] ++ [.border ⟨[45], [45], [124], [124], [43], [43], [43], [43]⟩] ++ [Setter.borderLeft true, .bold true])) =
      [true, false, true, false] := by
  exact ⟨by intro b' h; simp at h, by decide⟩

end Phoenix.Style
