import Verif.Confirm.ViewModel
import Verif.Confirm.Props
import Verif.Choice.ViewProps
import Verif.Util
/-
C203: the text of the confirmation dialog.
-/
set_option linter.unusedVariables false
set_option linter.unusedSimpArgs false
namespace Phoenix.Confirm

/-! ### Specification -/

/-- The last line: the buttons, two blanks apart, the one with the number `focused` in square brackets, the others in
round ones. -/
def buttonLine (focused : Int) (buttons : List Bytes) : Bytes :=
  [32, 32].intercalate (buttons.zipIdx.map fun x : Bytes × Nat =>
    if (x.2 : Int) = focused then [91, 32] ++ x.1 ++ [32, 93] else [40, 32] ++ x.1 ++ [32, 41])

/-- The lines of a dialog: title, description if there is one, a blank line, the buttons. -/
def dialogLines (title description : Bytes) (focused : Int) (buttons : List Bytes) : List Bytes :=
  Choice.screenLines title ++ (if description = [] then [] else Choice.screenLines description) ++ [[]] ++
    Choice.screenLines (buttonLine focused buttons)

/-- What a call says about the description. -/
def descriptionSays : VOp → Option Bytes
  | .description t => some t
  | .op _ => none

/-! ### Lemmas -/

theorem renderButtons_eq (f : Int) (ls : List Bytes) : ∀ i : Nat, renderButtons f ((i + 1 : Nat) : Int) ls =
    (ls.zipIdx (i + 1)).flatMap fun x : Bytes × Nat => [32, 32] ++
      (if (x.2 : Int) = f then [91, 32] ++ x.1 ++ [32, 93] else [40, 32] ++ x.1 ++ [32, 41]) := by
  induction ls with
  | nil => intro i; rfl
  | cons l ls ih =>
    intro i
    have := ih (i + 1)
    rw [renderButtons, show ((i + 1 : Nat) : Int) + 1 = ((i + 1 + 1 : Nat) : Int) from rfl, this, List.zipIdx_cons,
      List.flatMap_cons, if_pos (by omega)]

theorem intercalate_eq (s : Bytes) (x : Bytes) (xs : List Bytes) : s.intercalate (x :: xs) = x ++ xs.flatMap fun y => s ++ y := by
  induction xs generalizing x with
  | nil => simp [List.intercalate, List.intersperse]
  | cons y ys ih =>
    have h := ih y
    simp only [List.intercalate, List.intersperse, List.flatten_cons, List.flatMap_cons] at h ⊢
    rw [h, List.append_assoc]

theorem renderButtons_line (f : Int) (ls : List Bytes) : renderButtons f 0 ls = buttonLine f ls := by
  unfold buttonLine
  cases ls with
  | nil => rfl
  | cons l ls =>
    have := renderButtons_eq f ls 0
    rw [List.zipIdx_cons, List.map_cons, intercalate_eq, renderButtons, if_neg (by omega), List.nil_append,
      show (0 : Int) + 1 = ((0 + 1 : Nat) : Int) from rfl, this, List.flatMap_map]
    rfl

theorem cv_run (title : Bytes) (ops : List VOp) :
    Reachable ((CV.new title).run ops).c ∧ ((CV.new title).run ops).title = title := by
  induction ops using snocInd with
  | nil => exact ⟨⟨[], rfl⟩, rfl⟩
  | append_singleton ops o ih =>
    unfold CV.run at ih ⊢
    rw [List.foldl_append, List.foldl_cons, List.foldl_nil]
    generalize List.foldl _ _ ops = s at ih ⊢
    cases o with
    | description t => exact ih
    | op o =>
      obtain ⟨⟨os, h1⟩, h2⟩ := ih
      exact ⟨⟨os ++ [o], by rw [List.foldl_append, ← h1]; rfl⟩, h2⟩

theorem cv_description (title : Bytes) (ops : List VOp) :
    ((CV.new title).run ops).description = lastSaid descriptionSays [] ops := by
  unfold CV.run
  rw [foldl_last CV.step (fun s => s.description) descriptionSays _ ops]
  · rfl
  · intro s o; cases o <;> rfl

/-- The lines of any dialog. -/
theorem view_lines (s : CV) : Choice.screenLines s.view = dialogLines s.title s.description s.c.focused s.c.buttons := by
  unfold CV.view dialogLines
  rw [renderButtons_line]
  generalize s.title = title
  generalize s.description = desc
  by_cases h : desc = []
  · rw [if_pos h, if_neg (fun e => e h)]
    have : title ++ [10] ++ [] ++ [10] ++ buttonLine s.c.focused s.c.buttons =
      title ++ 10 :: ([] ++ 10 :: buttonLine s.c.focused s.c.buttons) := by simp
    rw [this, Choice.screenLines_cut, Choice.screenLines_cut]
    simp [Choice.screenLines]
  · rw [if_neg h, if_pos h]
    have : title ++ [10] ++ (desc ++ [10]) ++ [10] ++ buttonLine s.c.focused s.c.buttons =
      title ++ 10 :: (desc ++ 10 :: ([] ++ 10 :: buttonLine s.c.focused s.c.buttons)) := by simp
    rw [this, Choice.screenLines_cut, Choice.screenLines_cut, Choice.screenLines_cut]
    simp [Choice.screenLines]

/-- C203: after any history of calls and keys View returns the lines title, description (if the last Description call
gave one), a blank line, and the buttons in their order, two blanks apart. -/
theorem C203_view (title : Bytes) (ops : List VOp) :
    let s := (CV.new title).run ops
    Choice.screenLines s.view = dialogLines title (lastSaid descriptionSays [] ops) s.c.focused s.c.buttons := by
  intro s
  rw [view_lines, (cv_run title ops).2, cv_description]

/-- C203: exactly one button is in square brackets, the one Enter would answer with (C69). -/
theorem C203_one_focused (title : Bytes) (ops : List VOp) :
    let s := (CV.new title).run ops
    ∃ i : Nat, i < s.c.buttons.length ∧ ∀ j : Nat, (j : Int) = s.c.focused ↔ j = i := by
  intro s
  obtain ⟨h1, h2, _⟩ := C69_focus_valid s.c (cv_run title ops).1
  exact ⟨s.c.focused.toNat, by omega, fun j => by omega⟩

example : Choice.screenLines (((CV.new "Sure?".toUTF8.toList).run [.description "Really".toUTF8.toList,
    .op (.update (.key { type := .left }))]).view) =
    ["Sure?", "Really", "", "[ Yes ]  ( No )"].map (·.toUTF8.toList) := by decide +kernel

end Phoenix.Confirm
