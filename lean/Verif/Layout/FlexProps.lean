import Verif.Layout.BuilderProps
/-
C35 and C36 for the positions a container gives its items (not only for the two axis functions).
-/
set_option linter.unusedVariables false
set_option linter.unusedSimpArgs false
namespace Phoenix.Layout
open Phoenix

/-- The coordinate of a position along the container's main axis, and across it. -/
def along (row : Bool) (p : Pos) : Int := if row then p.x else p.y
def across (row : Bool) (p : Pos) : Int := if row then p.y else p.x

theorem positions_valid (W : List Char → Nat) (f : Flex) (cw ch : Int) (hg : 0 ≤ f.gap)
    (hs : ∀ b ∈ f.items, b.size.Valid) {i : Nat} {b : Box} (hb : f.items[i]? = some b) :
    ∃ p, (f.positions W cw ch)[i]? = some p ∧
      (mainPositions f.justify f.gap (if f.horizontal then cw else ch) (f.items.map (f.mainSize W)))[i]?
        = some (along f.horizontal p) ∧
      across f.horizontal p = crossPosition f.align (if f.horizontal then ch else cw) (f.crossSize W b) := by
  have hne : f.items ≠ [] := by intro h; rw [h] at hb; simp at hb
  have hi := (List.getElem?_eq_some_iff.1 hb).1
  have hsz : ∀ s ∈ f.items.map (f.mainSize W), 0 ≤ s := by
    intro s hs'
    obtain ⟨x, hx, rfl⟩ := List.mem_map.1 hs'
    have := measure_nonneg W x (hs x hx)
    unfold Flex.mainSize; split <;> omega
  obtain ⟨a, h1, h2⟩ := need_nonneg_pos (j := f.justify) (c := if f.horizontal then cw else ch) (sizes := f.items.map (f.mainSize W)) (by simpa using hne) hg hsz i (by simpa using hi)
  have hmap : ((f.items.map (measure W)).map fun s => if f.horizontal then s.width else s.height) = f.items.map (f.mainSize W) := by
    rw [List.map_map]; rfl
  have hcross : ((f.items.map (measure W)).map fun s => crossPosition f.align (if f.horizontal then ch else cw)
      (if f.horizontal then s.height else s.width)) = f.items.map (fun b => crossPosition f.align (if f.horizontal then ch else cw) (f.crossSize W b)) := by
    rw [List.map_map]; rfl
  have hc0 := (C36_cross_axis_partial f.align (if f.horizontal then ch else cw) (f.crossSize W b)).1
  have hpn : ∀ x y : Int, 0 ≤ x → 0 ≤ y → Pos.new x y = ⟨x, y⟩ := by
    intro x y hx hy; unfold Pos.new; rw [if_neg (by omega), if_neg (by omega)]
  have hget : (f.positions W cw ch)[i]? = some (if f.horizontal then ⟨a, crossPosition f.align (if f.horizontal then ch else cw) (f.crossSize W b)⟩
      else ⟨crossPosition f.align (if f.horizontal then ch else cw) (f.crossSize W b), a⟩) := by
    unfold Flex.positions
    simp only
    rw [hmap, hcross, List.getElem?_map, (List.getElem?_zip_eq_some (z := (a, crossPosition f.align (if f.horizontal then ch else cw) (f.crossSize W b)))).2 ⟨h1, by rw [List.getElem?_map, hb]; rfl⟩]
    simp only [Option.map_some, hpn _ _ h2 hc0, hpn _ _ hc0 h2]
  refine ⟨_, hget, ?_, ?_⟩
  · rw [h1]; unfold along; cases f.horizontal <;> rfl
  · unfold across; cases f.horizontal <;> rfl

/-- C35 for containers: in a Row the x coordinates, in a Column the y coordinates: every item gets a place; a later
item begins at least its predecessor's measured extent plus the gap further on (exactly that unless SpaceBetween);
and when the items and gaps fit, no item reaches outside the container. All boxes the builder can make, all
containers. -/
theorem C35_container (W : List Char → Nat) (f : Flex) (cw ch : Int) (hg : 0 ≤ f.gap)
    (hs : ∀ b ∈ f.items, b.size.Valid) :
    (f.positions W cw ch).length = f.items.length ∧
    (∀ (i : Nat) b, f.items[i]? = some b → ∀ p, (f.positions W cw ch)[i]? = some p →
      (∀ p', (f.positions W cw ch)[i + 1]? = some p' →
        along f.horizontal p + f.mainSize W b + f.gap ≤ along f.horizontal p' ∧
        (f.justify ≠ .between → along f.horizontal p' = along f.horizontal p + f.mainSize W b + f.gap)) ∧
      0 ≤ along f.horizontal p ∧
      (need f.gap (f.items.map (f.mainSize W)) ≤ (if f.horizontal then cw else ch) →
        along f.horizontal p + f.mainSize W b ≤ (if f.horizontal then cw else ch))) := by
  have hsz : ∀ s ∈ f.items.map (f.mainSize W), 0 ≤ s := by
    intro s hs'
    obtain ⟨x, hx, rfl⟩ := List.mem_map.1 hs'
    have := measure_nonneg W x (hs x hx)
    unfold Flex.mainSize; split <;> omega
  have hlen : (f.positions W cw ch).length = f.items.length := by
    by_cases hne : f.items = []
    · unfold Flex.positions; simp [hne]
    · have := (C35_main_axis f.justify f.gap (if f.horizontal then cw else ch) (f.items.map (f.mainSize W))
        (by simpa using hne) hg hsz).1
      have hmap : ((f.items.map (measure W)).map fun s => if f.horizontal then s.width else s.height) = f.items.map (f.mainSize W) := by
        rw [List.map_map]; rfl
      unfold Flex.positions
      simp only [List.length_map, List.length_zip, hmap, this, Nat.min_self]
  refine ⟨hlen, ?_⟩
  intro i b hb p hp
  have hne : f.items ≠ [] := by intro h; rw [h] at hb; simp at hb
  have hmain := C35_main_axis f.justify f.gap (if f.horizontal then cw else ch) (f.items.map (f.mainSize W))
        (by simpa using hne) hg hsz
  obtain ⟨q, q1, q2, q3⟩ := positions_valid W f cw ch hg hs hb
  rw [hp] at q1; cases q1
  have hsi : (f.items.map (f.mainSize W))[i]? = some (f.mainSize W b) := by rw [List.getElem?_map, hb]; rfl
  obtain ⟨_, _, ⟨d, d1, d2, d3⟩, hfit⟩ := hmain
  refine ⟨?_, ?_, ?_⟩
  · intro p' hp'
    have hi' : i + 1 < f.items.length := by rw [← hlen]; exact (List.getElem?_eq_some_iff.1 hp').1
    obtain ⟨r, r1, r2, r3⟩ := positions_valid W f cw ch hg hs (List.getElem?_eq_getElem hi')
    rw [hp'] at r1; cases r1
    have := d3 i _ _ _ hsi q2 r2
    refine ⟨by omega, fun hj => ?_⟩
    have := d2 hj
    omega
  · obtain ⟨a, a1, a2⟩ := need_nonneg_pos (j := f.justify) (c := if f.horizontal then cw else ch) (sizes := f.items.map (f.mainSize W)) (by simpa using hne) hg hsz i (by simpa using (List.getElem?_eq_some_iff.1 hb).1)
    rw [q2] at a1; cases a1; exact a2
  · intro hn
    exact (hfit hn i _ _ hsi q2).2

/-- C36 for containers: across the main axis (y in a Row, x in a Column) no item is at a negative position, one that
fits lies inside, and Start/Stretch, End and Center put it at the near edge, the far edge and the middle. -/
theorem C36_container_partial (W : List Char → Nat) (f : Flex) (cw ch : Int) (hg : 0 ≤ f.gap)
    (hs : ∀ b ∈ f.items, b.size.Valid) (i : Nat) (b : Box) (p : Pos) (hb : f.items[i]? = some b)
    (hp : (f.positions W cw ch)[i]? = some p) :
    let room := if f.horizontal then ch else cw
    let y := across f.horizontal p
    let h := f.crossSize W b
    0 ≤ y ∧ (h ≤ room → y + h ≤ room) ∧ (f.align = .start ∨ f.align = .stretch → y = 0) ∧
    (h ≤ room → f.align = .finish → y + h = room) ∧
    (h ≤ room → f.align = .center → 0 ≤ (room - (y + h)) - y ∧ (room - (y + h)) - y ≤ 1) := by
  obtain ⟨q, q1, q2, q3⟩ := positions_valid W f cw ch hg hs hb
  rw [hp] at q1; cases q1
  have h0 : 0 ≤ f.crossSize W b := by
    have := measure_nonneg W b (hs b (List.mem_of_getElem? hb))
    unfold Flex.crossSize; split <;> omega
  have hc := C36_cross_axis_partial f.align (if f.horizontal then ch else cw) (f.crossSize W b)
  simp only [q3]
  obtain ⟨c1, c2, c3, c4, c5⟩ := hc
  exact ⟨c1, c2 h0, c3, c4, fun h1 h2 => by have := c5 h1 h2; omega⟩

/-- Two boxes in a column of 6 by 9 cells, at the end and centred. -/
example : (⟨false, .finish, .center, 1, [demoBox, { demoBox with padding := ⟨1, 1, 1, 1⟩ }]⟩ : Flex).positions
    (fun l => l.length) 6 9 = [⟨2, 4⟩, ⟨1, 6⟩] := by decide
example : ∀ b ∈ [demoBox], b.size.Valid := by
  intro b hb; simp at hb; subst hb; exact free_valid

end Phoenix.Layout
