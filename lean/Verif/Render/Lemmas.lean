import Verif.Render.Spec
import Verif.Util
/- Helper lemmas: buffers, diff. -/
namespace Phoenix.Render

theorem Style.equals_iff (s o : Style) : s.equals o = true ↔ s = o := by
  constructor
  · intro h
    unfold Style.equals at h
    rcases s with ⟨f, b, a1, a2, a3, a4, a5, a6, a7, a8⟩
    rcases o with ⟨f', b', c1, c2, c3, c4, c5, c6, c7, c8⟩
    cases f <;> cases f' <;> cases b <;> cases b' <;> simp_all
  · rintro rfl
    unfold Style.equals
    rcases s with ⟨f, b, a1, a2, a3, a4, a5, a6, a7, a8⟩
    cases f <;> cases b <;> simp

theorem Style.equals_false (s o : Style) : s.equals o = false ↔ s ≠ o := by
  rw [Ne, ← Style.equals_iff]; simp

theorem Style.isEmpty_iff (s : Style) : s.isEmpty = true ↔ s = {} := by
  rcases s with ⟨f, b, a1, a2, a3, a4, a5, a6, a7, a8⟩
  cases f <;> cases b <;> simp [Style.isEmpty, and_assoc]

theorem Cell.equals_iff (c o : Cell) : c.equals o = true ↔ c = o := by
  unfold Cell.equals
  rw [Bool.and_eq_true, Bool.and_eq_true, Style.equals_iff, beq_iff_eq, beq_iff_eq]
  constructor
  · rintro ⟨⟨h1, h2⟩, h3⟩; cases c; cases o; simp_all
  · rintro rfl; simp

theorem Cell.not_equals_iff (c o : Cell) : (!c.equals o) = true ↔ c ≠ o := by
  rw [Bool.not_eq_true', ← Bool.not_eq_true, Cell.equals_iff]

theorem Cell.isEmpty_iff (c : Cell) : c.isEmpty = true ↔ c.char = ' ' ∧ c.style = {} := by
  unfold Cell.isEmpty; rw [Bool.and_eq_true, Style.isEmpty_iff, beq_iff_eq]

/-! positions -/

theorem mem_positions {w h x y : Nat} : (x, y) ∈ positions w h ↔ x < w ∧ y < h := by
  simp only [positions, List.mem_flatMap, List.mem_map, List.mem_range, Prod.mk.injEq]
  constructor
  · rintro ⟨y', hy, x', hx, rfl, rfl⟩; exact ⟨hx, hy⟩
  · rintro ⟨hx, hy⟩; exact ⟨y, hy, x, hx, rfl, rfl⟩

/-- Row-major order. -/
def RowMajor (p q : Nat × Nat) : Prop := p.2 < q.2 ∨ (p.2 = q.2 ∧ p.1 < q.1)

theorem positions_sorted (w h : Nat) : (positions w h).Pairwise RowMajor := by
  unfold positions
  rw [List.pairwise_flatMap]
  refine ⟨?_, ?_⟩
  · intro y _
    rw [List.pairwise_map]
    exact List.pairwise_lt_range.imp (fun h => .inr ⟨rfl, h⟩)
  · refine List.pairwise_lt_range.imp ?_
    intro a b hab p hp q hq
    simp only [List.mem_map] at hp hq
    obtain ⟨_, _, rfl⟩ := hp
    obtain ⟨_, _, rfl⟩ := hq
    exact .inl hab

theorem RowMajor.ne {p q : Nat × Nat} (h : RowMajor p q) : p ≠ q := by
  rintro rfl; rcases h with h | h <;> omega

theorem positions_nodup (w h : Nat) : (positions w h).Nodup :=
  (positions_sorted w h).imp RowMajor.ne

theorem positions_length (w h : Nat) : (positions w h).length = h * w := by
  simp only [positions, List.length_flatMap, List.length_map, List.length_range]
  induction h with
  | zero => simp
  | succ n ih => rw [List.range_succ, List.map_append, List.sum_append, ih, Nat.succ_mul]; simp

/-! buffers -/

theorem Buffer.new_wf (w h : Int) : (Buffer.new w h).WF := by
  simp only [Buffer.WF, Buffer.new, List.length_replicate, true_and]
  intro r hr
  rw [List.mem_replicate] at hr
  rw [hr.2]; simp

theorem Buffer.new_width (w h : Int) : (Buffer.new w h).width = w.toNat := by
  simp only [Buffer.new]; split <;> omega
theorem Buffer.new_height (w h : Int) : (Buffer.new w h).height = h.toNat := by
  simp only [Buffer.new]; split <;> omega

theorem Buffer.new_get (w h x y : Int) : (Buffer.new w h).get x y = Cell.empty := by
  unfold Buffer.get
  split
  · rfl
  · simp only [Buffer.new, List.getD_eq_getElem?_getD, List.getElem?_replicate]
    generalize (if h < 0 then 0 else h.toNat) = n
    generalize (if w < 0 then 0 else w.toNat) = m
    by_cases h1 : y.toNat < n
    · simp only [h1, if_true, Option.getD_some, List.getElem?_replicate]
      by_cases h2 : x.toNat < m <;> simp [h2]
    · simp [h1]

@[simp] theorem Buffer.set_width (b : Buffer) (x y c) : (b.set x y c).width = b.width := by
  unfold Buffer.set; split <;> rfl
@[simp] theorem Buffer.set_height (b : Buffer) (x y c) : (b.set x y c).height = b.height := by
  unfold Buffer.set; split <;> rfl

theorem Buffer.set_wf {b : Buffer} (h : b.WF) (x y c) : (b.set x y c).WF := by
  unfold Buffer.set
  split
  · exact h
  · rename_i hr
    refine ⟨by simp [h.1], ?_⟩
    intro r hr'
    have := List.mem_or_eq_of_mem_set hr'
    rcases this with h' | rfl
    · exact h.2 r h'
    · simp only [List.length_set]
      have hy : y.toNat < b.cells.length := by rw [h.1]; omega
      rw [List.getD_eq_getElem?_getD, List.getElem?_eq_getElem hy]
      exact h.2 _ (List.getElem_mem hy)

theorem Buffer.get_set {b : Buffer} (h : b.WF) (x y x' y' : Int) (c : Cell)
    (hin : ¬ (x < 0 ∨ x ≥ b.width ∨ y < 0 ∨ y ≥ b.height)) :
    (b.set x y c).get x' y' = if x' = x ∧ y' = y then c else b.get x' y' := by
  unfold Buffer.get Buffer.set
  rw [if_neg hin]
  dsimp only
  by_cases ho : x' < 0 ∨ x' ≥ b.width ∨ y' < 0 ∨ y' ≥ b.height
  · rw [if_pos ho, if_pos ho, if_neg (by rintro ⟨rfl, rfl⟩; exact hin ho)]
  · rw [if_neg ho, if_neg ho]
    have hyl : y.toNat < b.cells.length := by rw [h.1]; omega
    simp only [List.getD_eq_getElem?_getD, List.getElem?_set]
    by_cases hy : y' = y
    · subst hy
      simp only [hyl, if_true, Option.getD_some, List.getElem?_eq_getElem hyl, List.getElem?_set]
      by_cases hx : x' = x
      · subst hx
        have : (b.cells[y'.toNat]).length = b.width := h.2 _ (List.getElem_mem hyl)
        simp [this, show x'.toNat < b.width by omega]
      · rw [if_neg (by omega)]; simp [hx]
    · rw [if_neg (by omega), if_neg (by simp [hy])]

theorem Buffer.set_out {b : Buffer} {x y : Int} {c : Cell}
    (ho : x < 0 ∨ x ≥ b.width ∨ y < 0 ∨ y ≥ b.height) : b.set x y c = b := by
  unfold Buffer.set; rw [if_pos ho]

theorem Buffer.get_out {b : Buffer} {x y : Int}
    (ho : x < 0 ∨ x ≥ b.width ∨ y < 0 ∨ y ≥ b.height) : b.get x y = Cell.empty := by
  unfold Buffer.get; rw [if_pos ho]

theorem Buffer.ext_get {a b : Buffer} (ha : a.WF) (hb : b.WF) (hw : a.width = b.width)
    (hh : a.height = b.height) (hg : ∀ x y : Nat, x < b.width → y < b.height → a.get x y = b.get x y) :
    a = b := by
  have : a.cells = b.cells := by
    apply List.ext_getElem
    · rw [ha.1, hb.1, hh]
    · intro y h1 h2
      have r1 := ha.2 _ (List.getElem_mem h1)
      have r2 := hb.2 _ (List.getElem_mem h2)
      apply List.ext_getElem
      · rw [r1, r2, hw]
      · intro x h3 h4
        have hy : y < b.height := by rw [← hb.1]; exact h2
        have hx : x < b.width := by rw [← r2]; exact h4
        have := hg x y hx hy
        unfold Buffer.get at this
        rw [if_neg (by omega), if_neg (by omega)] at this
        simp only [List.getD_eq_getElem?_getD, Int.toNat_natCast, List.getElem?_eq_getElem h1,
          List.getElem?_eq_getElem h2, Option.getD_some, List.getElem?_eq_getElem h3,
          List.getElem?_eq_getElem h4] at this
        exact this
  cases a; cases b; simp_all

@[simp] theorem Buffer.assign_width (b : Buffer) (ps f) : (b.assign ps f).width = b.width := by
  unfold Buffer.assign
  induction ps generalizing b with
  | nil => rfl
  | cons p ps ih => rw [List.foldl_cons, ih]; simp
@[simp] theorem Buffer.assign_height (b : Buffer) (ps f) : (b.assign ps f).height = b.height := by
  unfold Buffer.assign
  induction ps generalizing b with
  | nil => rfl
  | cons p ps ih => rw [List.foldl_cons, ih]; simp
theorem Buffer.assign_wf {b : Buffer} (h : b.WF) (ps f) : (b.assign ps f).WF := by
  unfold Buffer.assign
  induction ps generalizing b with
  | nil => exact h
  | cons p ps ih => exact ih (Buffer.set_wf h _ _ _)

theorem Buffer.assign_get {b : Buffer} (h : b.WF) (ps : List (Nat × Nat)) (f : Nat → Nat → Cell)
    (hin : ∀ p ∈ ps, p.1 < b.width ∧ p.2 < b.height) (x y : Nat) :
    (b.assign ps f).get x y = if (x, y) ∈ ps then f x y else b.get x y := by
  induction ps generalizing b with
  | nil => simp [Buffer.assign]
  | cons p ps ih =>
    have hp := hin p (by simp)
    show ((b.set p.1 p.2 (f p.1 p.2)).assign ps f).get x y = _
    rw [ih (Buffer.set_wf h _ _ _) (fun q hq => by simpa using hin q (by simp [hq])),
      Buffer.get_set h _ _ _ _ _ (by omega)]
    by_cases h1 : (x, y) ∈ ps
    · simp [h1]
    · by_cases h2 : (x, y) = p
      · subst h2; simp
      · have : ¬ ((x : Int) = p.1 ∧ (y : Int) = p.2) := by
          rintro ⟨h3, h4⟩; apply h2; cases p; simp only [Prod.mk.injEq]; exact ⟨by omega, by omega⟩
        rw [if_neg h1, if_neg this, if_neg (by simp [h1, h2])]

theorem Buffer.clone_eq {b : Buffer} (h : b.WF) : b.clone = b := by
  unfold Buffer.clone
  have hw := Buffer.new_width b.width b.height
  have hh := Buffer.new_height b.width b.height
  apply Buffer.ext_get (Buffer.assign_wf (Buffer.new_wf _ _) _ _) h
  · simp [hw]
  · simp [hh]
  · intro x y hx hy
    rw [Buffer.assign_get (Buffer.new_wf _ _), if_pos (mem_positions.2 ⟨hx, hy⟩)]
    intro p hp
    have := (mem_positions (x := p.1) (y := p.2)).1 hp
    rw [hw, hh]; simpa using this

theorem Buffer.clear_get {b : Buffer} (h : b.WF) (x y : Nat) : b.clear.get x y = Cell.empty := by
  unfold Buffer.clear
  rw [Buffer.assign_get h]
  · split
    · rfl
    · rename_i hn
      rw [mem_positions] at hn
      exact Buffer.get_out (by omega)
  · intro p hp
    exact (mem_positions (x := p.1) (y := p.2)).1 hp

/-! Go never leaves WF: a buffer stays well-formed whatever public method is applied. -/
theorem Buffer.clear_wf {b : Buffer} (h : b.WF) : b.clear.WF := Buffer.assign_wf h _ _

/-! diff -/

theorem applyAll_width (b : Buffer) (ops) : (applyAll b ops).width = b.width := by
  unfold applyAll
  induction ops generalizing b with
  | nil => rfl
  | cons o ops ih =>
    rw [List.foldl_cons, ih]; unfold DiffOp.apply; split <;> simp
theorem applyAll_height (b : Buffer) (ops) : (applyAll b ops).height = b.height := by
  unfold applyAll
  induction ops generalizing b with
  | nil => rfl
  | cons o ops ih =>
    rw [List.foldl_cons, ih]; unfold DiffOp.apply; split <;> simp
theorem applyAll_wf {b : Buffer} (h : b.WF) (ops) : (applyAll b ops).WF := by
  unfold applyAll
  induction ops generalizing b with
  | nil => exact h
  | cons o ops ih =>
    rw [List.foldl_cons]; refine ih ?_
    unfold DiffOp.apply; split
    · exact Buffer.set_wf h _ _ _
    · exact h

/-- The last cell written at a position by a list of operations. -/
def lastAt (ops : List DiffOp) (x y : Int) : Option Cell :=
  (ops.filter fun o => decide (o.type = .set ∧ o.x = x ∧ o.y = y)).getLast?.map DiffOp.cell

theorem applyAll_get {b : Buffer} (h : b.WF) (ops : List DiffOp) (x y : Int)
    (hin : ¬ (x < 0 ∨ x ≥ b.width ∨ y < 0 ∨ y ≥ b.height)) :
    (applyAll b ops).get x y = (lastAt ops x y).getD (b.get x y) := by
  induction ops using snocInd with
  | nil => simp [applyAll, lastAt]
  | append_singleton ops o ih =>
    have e : applyAll b (ops ++ [o]) = DiffOp.apply (applyAll b ops) o := by simp [applyAll]
    have hwf := applyAll_wf h ops
    have hw := applyAll_width b ops
    have hh := applyAll_height b ops
    rw [e]
    simp only [lastAt, List.filter_append]
    by_cases hc : o.type = .set ∧ o.x = x ∧ o.y = y
    · obtain ⟨h1, h2, h3⟩ := hc
      subst h2; subst h3
      simp only [DiffOp.apply, h1]
      rw [Buffer.get_set hwf _ _ _ _ _ (by rw [hw, hh]; exact hin)]
      simp [h1]
    · have : List.filter (fun o => decide (o.type = .set ∧ o.x = x ∧ o.y = y)) [o] = [] := by
        simp [List.filter_cons, hc]
      rw [this, List.append_nil]
      rw [← lastAt, ← ih]
      unfold DiffOp.apply
      split
      · rename_i ht
        by_cases ho : o.x < 0 ∨ o.x ≥ b.width ∨ o.y < 0 ∨ o.y ≥ b.height
        · rw [Buffer.set_out (by rw [hw, hh]; exact ho)]
        · rw [Buffer.get_set hwf _ _ _ _ _ (by rw [hw, hh]; exact ho), if_neg]
          rintro ⟨rfl, rfl⟩; exact hc ⟨ht, rfl, rfl⟩
      · rfl

end Phoenix.Render
