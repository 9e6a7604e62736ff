import Verif.Progress.Model
import Verif.Util
set_option linter.unusedVariables false
set_option linter.unusedSimpArgs false
/-
  C66  progress bar geometry
  C101 spinner animation
  C102 spinners do not disturb each other
-/
namespace Phoenix.Progress

/-- A bar obtained from a constructor by any sequence of public methods. -/
def Reachable (b : Bar) : Prop :=
  ∃ (w p : Int) (ops : List Op), b = ops.foldl apply (newBarWithProgress w p)

theorem newBar_eq (w : Int) : newBar w = newBarWithProgress w 0 := by
  simp [newBar, newBarWithProgress]

theorem newPercentage_range (x : Int) : 0 ≤ newPercentage x ∧ newPercentage x ≤ 100 := by
  unfold newPercentage clamp
  (repeat' split) <;> omega

theorem foldl_inv (ops : List Op) (b : Bar) (h : 0 ≤ b.percentage ∧ b.percentage ≤ 100)
    (hw : 1 ≤ b.width) :
    (0 ≤ (ops.foldl apply b).percentage ∧ (ops.foldl apply b).percentage ≤ 100) ∧
    (ops.foldl apply b).width = b.width := by
  induction ops generalizing b with
  | nil => exact ⟨h, rfl⟩
  | cons o os ih =>
    simp only [List.foldl_cons]
    have hp : 0 ≤ (apply b o).percentage ∧ (apply b o).percentage ≤ 100 := by
      cases o <;> simp only [apply] <;> first | exact newPercentage_range _ | exact h
    have hwid : (apply b o).width = b.width := by cases o <;> rfl
    obtain ⟨h1, h2⟩ := ih (apply b o) hp (by omega)
    exact ⟨h1, by rw [h2, hwid]⟩

theorem reachable_inv {b : Bar} (h : Reachable b) :
    0 ≤ b.percentage ∧ b.percentage ≤ 100 ∧ 1 ≤ b.width := by
  obtain ⟨w, p, ops, rfl⟩ := h
  have hw : 1 ≤ (newBarWithProgress w p).width := by
    simp only [newBarWithProgress, newBar]; split <;> omega
  obtain ⟨⟨h1, h2⟩, h3⟩ := foldl_inv ops (newBarWithProgress w p) (newPercentage_range p) hw
  exact ⟨h1, h2, by omega⟩

/-- C66: the progress of every reachable bar is a percentage, and `IsComplete` says 100. -/
theorem C66_percentage_range (b : Bar) (h : Reachable b) :
    0 ≤ b.percentage ∧ b.percentage ≤ 100 ∧ (isComplete b = true ↔ b.percentage = 100) := by
  obtain ⟨h1, h2, _⟩ := reachable_inv h
  exact ⟨h1, h2, by simp [isComplete]⟩
example := C66_percentage_range ([Op.increment 40, .fillChar '#', .decrement 7].foldl apply (newBarWithProgress 7 20)) ⟨7, 20, [.increment 40, .fillChar '#', .decrement 7], rfl⟩


/-- C66: setting, incrementing and decrementing saturate: inside 0..100 they are exact,
    outside they stop at the nearest bound. -/
theorem C66_progress_exact (b : Bar) (h : Reachable b) (x : Int) :
    (apply b (.setProgress x)).percentage = max 0 (min 100 x) ∧
    (apply b (.increment x)).percentage = max 0 (min 100 (b.percentage + x)) ∧
    (apply b (.decrement x)).percentage = max 0 (min 100 (b.percentage - x)) := by
  simp only [apply, newPercentage, clamp]
  refine ⟨?_, ?_, ?_⟩ <;> (repeat' split) <;> omega
example := C66_progress_exact ([Op.increment 40, .fillChar '#', .decrement 7].foldl apply (newBarWithProgress 7 20)) ⟨7, 20, [.increment 40, .fillChar '#', .decrement 7], rfl⟩ 95


/-- C66: methods other than the progress setters leave progress and width unchanged. -/
theorem C66_progress_frame (b : Bar) (o : Op) :
    (apply b o).width = b.width ∧
    ((∀ x, o ≠ .setProgress x ∧ o ≠ .increment x ∧ o ≠ .decrement x) →
      (apply b o).percentage = b.percentage) := by
  cases o <;> simp [apply] <;> intro h <;> exact absurd rfl (by simpa using h _)

theorem filled_bounds (w p : Int) (hw : 1 ≤ w) (h0 : 0 ≤ p) (h1 : p ≤ 100) :
    0 ≤ calculateFilledWidth w p ∧ calculateFilledWidth w p ≤ w := by
  unfold calculateFilledWidth
  rw [if_neg (by omega)]
  split
  · omega
  · split
    · omega
    · have hn : 0 ≤ p * w := Int.mul_nonneg h0 (by omega)
      rw [Int.tdiv_eq_ediv_of_nonneg hn]
      have hle : p * w ≤ 100 * w := Int.mul_le_mul_of_nonneg_right h1 (by omega)
      omega

/-- The number of leading cells of the drawn bar that carry the fill character. -/
def filledCells (b : Bar) : Nat := (calculateFilledWidth b.width b.percentage).toNat

/-- C66: the bar proper is exactly `width` cells: some fill characters, then only empty
    characters; and the number of fill characters is the floor of `pct * width / 100`. -/
theorem C66_bar_width (b : Bar) (h : Reachable b) :
    (barStr b).length = b.width.toNat ∧
    ∃ f : Nat, (f : Int) ≤ b.width ∧
      barStr b = List.replicate f b.fillChar ++ List.replicate (b.width.toNat - f) b.emptyChar ∧
      100 * (f : Int) ≤ b.percentage * b.width ∧ b.percentage * b.width < 100 * (f + 1) := by
  obtain ⟨h1, h2, hw⟩ := reachable_inv h
  obtain ⟨a1, a2⟩ := filled_bounds b.width b.percentage hw h1 h2
  refine ⟨by simp [barStr]; omega, (calculateFilledWidth b.width b.percentage).toNat, by omega, ?_, ?_, ?_⟩
  · unfold barStr
    congr 2
    omega
  · rw [Int.toNat_of_nonneg a1]
    unfold calculateFilledWidth
    rw [if_neg (by omega)]
    split
    · have := Int.mul_nonneg h1 (show 0 ≤ b.width by omega); omega
    · split
      · have : b.percentage = 100 := by omega
        rw [this]; omega
      · rw [Int.tdiv_eq_ediv_of_nonneg (Int.mul_nonneg h1 (by omega))]; omega
  · rw [Int.toNat_of_nonneg a1]
    unfold calculateFilledWidth
    rw [if_neg (by omega)]
    split
    · have : b.percentage = 0 := by omega
      rw [this]; omega
    · split
      · have : b.percentage = 100 := by omega
        rw [this]; omega
      · rw [Int.tdiv_eq_ediv_of_nonneg (Int.mul_nonneg h1 (by omega))]; omega
example := C66_bar_width ([Op.increment 40, .fillChar '#', .decrement 7].foldl apply (newBarWithProgress 7 20)) ⟨7, 20, [.increment 40, .fillChar '#', .decrement 7], rfl⟩


/-- C66: with distinct fill and empty characters the number of filled cells is what a
    reader of the output counts. -/
theorem C66_filled_count (b : Bar) (h : Reachable b) (hne : b.fillChar ≠ b.emptyChar) :
    (barStr b).count b.fillChar = filledCells b := by
  unfold barStr filledCells
  simp [List.count_append, List.count_replicate, Ne.symm hne]
example := C66_filled_count ([Op.increment 40, .fillChar '#', .decrement 7].foldl apply (newBarWithProgress 7 20)) ⟨7, 20, [.increment 40, .fillChar '#', .decrement 7], rfl⟩ (by decide)


/-- C66: monotone in the percentage, for a fixed width. -/
theorem C66_filled_monotone (w p q : Int) (hw : 1 ≤ w) (hp : 0 ≤ p) (hpq : p ≤ q) (hq : q ≤ 100) :
    calculateFilledWidth w p ≤ calculateFilledWidth w q := by
  by_cases hp0 : p ≤ 0
  · have := (filled_bounds w q hw (by omega) hq).1
    unfold calculateFilledWidth at *
    rw [if_neg (by omega), if_pos hp0]
    omega
  by_cases hq1 : q ≥ 100
  · have := (filled_bounds w p hw hp (by omega)).2
    have e : calculateFilledWidth w q = w := by
      unfold calculateFilledWidth
      rw [if_neg (by omega), if_neg (by omega), if_pos hq1]
    omega
  · unfold calculateFilledWidth
    rw [if_neg (by omega), if_neg (by omega), if_neg (by omega), if_neg (by omega),
      if_neg (by omega), if_neg (by omega)]
    have hle : p * w ≤ q * w := Int.mul_le_mul_of_nonneg_right hpq (by omega)
    rw [Int.tdiv_eq_ediv_of_nonneg (Int.mul_nonneg hp (by omega)),
      Int.tdiv_eq_ediv_of_nonneg (Int.mul_nonneg (by omega) (by omega))]
    omega
example := C66_filled_monotone 30 20 55 (by decide) (by decide) (by decide) (by decide)


/-- C66: no cell at 0; every cell at 100 and only at 100. -/
theorem C66_empty_and_full (b : Bar) (h : Reachable b) :
    (b.percentage = 0 → barStr b = List.replicate b.width.toNat b.emptyChar) ∧
    (filledCells b = b.width.toNat ↔ b.percentage = 100) ∧
    (b.percentage = 100 → barStr b = List.replicate b.width.toNat b.fillChar) := by
  obtain ⟨h1, h2, hw⟩ := reachable_inv h
  have hfull : b.percentage = 100 → calculateFilledWidth b.width b.percentage = b.width := by
    intro e; unfold calculateFilledWidth
    rw [if_neg (by omega), if_neg (by omega), if_pos (by omega)]
  refine ⟨?_, ⟨?_, ?_⟩, ?_⟩
  · intro e
    have : calculateFilledWidth b.width b.percentage = 0 := by
      unfold calculateFilledWidth
      rw [if_neg (by omega), if_pos (by omega)]
    simp [barStr, this]
  · intro e
    unfold filledCells at e
    obtain ⟨a1, a2⟩ := filled_bounds b.width b.percentage hw h1 h2
    apply Classical.byContradiction
    intro hne
    have hlt : b.percentage ≤ 99 := by omega
    have hc : calculateFilledWidth b.width b.percentage < b.width := by
      unfold calculateFilledWidth
      rw [if_neg (by omega)]
      split
      · omega
      · rw [if_neg (by omega)]
        have hn : 0 ≤ b.percentage * b.width := Int.mul_nonneg h1 (by omega)
        have : b.percentage * b.width ≤ 99 * b.width :=
          Int.mul_le_mul_of_nonneg_right hlt (by omega)
        rw [Int.tdiv_eq_ediv_of_nonneg hn]
        omega
    omega
  · intro e
    unfold filledCells
    rw [hfull e]
  · intro e
    simp [barStr, hfull e]
example := C66_empty_and_full ([Op.increment 40, .fillChar '#', .decrement 7].foldl apply (newBarWithProgress 7 20)) ⟨7, 20, [.increment 40, .fillChar '#', .decrement 7], rfl⟩


/-- C66: what is shown: label, bar and percentage, separated by single spaces; the parts
    not asked for are absent. -/
theorem C66_view (b : Bar) :
    view b = (if b.label ≠ [] then b.label ++ [' '] else []) ++ barStr b ++
      (if b.showPercent then ' ' :: formatPercentage b.percentage else []) := by
  unfold view
  by_cases h1 : b.label = [] <;> by_cases h2 : b.showPercent = true <;>
    simp [h1, h2, joinSp, List.append_assoc]

/-- The decimal value of a digit character. -/
def digitVal (c : Char) : Nat := c.toNat - 48

/-- C66: the percentage shown is the percentage, as three decimal digits and a percent sign. -/
theorem C66_percent_shown (b : Bar) (h : Reachable b) :
    ∃ x y z : Char, formatPercentage b.percentage = [x, y, z, '%'] ∧
      x.isDigit = true ∧ y.isDigit = true ∧ z.isDigit = true ∧
      (100 * digitVal x + 10 * digitVal y + digitVal z : Nat) = b.percentage.toNat := by
  obtain ⟨h1, h2, _⟩ := reachable_inv h
  refine ⟨_, _, _, rfl, ?_⟩
  have key : ∀ n : Fin 101,
      (digit (((n.val : Int).tdiv 100).tmod 10)).isDigit = true ∧
      (digit (((n.val : Int).tdiv 10).tmod 10)).isDigit = true ∧
      (digit ((n.val : Int).tmod 10)).isDigit = true ∧
      100 * digitVal (digit (((n.val : Int).tdiv 100).tmod 10)) +
        10 * digitVal (digit (((n.val : Int).tdiv 10).tmod 10)) +
        digitVal (digit ((n.val : Int).tmod 10)) = n.val := by decide
  have := key ⟨b.percentage.toNat, by omega⟩
  simp only [] at this
  rw [Int.toNat_of_nonneg h1] at this
  exact this

/-- A concrete bar meeting the hypotheses: 7 cells at 33 % show 2 filled cells. -/
example : Reachable (apply (apply (newBar 7) (.increment 40)) (.decrement 7)) ∧
    view (apply (apply (newBar 7) (.increment 40)) (.decrement 7)) = "██░░░░░".toList :=
  ⟨⟨7, 0, [.increment 40, .decrement 7], by decide⟩, by decide⟩

/-! ## C101: spinner -/

/-- Frames shown by a spinner after `n` ticks, computed from the frames alone: the
    (n mod count)-th one. -/
theorem nextFrame_iter (s : Spinner) (n : Nat) (k : Nat)
    (hk : s.frameIndex = k) (hlt : k < s.style.frames.length) :
    ((List.replicate n Msg.tick).foldl (fun s m => (update s m).1) s) =
      { s with frameIndex := (((k + n) % s.style.frames.length : Nat) : Int) } := by
  induction n generalizing s k with
  | zero =>
    obtain ⟨st, fi, lb⟩ := s
    simp only [List.replicate_zero, List.foldl_nil, Nat.add_zero] at *
    rw [Nat.mod_eq_of_lt hlt, ← hk]
  | succ n ih =>
    obtain ⟨st, fi, lb⟩ := s
    simp only [] at hk hlt
    subst hk
    have hu : (update (⟨st, (k : Int), lb⟩ : Spinner) .tick).1 =
        ⟨st, ((k : Int) + 1).tmod (st.frames.length : Int), lb⟩ := rfl
    simp only [List.replicate_succ, List.foldl_cons]
    rw [hu]
    have e : ((k : Int) + 1).tmod (st.frames.length : Int) = (((k + 1) % st.frames.length : Nat) : Int) := by
      rw [Int.tmod_eq_emod_of_nonneg (by omega)]
      push_cast
      rfl
    rw [ih _ ((k + 1) % st.frames.length) e (Nat.mod_lt _ (by omega))]
    congr 2
    simp only []
    rw [Nat.mod_add_mod]
    congr 1
    omega

/-- C101: `GetFrame` accepts every index, counting cyclically in both directions. -/
theorem C101_getFrame_total (st : SpinnerStyle) (i : Int) (h : st.frames ≠ []) :
    getFrame st i = st.frames[(i % (st.frames.length : Int)).toNat]? ∧
    (i % (st.frames.length : Int)).toNat < st.frames.length := by
  have hlen : 0 < st.frames.length := List.length_pos_iff.2 h
  have hb := Int.emod_lt_of_pos i (show (0:Int) < st.frames.length by omega)
  have hn := Int.emod_nonneg i (show (st.frames.length : Int) ≠ 0 by omega)
  refine ⟨?_, by omega⟩
  simp only [getFrame]
  rw [if_neg (by omega)]
  have e : (if i < 0 then (st.frames.length : Int) + i.tmod st.frames.length else i).tmod
      st.frames.length = i % st.frames.length := by
    split
    · rename_i hi
      have hneg : i.tmod (st.frames.length : Int) = -((-i) % (st.frames.length : Int)) := by
        rw [← Int.tmod_eq_emod_of_nonneg (show 0 ≤ -i by omega), Int.neg_tmod, Int.neg_neg]
      have b1 := Int.emod_lt_of_pos (-i) (show (0:Int) < st.frames.length by omega)
      have b2 := Int.emod_nonneg (-i) (show (st.frames.length : Int) ≠ 0 by omega)
      rw [Int.tmod_eq_emod_of_nonneg (by omega), hneg]
      have d := Int.mul_ediv_add_emod (-i) (st.frames.length : Int)
      have e2 : (st.frames.length : Int) + -((-i) % (st.frames.length : Int)) =
          i + (st.frames.length : Int) * ((-i) / (st.frames.length : Int) + 1) := by
        rw [Int.mul_add, Int.mul_one]; omega
      rw [e2, Int.add_mul_emod_self_left]
    · rw [Int.tmod_eq_emod_of_nonneg (by omega)]
  rw [e, if_neg (by omega)]
example := C101_getFrame_total (newSpinnerStyle [['|'], ['/'], ['-']] 10) (-4) (by decide)


/-- C101 (cycle): a spinner over a non-empty list of frames shows frame `n mod count`
    after `n` ticks, never failing, and messages that are not ticks change nothing. -/
theorem C101_spinner_cycles_partial (st : SpinnerStyle) (n : Nat) (h : st.frames ≠ []) :
    spinnerView ((List.replicate n Msg.tick).foldl (fun s m => (update s m).1) (newSpinner st)) =
      st.frames[n % st.frames.length]? ∧
    n % st.frames.length < st.frames.length := by
  have hlen : 0 < st.frames.length := List.length_pos_iff.2 h
  have hm := Nat.mod_lt n hlen
  rw [nextFrame_iter (newSpinner st) n 0 rfl hlen]
  refine ⟨?_, hm⟩
  simp only [newSpinner, Nat.zero_add]
  simp only [spinnerView]
  rw [(C101_getFrame_total st _ h).1]
  have e : (((n % st.frames.length : Nat) : Int) % (st.frames.length : Int)).toNat =
      n % st.frames.length := by
    rw [Int.emod_eq_of_lt (by omega) (by omega)]
    exact Int.toNat_natCast _
  rw [e]
  simp
example := C101_spinner_cycles_partial (newSpinnerStyle [['|'], ['/'], ['-']] 10) 5 (by decide)


/-- Every style built by the library has at least one frame and a positive rate, so the
    hypothesis of the cycle theorem is met and the tick delay never divides by zero. -/
theorem C101_style_wellformed (fs : List (List Char)) (fps : Int) :
    (newSpinnerStyle fs fps).frames ≠ [] ∧ 0 < (newSpinnerStyle fs fps).fps ∧
    (fs ≠ [] → (newSpinnerStyle fs fps).frames = fs) ∧
    (0 < fps → (newSpinnerStyle fs fps).fps = fps) := by
  simp only [newSpinnerStyle]
  refine ⟨?_, ?_, ?_, ?_⟩
  · split
    · simp
    · assumption
  · split <;> omega
  · intro h; rw [if_neg h]
  · intro h; rw [if_neg (by omega)]

/-- C101, full claim: a custom spinner cycles through the frames it was given. -/
def C101_custom_statement : Prop :=
  ∀ (fs : List (List Char)) (fps : Int) (n : Nat), fs ≠ [] →
    spinnerView ((List.replicate n Msg.tick).foldl (fun s m => (update s m).1)
      (newSpinnerCustom fs fps)) = fs[n % fs.length]?

/-- C101 is false for `NewSpinnerCustom`: it shows the built-in dots whatever it is given. -/
theorem C101_custom_refuted : ¬ C101_custom_statement := by
  intro h
  have := h [['x']] 5 0 (by decide)
  revert this
  decide

/-- C101: and exactly how it fails: the arguments have no influence at all. -/
theorem C101_custom_ignores_arguments (fs gs : List (List Char)) (a b : Int) :
    newSpinnerCustom fs a = newSpinnerCustom gs b := rfl

/-- C101: a message other than a tick changes nothing and schedules nothing; a tick
    schedules exactly one further tick. -/
theorem C101_tick_chain (s : Spinner) :
    update s .other = (s, none) ∧
    (update s .tick).2 = some (tickDelay s) ∧ (update s .tick).1.style = s.style ∧
    (update s .tick).1.label = s.label := by
  simp [update, nextFrame, tickDelay]

example : (newSpinnerStyle [['|'], ['/'], ['-'], ['\\']] 10).frames ≠ [] ∧
    spinnerView ((List.replicate 6 Msg.tick).foldl (fun s m => (update s m).1)
      (newSpinner (newSpinnerStyle [['|'], ['/'], ['-'], ['\\']] 10))) = some ['-'] := by
  decide

/-! ## C102: several spinners -/

theorem updateAll_length (ss : List Spinner) :
    (updateAll ss .tick).1.length = ss.length ∧ (updateAll ss .tick).2.length = ss.length := by
  constructor
  · simp [updateAll]
  · simp only [updateAll, update]
    induction ss with
    | nil => rfl
    | cons s t ih => simp

theorem round_count (n : Nat) (ss : List Spinner) :
    (round n ss).1.length = ss.length ∧ (round n ss).2 = n * ss.length := by
  induction n generalizing ss with
  | zero => simp [round]
  | succ n ih =>
    obtain ⟨a, b⟩ := updateAll_length ss
    obtain ⟨c, d⟩ := ih (updateAll ss .tick).1
    simp only [round]
    rw [c, d, a, b]
    exact ⟨rfl, by rw [Nat.succ_mul]; omega⟩

/-- C102, full claim: with any number of spinners embedded, each spinner keeps exactly one
    tick outstanding, so the number of pending ticks stays the number of spinners. -/
def C102_statement : Prop :=
  ∀ (ss : List Spinner) (g : Nat), (pendingAfter g ss (initAll ss).length).2 = ss.length

/-- C102: the exact growth: after `g` rounds there are `k ^ (g+1)` ticks pending. -/
theorem C102_pending_growth (ss : List Spinner) (g : Nat) :
    (pendingAfter g ss (initAll ss).length).2 = ss.length ^ (g + 1) := by
  have gen : ∀ (g : Nat) (ss : List Spinner) (p : Nat),
      (pendingAfter g ss p).2 = p * ss.length ^ g := by
    intro g
    induction g with
    | zero => intro ss p; simp [pendingAfter]
    | succ g ih =>
      intro ss p
      obtain ⟨a, b⟩ := round_count p ss
      simp only [pendingAfter]
      rw [ih, a, b, Nat.pow_succ]
      rw [Nat.mul_assoc, Nat.mul_comm ss.length]
  rw [gen]
  simp [initAll, Nat.pow_succ, Nat.mul_comm]

/-- C102 (one spinner): a single spinner always has exactly one tick outstanding. -/
theorem C102_single_partial (s : Spinner) (g : Nat) :
    (pendingAfter g [s] (initAll [s]).length).2 = 1 := by
  rw [C102_pending_growth]; simp

/-- C102 is false for two spinners: the ticks double every round. -/
theorem C102_refuted : ¬ C102_statement := by
  intro h
  have := h [newSpinner dots, newSpinner dots] 1
  rw [C102_pending_growth] at this
  revert this
  decide

/-! ## Settings -/

/-- C66: after any history the characters, the label and the percentage switch are what was last set
    (█, ░, no label, no percentage when never set), and the width is the one given to the constructor,
    at least 1. -/
theorem C66_settings (w p : Int) (ops : List Op) :
    let b := ops.foldl apply (newBarWithProgress w p)
    b.fillChar = lastSaid (fun | .fillChar c => some c | _ => none) (Char.ofNat 0x2588) ops ∧
    b.emptyChar = lastSaid (fun | .emptyChar c => some c | _ => none) (Char.ofNat 0x2591) ops ∧
    b.label = lastSaid (fun | .label s => some s | _ => none) [] ops ∧
    b.showPercent = lastSaid (fun | .showPercent s => some s | _ => none) false ops ∧
    b.width = max 1 w := by
  refine ⟨foldl_last apply Bar.fillChar _ ?_ ops _, foldl_last apply Bar.emptyChar _ ?_ ops _,
    foldl_last apply Bar.label _ ?_ ops _, foldl_last apply Bar.showPercent _ ?_ ops _, ?_⟩
  · intro s op; cases op <;> rfl
  · intro s op; cases op <;> rfl
  · intro s op; cases op <;> rfl
  · intro s op; cases op <;> rfl
  · have hw : 1 ≤ (newBarWithProgress w p).width := by
      simp only [newBarWithProgress, newBar]; split <;> omega
    rw [(foldl_inv ops (newBarWithProgress w p) (newPercentage_range p) hw).2]
    simp only [newBarWithProgress, newBar]; split <;> omega

example : let b := [Op.fillChar '#', .setProgress 50, .fillChar '=', .label ['x']].foldl apply (newBarWithProgress (-4) 3)
    b.fillChar = '=' ∧ b.width = 1 ∧ b.label = ['x'] ∧ b.percentage = 50 := by decide

/-- C101: the delay between two frames is one second divided by the rate, rounded down to a whole
    nanosecond: `fps` delays fit into one second, and one nanosecond more per frame would not. -/
theorem C101_rate (s : Spinner) (h : 0 < s.style.fps) (h2 : s.style.fps ≤ 1000000000) :
    0 < tickDelay s ∧ s.style.fps * tickDelay s ≤ 1000000000 ∧ 1000000000 < s.style.fps * (tickDelay s + 1) := by
  unfold tickDelay
  rw [Int.tdiv_eq_ediv_of_nonneg (by omega)]
  have h3 := Int.mul_ediv_add_emod 1000000000 s.style.fps
  have h4 := Int.emod_nonneg (1000000000 : Int) (show s.style.fps ≠ 0 by omega)
  have h5 := Int.emod_lt_of_pos (1000000000 : Int) h
  refine ⟨?_, by omega, by rw [Int.mul_add]; omega⟩
  have := Int.le_ediv_of_mul_le h (show 1 * s.style.fps ≤ 1000000000 by omega)
  omega
example := C101_rate (newSpinner (newSpinnerStyle [['|'], ['/'], ['-']] 7)) (by decide) (by decide)


/-- C101: the built-in dots: ten different frames, ten a second. -/
theorem C101_dots : dots.frames.length = 10 ∧ dots.frames.Nodup ∧ tickDelay (newSpinner dots) = 100000000 := by
  decide

/-- C101: what is shown: the current frame, followed by a blank and the label if there is one. -/
theorem C101_view (s : Spinner) (f : List Char) (h : getFrame s.style s.frameIndex = some f) :
    (s.label = [] → spinnerView s = some f) ∧ (s.label ≠ [] → spinnerView s = some (f ++ [' '] ++ s.label)) := by
  unfold spinnerView
  rw [h]
  constructor
  · intro e; simp [e]
  · intro e; simp [e]

example : spinnerView { newSpinner dots with label := ['h', 'i'] } = some ['⠋', ' ', 'h', 'i'] ∧ tickDelay (newSpinner dots) = 100000000 := by
  decide

end Phoenix.Progress
