import Verif.Choice.Props
/-
Key tables of MultiSelect and Select (C127, C128) and what Options() resets (C129).
-/
set_option linter.unusedVariables false
set_option linter.unusedSimpArgs false
namespace Phoenix.Choice
section
variable {P V : Type} [DecidableEq P] (dflt : P → Bytes → Bool) (deref : P → Opt V)

/-- The key is this special key, or (without regard to modifiers) one of these characters. -/
def IsKey (k : KeyMsg) (t : KeyType) (chars : List Char) : Prop :=
  k.type = t ∨ (k.type = .rune ∧ k.rune ∈ chars)

/-! ## SelectAll -/

theorem selAllOne_mono (s : Selection) (i : Nat) (j : Int) (h : j ∈ s.idx) : j ∈ (selAllOne s i).idx := by
  unfold selAllOne
  split
  · rename_i hc
    unfold Selection.toggle
    simp only [Selection.isSelected, Selection.canSelect, Bool.and_eq_true, Bool.not_eq_true', decide_eq_false_iff_not,
      decide_eq_true_eq] at hc
    rw [if_neg (by omega), if_neg hc.1, if_pos hc.2]
    exact mem_insertKey.2 (.inl h)
  · exact h

theorem selAllOne_spec (s : Selection) (i : Nat) :
    (selAllOne s i).max = s.max ∧ (selAllOne s i).min = s.min ∧
    (∀ j ∈ (selAllOne s i).idx, j ∈ s.idx ∨ j = i) ∧
    ((i : Int) ∉ (selAllOne s i).idx → s.max ≠ 0 ∧ s.max ≤ s.idx.length) ∧
    s.idx.length ≤ (selAllOne s i).idx.length := by
  unfold selAllOne
  split
  · rename_i hc
    unfold Selection.toggle
    simp only [Selection.isSelected, Selection.canSelect, Bool.and_eq_true, Bool.not_eq_true', decide_eq_false_iff_not,
      decide_eq_true_eq] at hc
    rw [if_neg (by omega), if_neg hc.1, if_pos hc.2]
    refine ⟨rfl, rfl, fun j hj => mem_insertKey.1 hj, fun hn => absurd (mem_insertKey.2 (.inr rfl)) hn, ?_⟩
    show s.idx.length ≤ (insertKey s.idx i).length
    unfold insertKey; split <;> simp
  · rename_i hc
    refine ⟨rfl, rfl, fun j hj => .inl hj, ?_, Nat.le_refl _⟩
    intro hn
    simp only [Selection.isSelected, Selection.canSelect, Bool.and_eq_true, Bool.not_eq_true', decide_eq_false_iff_not,
      decide_eq_true_eq] at hc
    have : ¬ (s.max = 0 ∨ (s.idx.length : Int) < s.max) := fun h => hc ⟨hn, h⟩
    omega

theorem selAll_fold (l : List Nat) (s : Selection) :
    let s' := l.foldl selAllOne s
    s'.max = s.max ∧ s'.min = s.min ∧ (∀ j ∈ s.idx, j ∈ s'.idx) ∧
    (∀ j ∈ s'.idx, j ∈ s.idx ∨ ∃ i ∈ l, j = (i : Int)) ∧
    (∀ i ∈ l, (i : Int) ∉ s'.idx → s.max ≠ 0 ∧ s.max ≤ s'.idx.length) ∧ s.idx.length ≤ s'.idx.length := by
  induction l generalizing s with
  | nil => exact ⟨rfl, rfl, fun j h => h, fun j h => .inl h, by simp, Nat.le_refl _⟩
  | cons i l ih =>
    obtain ⟨a1, a2, a3, a4, a5⟩ := selAllOne_spec s i
    obtain ⟨b1, b2, b3, b4, b5, b6⟩ := ih (selAllOne s i)
    simp only [List.foldl_cons]
    refine ⟨b1.trans a1, b2.trans a2, fun j hj => b3 j (selAllOne_mono s i j hj), ?_, ?_, by omega⟩
    · intro j hj
      rcases b4 j hj with h | ⟨k, hk, rfl⟩
      · rcases a3 j h with h | rfl
        · exact .inl h
        · exact .inr ⟨i, by simp, rfl⟩
      · exact .inr ⟨k, by simp [hk], rfl⟩
    · intro k hk hn
      rcases List.mem_cons.1 hk with rfl | hk
      · have := a4 (fun h => hn (b3 _ h))
        exact ⟨this.1, by omega⟩
      · have := b5 k hk hn
        rw [a1] at this; exact this

/-! ## C127 MultiSelect keys -/

/-- Everything except the cursor is unchanged. -/
def CM.SameButCursor (a b : CM P) : Prop :=
  a.d.options = b.d.options ∧ a.d.sel = b.d.sel ∧ a.d.filtered = b.d.filtered ∧ a.d.query = b.d.query ∧
  a.d.height = b.d.height ∧ a.min = b.min ∧ a.max = b.max ∧ a.filterable = b.filterable

/-- Everything except the selection is unchanged. -/
def CM.SameButSelection (a b : CM P) : Prop :=
  a.d.options = b.d.options ∧ a.d.cursor = b.d.cursor ∧ a.d.filtered = b.d.filtered ∧ a.d.query = b.d.query ∧
  a.d.height = b.d.height ∧ a.min = b.min ∧ a.max = b.max ∧ a.filterable = b.filterable

theorem msKeymap_key {k : KeyMsg} {t : KeyType} {chars : List Char} (a : Action)
    (ht : ∀ k : KeyMsg, k.type = t → msKeymap k = a)
    (hc : ∀ c ∈ chars, ∀ k : KeyMsg, k.type = .rune → k.rune = c → msKeymap k = a)
    (h : IsKey k t chars) : msKeymap k = a := by
  rcases h with h | ⟨h1, h2⟩
  · exact ht k h
  · exact hc k.rune h2 k h1 rfl

/-- C127, cursor keys: clamped moves that leave selection, filter and options alone. -/
theorem C127_cursor_keys (ops : List (MOp P)) (k : KeyMsg) :
    let c := CM.run dflt deref (CM.new dflt) ops
    let r := c.handleKey deref k
    let lastIdx : Int := max 0 ((c.d.filtered.length : Int) - 1)
    (IsKey k .up ['k'] → r.1.d.cursor = max 0 (c.d.cursor - 1) ∧ r.1.SameButCursor c ∧ r.2 = .none) ∧
    (IsKey k .down ['j'] → r.1.d.cursor = min lastIdx (c.d.cursor + 1) ∧ r.1.SameButCursor c ∧ r.2 = .none) ∧
    (IsKey k .home ['g'] → r.1.d.cursor = 0 ∧ r.1.SameButCursor c ∧ r.2 = .none) ∧
    (IsKey k .end ['G'] → r.1.d.cursor = lastIdx ∧ r.1.SameButCursor c ∧ r.2 = .none) := by
  intro c r lastIdx
  have h : c.Ok := cm_ok_run dflt deref ops
  have hc : CursorOk c.d.cursor c.d.filtered.length := h.cursor
  unfold CursorOk at hc
  refine ⟨?_, ?_, ?_, ?_⟩
  · intro hk
    have e : msKeymap k = .moveUp := msKeymap_key .moveUp (by intro k h; simp [msKeymap, h]) (by simp; intro k h1 h2; simp [msKeymap, h1, h2]) hk
    simp only [r, CM.handleKey, e, MS.moveUp]
    refine ⟨?_, ⟨rfl, rfl, rfl, rfl, rfl, rfl, rfl, rfl⟩, trivial⟩
    show (if c.d.cursor > 0 then _ else _) = _
    split <;> omega
  · intro hk
    have e : msKeymap k = .moveDown := msKeymap_key .moveDown (by intro k h; simp [msKeymap, h]) (by simp; intro k h1 h2; simp [msKeymap, h1, h2]) hk
    simp only [r, CM.handleKey, e, MS.moveDown]
    refine ⟨?_, ⟨rfl, rfl, rfl, rfl, rfl, rfl, rfl, rfl⟩, trivial⟩
    show (if c.d.cursor < _ then _ else _) = min (max 0 ((c.d.filtered.length : Int) - 1)) _
    split <;> omega
  · intro hk
    have e : msKeymap k = .moveToStart := msKeymap_key .moveToStart (by intro k h; simp [msKeymap, h]) (by simp; intro k h1 h2; simp [msKeymap, h1, h2]) hk
    simp only [r, CM.handleKey, e, MS.moveToStart]
    exact ⟨trivial, ⟨rfl, rfl, rfl, rfl, rfl, rfl, rfl, rfl⟩, trivial⟩
  · intro hk
    have e : msKeymap k = .moveToEnd := msKeymap_key .moveToEnd (by intro k h; simp [msKeymap, h]) (by simp; intro k h1 h2; simp [msKeymap, h1, h2]) hk
    simp only [r, CM.handleKey, e, MS.moveToEnd]
    refine ⟨?_, ⟨rfl, rfl, rfl, rfl, rfl, rfl, rfl, rfl⟩, trivial⟩
    show (if (c.d.filtered.length : Int) - 1 < 0 then (0 : Int) else _) = max 0 ((c.d.filtered.length : Int) - 1)
    split <;> omega

/-- C127, `a` selects all displayed options as far as the maximum allows: what was selected stays
selected, only displayed options are added, and a displayed option stays unselected only when the
maximum is reached. `n` deselects everything. -/
theorem C127_bulk_keys (ops : List (MOp P)) (k : KeyMsg) (hr : k.type = .rune) :
    let c := CM.run dflt deref (CM.new dflt) ops
    let r := c.handleKey deref k
    (k.rune = 'a' → r.1.SameButSelection c ∧ r.2 = .none ∧
      (∀ i ∈ c.d.sel.idx, i ∈ r.1.d.sel.idx) ∧
      (∀ i ∈ r.1.d.sel.idx, i ∉ c.d.sel.idx → ∃ p ∈ c.d.filtered, c.d.options[i.toNat]? = some p) ∧
      (c.d.options.Nodup → ∀ p ∈ c.d.filtered, ∀ i : Nat, c.d.options[i]? = some p → (i : Int) ∉ r.1.d.sel.idx →
        c.max > 0 ∧ r.1.d.sel.count = c.max)) ∧
    (k.rune = 'n' → r.1.SameButSelection c ∧ r.2 = .none ∧ r.1.d.sel.idx = []) := by
  intro c r
  have h := cm_ok_run dflt deref ops
  constructor
  · intro hk
    have e : msKeymap k = .selectAll := by simp [msKeymap, hr, hk]
    have hr1 : r.1 = { c with d := c.d.selectAll } := by simp only [r, CM.handleKey, e]
    have hok : r.1.Ok := CM.Ok.key deref h k
    obtain ⟨a1, a2, a3, a4, a5, a6⟩ := selAll_fold c.d.filteredIdx c.d.sel
    have hidx : r.1.d.sel = c.d.filteredIdx.foldl selAllOne c.d.sel := by rw [hr1]; rfl
    refine ⟨?_, ?_, ?_, ?_, ?_⟩
    · rw [hr1]; exact ⟨rfl, rfl, rfl, rfl, rfl, rfl, rfl, rfl⟩
    · simp only [r, CM.handleKey, e]
    · rw [hidx]; exact a3
    · rw [hidx]
      intro i hi hn
      rcases a4 i hi with h' | ⟨j, hj, rfl⟩
      · exact absurd h' hn
      · unfold MS.filteredIdx at hj
        rw [List.mem_filterMap] at hj
        obtain ⟨p, hp, hpi⟩ := hj
        exact ⟨p, hp, indexOf_get hpi⟩
    · intro hnd p hp i hi hn
      have hmem : i ∈ c.d.filteredIdx := by
        unfold MS.filteredIdx
        rw [List.mem_filterMap]
        refine ⟨p, hp, ?_⟩
        obtain ⟨j, hj⟩ := indexOf_mem (h.sub p hp)
        have hg := indexOf_get hj
        rw [hj]
        congr 1
        obtain ⟨h1, h1'⟩ := List.getElem?_eq_some_iff.1 hg
        obtain ⟨h2, h2'⟩ := List.getElem?_eq_some_iff.1 hi
        exact (List.getElem_inj (h₀ := h1) (h₁ := h2) hnd).1 (h1'.trans h2'.symm)
      rw [hidx] at hn
      have := a5 i hmem hn
      have hmax : c.d.sel.max = c.max := h.selMax
      have hb := hok.sel.bound
      have hm' : r.1.d.sel.max = c.max := by rw [hidx, a1]; exact hmax
      have hnn : 0 ≤ c.max := h.maxNonneg
      rw [hmax] at this
      refine ⟨by omega, ?_⟩
      show ((r.1.d.sel.idx.length : Nat) : Int) = c.max
      rw [hm'] at hb
      have hb' := hb (by omega)
      rw [hidx] at hb' ⊢
      omega
  · intro hk
    have e : msKeymap k = .selectNone := by simp [msKeymap, hr, hk]
    simp only [r, CM.handleKey, e, MS.selectNone]
    exact ⟨⟨rfl, rfl, rfl, rfl, rfl, rfl, rfl, rfl⟩, trivial, rfl⟩

/-- C127, Esc clears the filter and nothing else; Ctrl+C only quits; with filtering off every key that
is not bound changes nothing and returns no command. -/
theorem C127_other_keys (c : CM P) (k : KeyMsg) :
    let r := c.handleKey deref k
    (k.type = .esc → r.1.d.query = [] ∧ r.1.d.filtered = c.d.options.filter (fun o => c.d.filterFunc o []) ∧
      r.1.d.sel = c.d.sel ∧ r.1.d.options = c.d.options ∧ r.2 = .none) ∧
    (k.type = .ctrlC → r = (c, .quit)) ∧
    (k.type ∉ [KeyType.rune, .up, .down, .home, .end, .space, .enter, .esc, .ctrlC, .backspace] → r = (c, .none)) ∧
    (c.filterable = false → k.type = .backspace ∨ (k.type = .rune ∧ k.rune ∉ ['k', 'j', 'g', 'G', 'a', 'n']) →
      r = (c, .none)) := by
  intro r
  refine ⟨?_, ?_, ?_, ?_⟩
  · intro h
    simp only [r, CM.handleKey, show msKeymap k = .clearFilter by simp [msKeymap, h], MS.clearFilter, MS.setFilterQuery]
    exact ⟨trivial, trivial, trivial, trivial, trivial⟩
  · intro h
    simp only [r, CM.handleKey, show msKeymap k = .quit by simp [msKeymap, h]]
  · intro h
    obtain ⟨t, ru, _, _, _⟩ := k
    cases t <;> simp_all [r, CM.handleKey, msKeymap, filterInput]
  · intro hf h
    rcases h with h | ⟨h1, h2⟩
    · simp [r, CM.handleKey, show msKeymap k = .none by simp [msKeymap, h], filterInput, hf]
    · simp only [List.mem_cons, List.not_mem_nil, or_false, not_or] at h2
      simp [r, CM.handleKey, show msKeymap k = .none by simp [msKeymap, h1, h2], filterInput, hf]

example : (CM.run (V := Nat) (fun _ _ => true) (fun p : Nat => ⟨[], p, [], false⟩) (CM.new fun _ _ => true)
    [.options [10, 20, 30], .max 2, .key { type := .rune, rune := 'a' }]).d.sel.idx = [0, 1] := by decide +kernel

/-! ## C128 Select keys -/

def CS.SameButCursor (a b : CS P) : Prop :=
  a.d.options = b.d.options ∧ a.d.selected = b.d.selected ∧ a.d.filtered = b.d.filtered ∧ a.d.query = b.d.query ∧
  a.d.height = b.d.height ∧ a.filterable = b.filterable

theorem sKeymap_key {k : KeyMsg} {t : KeyType} {chars : List Char} (a : Action)
    (ht : ∀ k : KeyMsg, k.type = t → sKeymap k = a)
    (hc : ∀ c ∈ chars, ∀ k : KeyMsg, k.type = .rune → k.rune = c → sKeymap k = a)
    (h : IsKey k t chars) : sKeymap k = a := by
  rcases h with h | ⟨h1, h2⟩
  · exact ht k h
  · exact hc k.rune h2 k h1 rfl

/-- C128, cursor keys. -/
theorem C128_cursor_keys (ops : List (SOp P)) (k : KeyMsg) :
    let c := CS.run dflt deref (CS.new dflt) ops
    let r := c.handleKey deref k
    let lastIdx : Int := max 0 ((c.d.filtered.length : Int) - 1)
    (IsKey k .up ['k'] → r.1.d.cursor = max 0 (c.d.cursor - 1) ∧ r.1.SameButCursor c ∧ r.2 = .none) ∧
    (IsKey k .down ['j'] → r.1.d.cursor = min lastIdx (c.d.cursor + 1) ∧ r.1.SameButCursor c ∧ r.2 = .none) ∧
    (IsKey k .home ['g'] → r.1.d.cursor = 0 ∧ r.1.SameButCursor c ∧ r.2 = .none) ∧
    (IsKey k .end ['G'] → r.1.d.cursor = lastIdx ∧ r.1.SameButCursor c ∧ r.2 = .none) := by
  intro c r lastIdx
  have h : c.Ok := cs_ok_run dflt deref ops
  have hc : CursorOk c.d.cursor c.d.filtered.length := h.cursor
  unfold CursorOk at hc
  refine ⟨?_, ?_, ?_, ?_⟩
  · intro hk
    have e : sKeymap k = .moveUp := sKeymap_key .moveUp (by intro k h; simp [sKeymap, h]) (by simp; intro k h1 h2; simp [sKeymap, h1, h2]) hk
    simp only [r, CS.handleKey, e, S.moveUp]
    refine ⟨?_, ⟨rfl, rfl, rfl, rfl, rfl, rfl⟩, trivial⟩
    show (if c.d.cursor > 0 then _ else _) = _
    split <;> omega
  · intro hk
    have e : sKeymap k = .moveDown := sKeymap_key .moveDown (by intro k h; simp [sKeymap, h]) (by simp; intro k h1 h2; simp [sKeymap, h1, h2]) hk
    simp only [r, CS.handleKey, e, S.moveDown]
    refine ⟨?_, ⟨rfl, rfl, rfl, rfl, rfl, rfl⟩, trivial⟩
    show (if c.d.cursor < _ then _ else _) = min (max 0 ((c.d.filtered.length : Int) - 1)) _
    split <;> omega
  · intro hk
    have e : sKeymap k = .moveToStart := sKeymap_key .moveToStart (by intro k h; simp [sKeymap, h]) (by simp; intro k h1 h2; simp [sKeymap, h1, h2]) hk
    simp only [r, CS.handleKey, e, S.moveToStart]
    exact ⟨trivial, ⟨rfl, rfl, rfl, rfl, rfl, rfl⟩, trivial⟩
  · intro hk
    have e : sKeymap k = .moveToEnd := sKeymap_key .moveToEnd (by intro k h; simp [sKeymap, h]) (by simp; intro k h1 h2; simp [sKeymap, h1, h2]) hk
    simp only [r, CS.handleKey, e, S.moveToEnd]
    refine ⟨?_, ⟨rfl, rfl, rfl, rfl, rfl, rfl⟩, trivial⟩
    show (if (c.d.filtered.length : Int) - 1 < 0 then (0 : Int) else _) = max 0 ((c.d.filtered.length : Int) - 1)
    split <;> omega

/-- C128, filter keys and the rest: Esc clears the filter; Ctrl+C only quits; while filtering is off all
unbound keys do nothing; while it is on an unbound character is appended to the query (as UTF-8) and
exactly the matching options are displayed. -/
theorem C128_other_keys (c : CS P) (k : KeyMsg) :
    let r := c.handleKey deref k
    (k.type = .esc → r.1.d.query = [] ∧ r.1.d.filtered = c.d.options.filter (fun o => c.d.filterFunc o []) ∧
      r.1.d.selected = c.d.selected ∧ r.1.d.options = c.d.options ∧ r.2 = .none) ∧
    (k.type = .ctrlC → r = (c, .quit)) ∧
    (k.type ∉ [KeyType.rune, .up, .down, .home, .end, .enter, .esc, .ctrlC, .backspace] → r = (c, .none)) ∧
    (k.type = .backspace ∨ (k.type = .rune ∧ k.rune ∉ ['k', 'j', 'g', 'G']) →
      (c.filterable = false → r = (c, .none)) ∧
      (c.filterable = true → k.type = .rune →
        r.1.d.query = c.d.query ++ runeBytes k.rune ∧
        r.1.d.filtered = (c.d.options.filter fun o => c.d.filterFunc o (c.d.query ++ runeBytes k.rune)) ∧
        r.1.d.selected = c.d.selected ∧ r.1.d.options = c.d.options ∧ r.2 = .none) ∧
      (c.filterable = true → k.type = .backspace → c.d.query ≠ [] →
        r.1.d.query = c.d.query.dropLast ∧
        r.1.d.filtered = (c.d.options.filter fun o => c.d.filterFunc o c.d.query.dropLast) ∧ r.2 = .none)) := by
  intro r
  refine ⟨?_, ?_, ?_, ?_⟩
  · intro h
    simp only [r, CS.handleKey, show sKeymap k = .clearFilter by simp [sKeymap, h], S.clearFilter, S.setFilterQuery]
    exact ⟨trivial, trivial, trivial, trivial, trivial⟩
  · intro h
    simp only [r, CS.handleKey, show sKeymap k = .quit by simp [sKeymap, h]]
  · intro h
    obtain ⟨t, ru, _, _, _⟩ := k
    cases t <;> simp_all [r, CS.handleKey, sKeymap, filterInput]
  · intro h
    have e : sKeymap k = .none := by
      rcases h with h | ⟨h1, h2⟩
      · simp [sKeymap, h]
      · simp only [List.mem_cons, List.not_mem_nil, or_false, not_or] at h2
        simp [sKeymap, h1, h2]
    refine ⟨?_, ?_, ?_⟩
    · intro hf; simp [r, CS.handleKey, e, filterInput, hf]
    · intro hf ht
      simp [r, CS.handleKey, e, filterInput, hf, ht, S.setFilterQuery]
    · intro hf ht hq
      simp [r, CS.handleKey, e, filterInput, hf, ht, hq, S.setFilterQuery]

example : (CS.run (V := Nat) (fun p q => q == [] || p == 20) (fun p : Nat => ⟨[], p, [], false⟩) (CS.new fun p q => q == [] || p == 20)
    [.options [10, 20, 30], .filterable true, .key { type := .rune, rune := 'x' }]).d.filtered = [20] := by decide

theorem clamp_min {c : Int} {n m : Nat} (h : CursorOk c n) : clampCursor c m = min c (max 0 ((m : Int) - 1)) := by
  unfold CursorOk at h; unfold clampCursor; simp only; (repeat' split) <;> omega

/-- C127, the cursor while filtering: any key that edits the filter of a multi-select leaves the cursor
at the same position, or on the last displayed option when fewer are left. -/
theorem C127_filter_cursor (ops : List (MOp P)) (k : KeyMsg) (hk : IsFilterKey k) :
    let c := CM.run dflt deref (CM.new dflt) ops
    let r := (c.handleKey deref k).1
    r.d.cursor = min c.d.cursor (max 0 ((r.d.filtered.length : Int) - 1)) := by
  intro c r
  have ok : c.Ok := cm_ok_run dflt deref ops
  have same : clampCursor c.d.cursor c.d.filtered.length = c.d.cursor := clampCursor_id ok.cursor
  have e : msKeymap k = .clearFilter ∨ msKeymap k = .none := by
    unfold msKeymap
    rcases hk with hk | hk | ⟨hk, hr⟩
    · rw [hk]; exact .inl rfl
    · rw [hk]; exact .inr rfl
    · rw [hk]
      simp only [List.mem_cons, List.not_mem_nil, or_false, not_or] at hr
      right
      simp [hr]
  rw [← clamp_min ok.cursor]
  simp only [r, CM.handleKey]
  rcases e with e | e
  · rw [e]; rfl
  · rw [e]
    dsimp only
    split
    · rfl
    · exact same.symm

/-- C128, the cursor while filtering: the same for a select. -/
theorem C128_filter_cursor (ops : List (SOp P)) (k : KeyMsg)
    (hk : k.type = .esc ∨ k.type = .backspace ∨ (k.type = .rune ∧ k.rune ∉ ['k', 'j', 'g', 'G'])) :
    let c := CS.run dflt deref (CS.new dflt) ops
    let r := (c.handleKey deref k).1
    r.d.cursor = min c.d.cursor (max 0 ((r.d.filtered.length : Int) - 1)) := by
  intro c r
  have ok : c.Ok := cs_ok_run dflt deref ops
  have same : clampCursor c.d.cursor c.d.filtered.length = c.d.cursor := clampCursor_id ok.cursor
  have e : sKeymap k = .clearFilter ∨ sKeymap k = .none := by
    unfold sKeymap
    rcases hk with hk | hk | ⟨hk, hr⟩
    · rw [hk]; exact .inl rfl
    · rw [hk]; exact .inr rfl
    · rw [hk]
      simp only [List.mem_cons, List.not_mem_nil, or_false, not_or] at hr
      right
      simp [hr]
  rw [← clamp_min ok.cursor]
  simp only [r, CS.handleKey]
  rcases e with e | e
  · rw [e]; rfl
  · rw [e]
    dsimp only
    split
    · rfl
    · exact same.symm

example := C127_filter_cursor (V := Nat) (fun _ _ => true) (fun p : Nat => ⟨[], p, [], false⟩)
  [.options [10, 20, 30], .filterable true, .key { type := .end }] { type := .rune, rune := 'x' } (by unfold IsFilterKey; decide)
example := C128_filter_cursor (V := Nat) (fun _ _ => true) (fun p : Nat => ⟨[], p, [], false⟩)
  [.options [10, 20, 30], .filterable true, .key { type := .end }] { type := .rune, rune := 'x' } (by decide)

/-- C127, C128: a new component has no options, nothing selected, an empty filter that typing does not
edit, and ten lines. -/
theorem C128_new :
    (let c : CS P := CS.new dflt
     c.d.options = [] ∧ c.d.filtered = [] ∧ c.d.cursor = 0 ∧ c.d.query = [] ∧ c.d.selected = -1 ∧ c.d.height = 10 ∧
       c.filterable = false) ∧
    (let c : CM P := CM.new dflt
     c.d.options = [] ∧ c.d.filtered = [] ∧ c.d.cursor = 0 ∧ c.d.query = [] ∧ c.d.sel.idx = [] ∧ c.d.height = 10 ∧
       c.filterable = false ∧ c.min = 0 ∧ c.max = 0) := by
  refine ⟨⟨rfl, rfl, rfl, rfl, rfl, rfl, rfl⟩, ⟨rfl, rfl, rfl, rfl, rfl, rfl, rfl, rfl, rfl⟩⟩

/-- C127/C128, configuration: the filter switch and the filter function take effect on the next typed
character, and the height bounds the number of rows; nothing else changes. -/
theorem C127_config (c : CM P) (b : Bool) (f : P → Bytes → Bool) (n : Int) :
    let cb := c.step dflt deref (.filterable b)
    let cf := c.step dflt deref (.filterFunc f)
    let ch := c.step dflt deref (.height n)
    (cb.filterable = b ∧ cb.d = c.d ∧ cb.min = c.min ∧ cb.max = c.max) ∧
    ((∀ q, (cf.d.setFilterQuery q).filtered = c.d.options.filter fun o => f o q) ∧
      cf.d.filtered = c.d.filtered ∧ cf.d.sel = c.d.sel ∧ cf.d.cursor = c.d.cursor ∧ cf.filterable = c.filterable) ∧
    (ch.d.height = max 1 n ∧ ch.d.filtered = c.d.filtered ∧ ch.d.sel = c.d.sel ∧ ch.d.cursor = c.d.cursor ∧
      ch.filterable = c.filterable) := by
  refine ⟨⟨rfl, rfl, rfl, rfl⟩, ⟨fun q => rfl, rfl, rfl, rfl, rfl⟩, ?_, rfl, rfl, rfl, rfl⟩
  show (if n < 1 then (1 : Int) else n) = _
  split <;> omega

theorem C128_config (c : CS P) (b : Bool) (f : P → Bytes → Bool) (n : Int) (p : P) :
    let cb := c.step dflt deref (.filterable b)
    let cf := c.step dflt deref (.filterFunc f)
    let ch := c.step dflt deref (.height n)
    (cb.filterable = b ∧ cb.d = c.d) ∧
    ((∀ q, (cf.d.setFilterQuery q).filtered = c.d.options.filter fun o => f o q) ∧
      cf.d.filtered = c.d.filtered ∧ cf.d.selected = c.d.selected ∧ cf.d.cursor = c.d.cursor ∧
      cf.filterable = c.filterable) ∧
    (ch.d.height = max 1 n ∧ ch.d.filtered = c.d.filtered ∧ ch.d.selected = c.d.selected ∧
      ch.d.cursor = c.d.cursor ∧ ch.filterable = c.filterable) := by
  refine ⟨⟨rfl, rfl⟩, ⟨fun q => rfl, rfl, rfl, rfl, rfl⟩, ?_, rfl, rfl, rfl, rfl⟩
  show (if n < 1 then (1 : Int) else n) = _
  split <;> omega

/-! ## C129 Options() -/

/-- C129, full: replacing the options keeps the configured height and filter function. -/
def C129_multiselect_statement : Prop :=
  ∀ (ops : List (MOp Nat)) (l : List Nat),
    let c := CM.run (V := Nat) (fun _ _ => true) (fun p => ⟨[], p, [], false⟩) (CM.new fun _ _ => true) ops
    (c.step (V := Nat) (fun _ _ => true) (fun p => ⟨[], p, [], false⟩) (.options l)).d.height = c.d.height

def C129_select_statement : Prop :=
  ∀ (ops : List (SOp Nat)) (l : List Nat),
    let c := CS.run (V := Nat) (fun _ _ => true) (fun p => ⟨[], p, [], false⟩) (CS.new fun _ _ => true) ops
    (c.step (V := Nat) (fun _ _ => true) (fun p => ⟨[], p, [], false⟩) (.options l)).d.height = c.d.height

/-- Neither holds: `WithHeight(5).WithOptions(..)` shows ten rows, not five. -/
theorem C129_height_refuted : ¬ C129_multiselect_statement ∧ ¬ C129_select_statement := by
  constructor
  · intro h; exact absurd (h [.height 5] [1]) (by decide)
  · intro h; exact absurd (h [.height 5] [1]) (by decide)

/-- The filter function is lost as well. -/
theorem C129_filter_refuted :
    ¬ ∀ (f : Nat → Bytes → Bool) (l : List Nat) (p : Nat) (q : Bytes),
      (CM.run (V := Nat) (fun _ _ => true) (fun p => ⟨[], p, [], false⟩) (CM.new fun _ _ => true)
        [.filterFunc f, .options l]).d.filterFunc p q = f p q := by
  intro h; exact absurd (h (fun _ _ => false) [] 0 []) (by decide)

/-- C129, what holds: filterability and the selection limits survive, and options, cursor, selection and
filter start afresh; a height or filter set after the options is kept. -/
theorem C129_options_partial (c : CM P) (hc : c.Ok) (l : List P) (n : Int) (f : P → Bytes → Bool) :
    let c' := c.step dflt deref (.options l)
    c'.filterable = c.filterable ∧ c'.min = c.min ∧ c'.max = c.max ∧ c'.d.sel.max = c.max ∧
    c'.d.options = l ∧ c'.d.filtered = l ∧ c'.d.sel.idx = [] ∧ c'.d.cursor = 0 ∧ c'.d.query = [] ∧
    (c'.step dflt deref (.height n)).d.height = max 1 n ∧
    (c'.step dflt deref (.filterFunc f)).d.filterFunc = f := by
  refine ⟨rfl, rfl, rfl, (sel_new_minmax hc.minNonneg hc.maxNonneg).1, rfl, rfl, rfl, rfl, rfl, ?_, rfl⟩
  show (if n < 1 then (1 : Int) else n) = _
  split <;> omega

end
end Phoenix.Choice
