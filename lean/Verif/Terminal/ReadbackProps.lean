import Verif.Terminal.AnsiProps
set_option linter.unusedVariables false
set_option linter.unusedSimpArgs false

/-! C210: reading the Windows console back. terminal/internal/infrastructure/windows/console.go:523-570. -/

namespace Phoenix.Terminal

/-- The text of a screen: its rows, top to bottom. -/
def Buf.rows (b : Buf) : List (List Nat) :=
  (List.range b.H).map fun y : Nat => (List.range b.W).map fun x : Nat => b.g x y

/-- `rows` with the characters `s` put at column x of row y. -/
def putRow (rows : List (List Nat)) (x y : Nat) (s : List Nat) : List (List Nat) :=
  rows.modify y fun r => r.take x ++ s ++ r.drop (x + s.length)

/-- The full claim: what WriteAt puts on the screen is what ReadScreenBuffer shows, and nothing else changes. -/
def C210_statement : Prop :=
  ∀ (c c' : Con) (x y : Nat) (s : List Nat), c.cur.W ≤ 32767 → c.cur.H ≤ 32767 → x + s.length ≤ c.cur.W → y < c.cur.H →
    c.writeAt x y s = some c' → c'.readScreen = putRow c.readScreen x y s

/-- ReadScreenBuffer gives the buffer behind the console, cell by cell (console buffers have int16 sizes). -/
theorem C210_reads_buffer (c : Con) (hW : c.cur.W ≤ 32767) (hH : c.cur.H ≤ 32767) : c.readScreen = c.cur.rows := by
  unfold Con.readScreen Buf.rows
  simp only []
  apply List.map_congr_left
  intro y hy
  apply List.map_congr_left
  intro x hx
  rw [List.mem_range] at hx hy
  have hk : y * c.cur.W + x < c.cur.W * c.cur.H := by
    have : (y + 1) * c.cur.W ≤ c.cur.H * c.cur.W := Nat.mul_le_mul_right _ hy
    rw [Nat.mul_comm c.cur.W]; rw [Nat.add_mul] at this; omega
  have i1 : int16 (c.cur.W : Int) = c.cur.W := int16_id _ (by omega) (by omega)
  have i2 : int16 ((c.cur.W : Int) - 1) = (c.cur.W : Int) - 1 := int16_id _ (by omega) (by omega)
  have i3 : int16 ((c.cur.H : Int) - 1) = (c.cur.H : Int) - 1 := int16_id _ (by omega) (by omega)
  unfold Buf.readConsole
  rw [List.getElem?_map, List.getElem?_range hk, i1, i2, i3]
  have m1 : (((y * c.cur.W + x : Nat) : Int)) % (c.cur.W : Int) = x := by
    have : (y * c.cur.W + x) % c.cur.W = x := by
      rw [Nat.mul_comm, Nat.mul_add_mod]; exact Nat.mod_eq_of_lt hx
    exact_mod_cast this
  have m2 : (((y * c.cur.W + x : Nat) : Int)) / (c.cur.W : Int) = y := by
    have : (y * c.cur.W + x) / c.cur.W = y := by
      rw [Nat.mul_comm, Nat.mul_add_div (by omega), Nat.div_eq_of_lt hx]; omega
    exact_mod_cast this
  simp only [Option.map_some, Option.getD_some, m1, m2]
  rw [if_pos (by omega)]
  simp

example : (⟨⟨3, 2, fun x y => x + 10 * y, 0, 0, true, 25⟩, none, false, false, (0, 0)⟩ : Con).readScreen =
    [[0, 1, 2], [10, 11, 12]] := by decide +kernel

theorem print_cells (s : List Nat) : ∀ (b : Buf) (i j : Nat), (b.print s).g i j =
    if j = b.cy ∧ b.cx ≤ i ∧ i < b.cx + s.length then s.getD (i - b.cx) 0 else b.g i j := by
  induction s with
  | nil =>
    intro b i j
    rw [if_neg (by simp)]
    rfl
  | cons a s ih =>
    intro b i j
    have h := ih { b with g := fun x y => if x = b.cx ∧ y = b.cy then a else b.g x y, cx := b.cx + 1 } i j
    show (Buf.print { b with g := fun x y => if x = b.cx ∧ y = b.cy then a else b.g x y, cx := b.cx + 1 } s).g i j = _
    rw [h]
    simp only [List.length_cons]
    by_cases e : j = b.cy
    · by_cases e1 : i = b.cx
      · subst e1
        rw [if_neg (by omega), if_pos ⟨rfl, e⟩, if_pos (by omega)]
        simp
      · by_cases e2 : b.cx + 1 ≤ i ∧ i < b.cx + 1 + s.length
        · rw [if_pos ⟨e, e2⟩, if_pos (by omega)]
          have : i - b.cx = (i - (b.cx + 1)) + 1 := by omega
          rw [this, List.getD_cons_succ]
        · rw [if_neg (fun q => e2 q.2), if_neg (fun q => e1 q.1), if_neg (by omega)]
    · rw [if_neg (fun q => e q.1), if_neg (fun q => e q.2), if_neg (fun q => e q.1)]

theorem print_size (s : List Nat) : ∀ b : Buf, (b.print s).W = b.W ∧ (b.print s).H = b.H := by
  induction s with
  | nil => intro b; exact ⟨rfl, rfl⟩
  | cons a s ih => intro b; exact ih _

theorem rows_print (b : Buf) (x y : Nat) (s : List Nat) (hs : x + s.length ≤ b.W) (hx : b.cx = x) (hy : b.cy = y) :
    (b.print s).rows = putRow b.rows x y s := by
  unfold Buf.rows putRow
  rw [(print_size s b).1, (print_size s b).2]
  apply List.ext_getElem?
  intro j
  rw [List.getElem?_modify]
  by_cases hj : j < b.H
  · rw [List.getElem?_map, List.getElem?_range hj, List.getElem?_map, List.getElem?_range hj]
    simp only [Option.map_some]
    congr 1
    by_cases e : y = j
    · simp only [if_pos e]
      apply List.ext_getElem?
      intro i
      by_cases hi : i < b.W
      · rw [List.getElem?_map, List.getElem?_range hi]
        simp only [Option.map_some]
        rw [print_cells]
        simp only [List.append_assoc]
        by_cases h1 : i < x
        · rw [if_neg (by omega), List.getElem?_append_left (by simp; omega), List.getElem?_take, if_pos h1,
            List.getElem?_map, List.getElem?_range hi]
          rfl
        · rw [List.getElem?_append_right (by simp; omega)]
          simp only [List.length_take, List.length_map, List.length_range]
          by_cases h2 : i < x + s.length
          · rw [if_pos (by omega), List.getElem?_append_left (by omega)]
            have : i - min x b.W = i - b.cx := by omega
            rw [this, List.getD_eq_getElem?_getD, List.getElem?_eq_getElem (by omega)]
            rfl
          · rw [if_neg (by omega), List.getElem?_append_right (by omega), List.getElem?_drop, List.getElem?_map]
            have : x + s.length + (i - min x b.W - s.length) = i := by omega
            rw [this, List.getElem?_range hi]
            rfl
      · rw [List.getElem?_eq_none (by simp; omega), List.getElem?_eq_none (by simp; omega)]
    · simp only [if_neg e]
      apply List.map_congr_left
      intro i _
      rw [print_cells, if_neg (by omega)]
  · rw [List.getElem?_eq_none (by simp; omega), List.getElem?_eq_none (by simp; omega)]
    rfl

/-- What holds: outside the alternate screen, after a successful WriteAt of characters that stay on the line,
ReadScreenBuffer shows the old screen with exactly those cells replaced. -/
theorem C210_write_at_partial (c c' : Con) (x y : Nat) (s : List Nat) (ha : c.inAlt = false) (hW : c.cur.W ≤ 32767)
    (hH : c.cur.H ≤ 32767) (hs : x + s.length ≤ c.cur.W) (hy : y < c.cur.H) (hw : c.writeAt x y s = some c') :
    c'.readScreen = putRow c.readScreen x y s := by
  have hc : c.cur = c.primary := by unfold Con.cur; rw [ha]; rfl
  rw [C210_reads_buffer c hW hH]
  rw [hc] at hW hH hs hy ⊢
  have ix : int16 (x : Int) = x := int16_id _ (by omega) (by omega)
  have iy : int16 (y : Int) = y := int16_id _ (by omega) (by omega)
  unfold Con.writeAt Buf.setCursorPosition Buf.setCursor at hw
  rw [hc, ix, iy] at hw
  by_cases hcond : 0 ≤ (x : Int) ∧ (x : Int) < c.primary.W ∧ 0 ≤ (y : Int) ∧ (y : Int) < c.primary.H
  · rw [if_pos hcond] at hw
    have e := Option.some.inj hw
    have hc' : c'.cur = Buf.print { c.primary with cx := (x : Int).toNat, cy := (y : Int).toNat } s := by
      rw [← e]
      unfold Con.write Con.setCur Con.cur
      simp only [ha, Bool.false_eq_true, if_false]
    have hz := print_size s { c.primary with cx := (x : Int).toNat, cy := (y : Int).toNat }
    rw [C210_reads_buffer c' (by rw [hc', hz.1]; exact hW) (by rw [hc', hz.2]; exact hH), hc']
    exact rows_print { c.primary with cx := (x : Int).toNat, cy := (y : Int).toNat } x y s hs (by simp) (by simp)
  · rw [if_neg hcond] at hw
    cases hw

def exCon : Con := ⟨⟨3, 2, fun _ _ => 46, 0, 0, true, 25⟩, none, false, false, (0, 0)⟩

-- the hypotheses are met, and the picture is the expected one
example : ((exCon.writeAt 1 1 [97, 98]).map Con.readScreen) = some [[46, 46, 46], [46, 97, 98]] := by decide +kernel

/-- Refuted: in the alternate screen ReadScreenBuffer reads the alternate buffer while writes go to the other one. -/
theorem C210_refuted : ¬ C210_statement := by
  intro h
  have hw : exCon.enterAlt.writeAt 0 0 [97] = some (((exCon.enterAlt.writeAt 0 0 [97])).getD exCon) := by
    have : (exCon.enterAlt.writeAt 0 0 [97]).isSome = true := by decide +kernel
    obtain ⟨v, hv⟩ := Option.isSome_iff_exists.1 this
    rw [hv]; rfl
  have := h exCon.enterAlt _ 0 0 [97] (by decide +kernel) (by decide +kernel) (by decide +kernel) (by decide +kernel) hw
  exact absurd this (by decide +kernel)

/-- What holds of the alternate screen: whatever was written since it was entered, ReadScreenBuffer shows it blank, and
leaving it shows the primary screen with everything written meanwhile. -/
theorem C210_alternate_partial (c : Con) (s : List Nat) (ha : c.inAlt = false) (hW : c.primary.W ≤ 32767)
    (hH : c.primary.H ≤ 32767) :
    (c.enterAlt.write s).readScreen = List.replicate c.primary.H (List.replicate c.primary.W 32) ∧
    (c.enterAlt.write s).exitAlt.readScreen = (c.primary.print s).rows := by
  have e : c.enterAlt.write s = { c with
      alternate := some { c.primary with g := fun _ _ => 32, cx := 0, cy := 0, visible := true, csize := 25 },
      altActive := true, inAlt := true, primary := c.primary.print s } := by
    unfold Con.enterAlt Con.write
    rw [ha]; rfl
  have hz := print_size s c.primary
  rw [e]
  constructor
  · rw [C210_reads_buffer _ (by simpa [Con.cur] using hW) (by simpa [Con.cur] using hH)]
    show Buf.rows { c.primary with g := fun _ _ => 32, cx := 0, cy := 0, visible := true, csize := 25 } = _
    unfold Buf.rows
    apply List.ext_getElem?
    intro j
    by_cases hj : j < c.primary.H
    · rw [List.getElem?_map, List.getElem?_range hj, List.getElem?_replicate, if_pos hj]
      simp [List.map_const']
    · rw [List.getElem?_eq_none (by simp; omega), List.getElem?_eq_none (by simp; omega)]
  · have e2 : (Con.exitAlt { c with
      alternate := some { c.primary with g := fun _ _ => 32, cx := 0, cy := 0, visible := true, csize := 25 },
      altActive := true, inAlt := true, primary := c.primary.print s }).cur = c.primary.print s := rfl
    rw [C210_reads_buffer _ (by rw [e2, hz.1]; exact hW) (by rw [e2, hz.2]; exact hH), e2]

example : (exCon.enterAlt.write [97]).readScreen = [[32, 32, 32], [32, 32, 32]] ∧
    (exCon.enterAlt.write [97]).exitAlt.readScreen = [[97, 46, 46], [46, 46, 46]] := by decide +kernel

end Phoenix.Terminal
