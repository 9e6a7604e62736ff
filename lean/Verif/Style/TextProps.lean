import Verif.Style.TextModel
/-
C44 (alignment), C45 (padding, margin, border), C92 (size of a rendered style), C93 (colours and
decorations do not change the text) and C94 (size constraints).
-/
set_option linter.unusedVariables false
set_option linter.unusedSimpArgs false
namespace Phoenix.Style
open Phoenix

/-! ### Specification -/

/-- A display width that adds up, in which a space is one column wide. -/
structure Sums (W : Str → Nat) : Prop where
  nil : W [] = 0
  append : ∀ a b, W (a ++ b) = W a + W b
  space : W [32] = 1

/-- The lines of a text. -/
def Lines (text : Str) (ls : List Str) : Prop := text = joinNl ls ∧ ls ≠ [] ∧ ∀ l ∈ ls, 10 ∉ l

/-- All lines have the same width. -/
def Rect (W : Str → Nat) (ls : List Str) (w : Nat) : Prop := ∀ l ∈ ls, W l = w

/-- What a terminal shows of a text: everything except `ESC [ ... <final byte>`. -/
inductive Mode | text | esc | csi
  deriving DecidableEq

def strip : Mode → Str → Str
  | _, [] => []
  | .text, c :: t => if c = 27 then strip .esc t else c :: strip .text t
  | .esc, c :: t => if c = 91 then strip .csi t else strip .text t
  | .csi, c :: t => if 0x40 ≤ c ∧ c ≤ 0x7E then strip .text t else strip .csi t

/-! ### Lines -/

theorem split_join : ∀ (ls : List Str), ls ≠ [] → (∀ l ∈ ls, 10 ∉ l) → splitNl (joinNl ls) = ls := by
  intro ls
  induction ls with
  | nil => intro h; exact absurd rfl h
  | cons a t ih =>
    intro _ hn
    cases t with
    | nil => exact Dec.split_none (hn a (by simp))
    | cons b t =>
      show Dec.split 10 (a ++ 10 :: joinNl (b :: t)) = _
      rw [Dec.split_append (hn a (by simp))]
      have := ih (by simp) (fun l hl => hn l (List.mem_cons_of_mem _ hl))
      unfold splitNl at this
      rw [this]

theorem split_ne (s : Str) : splitNl s ≠ [] := by
  unfold splitNl
  cases s with
  | nil => simp [Dec.split]
  | cons c t =>
    rw [Dec.split]
    split
    · simp
    · split <;> simp

theorem join_split (s : Str) : joinNl (splitNl s) = s := by
  unfold splitNl
  induction s with
  | nil => rfl
  | cons c t ih =>
    rw [Dec.split]
    have hne := split_ne t
    unfold splitNl at hne
    cases h : Dec.split 10 t with
    | nil => exact absurd h hne
    | cons l ls =>
      rw [h] at ih
      split
      · rename_i hc
        subst hc
        show [] ++ 10 :: joinNl (l :: ls) = _
        rw [ih]; rfl
      · show joinNl ((c :: l) :: ls) = _
        cases ls with
        | nil => simp only [joinNl] at ih ⊢; rw [ih]
        | cons m ms => simp only [joinNl] at ih ⊢; rw [List.cons_append, ih]

theorem split_no_nl (s : Str) : ∀ l ∈ splitNl s, 10 ∉ l := by
  unfold splitNl
  induction s with
  | nil => intro l hl; simp [Dec.split] at hl; subst hl; simp
  | cons c t ih =>
    rw [Dec.split]
    split
    · intro l hl
      rcases List.mem_cons.1 hl with rfl | hl
      · simp
      · exact ih l hl
    · rename_i hc
      cases h : Dec.split 10 t with
      | nil =>
        intro l hl
        simp at hl; subst hl
        simp; omega
      | cons m ms =>
        rw [h] at ih
        intro l hl
        rcases List.mem_cons.1 hl with rfl | hl
        · have := ih m (by simp)
          simp only [List.mem_cons, not_or]
          exact ⟨fun e => hc e.symm, this⟩
        · exact ih l (List.mem_cons_of_mem _ hl)

/-- Every text has exactly one list of lines, the one the code computes. -/
theorem lines_iff (text : Str) (ls : List Str) : Lines text ls ↔ splitNl text = ls := by
  constructor
  · rintro ⟨rfl, h1, h2⟩; exact split_join ls h1 h2
  · rintro rfl; exact ⟨(join_split text).symm, split_ne text, split_no_nl text⟩

theorem nl_spaces (n : Nat) : 10 ∉ spaces n := by
  unfold spaces; intro h; have := List.eq_of_mem_replicate h; omega

section
variable {W : Str → Nat} (hW : Sums W)
include hW

theorem W_spaces (n : Nat) : W (spaces n) = n := by
  induction n with
  | zero => exact hW.nil
  | succ n ih =>
    show W (32 :: spaces n) = _
    rw [show (32 :: spaces n : Str) = [32] ++ spaces n from rfl, hW.append, hW.space, ih]; omega

theorem W_rep (s : Str) (n : Nat) : W (rep s n) = n * W s := by
  induction n with
  | zero => simp [rep, hW.nil]
  | succ n ih => rw [rep, hW.append, ih, Nat.succ_mul]; omega

end

theorem maxOf_le {l : List Nat} {n : Nat} (h : ∀ x ∈ l, x ≤ n) : maxOf l ≤ n := by
  induction l with
  | nil => simp [maxOf]
  | cons a t ih =>
    have := ih (fun x hx => h x (List.mem_cons_of_mem _ hx))
    have := h a (by simp)
    simp only [maxOf]; omega

theorem le_maxOf {l : List Nat} {x : Nat} (h : x ∈ l) : x ≤ maxOf l := by
  induction l with
  | nil => cases h
  | cons a t ih =>
    simp only [maxOf]
    rcases List.mem_cons.1 h with rfl | h
    · omega
    · have := ih h; omega

theorem maxOf_mem {l : List Nat} (h : l ≠ []) : maxOf l ∈ l := by
  induction l with
  | nil => exact absurd rfl h
  | cons a t ih =>
    cases t with
    | nil => simp [maxOf]
    | cons b t =>
      have := ih (by simp)
      rw [maxOf]
      by_cases hh : a ≤ maxOf (b :: t)
      · rw [Nat.max_eq_right hh]; exact List.mem_cons_of_mem _ this
      · rw [Nat.max_eq_left (by omega)]; simp

/-! ### C44 -/

/-- C44.  A text that fits is padded with spaces to exactly the width; left, right and centred
texts get their padding on the right, on the left, and on both sides (at most one more on the
left). -/
theorem C44_horizontal {W : Str → Nat} (hW : Sums W) (text : Str) (width : Nat) (a : Align)
    (h : W text ≤ width) :
    W (alignH W text width a) = width ∧
    ∃ l r : Nat, alignH W text width a = spaces l ++ text ++ spaces r ∧
      (a = .start → l = 0) ∧ (a = .finish → r = 0) ∧ (a = .middle → l = r ∨ l = r + 1) := by
  have hx : ∃ l r : Nat, alignH W text width a = spaces l ++ text ++ spaces r ∧ l + r + W text = width ∧
      (a = .start → l = 0) ∧ (a = .finish → r = 0) ∧ (a = .middle → l = r ∨ l = r + 1) := by
    unfold alignH
    rw [if_neg (by omega)]
    split
    · exact ⟨0, 0, by simp [spaces], by omega, by simp, by simp, by simp⟩
    · simp only
      cases a with
      | start => exact ⟨0, width - W text, by simp [spaces], by omega, by simp, by simp, by simp⟩
      | middle => exact ⟨_, _, rfl, by omega, by simp, by simp, fun _ => by omega⟩
      | finish => exact ⟨width - W text, 0, by simp [spaces], by omega, by simp, by simp, by simp⟩
  obtain ⟨l, r, e, hs, h1⟩ := hx
  refine ⟨?_, l, r, e, h1⟩
  rw [e, hW.append, hW.append, W_spaces hW, W_spaces hW]; omega

theorem alignVLines_ok (W : Str → Nat) {ls : List Str} (hne : ls ≠ []) (hn : ∀ l ∈ ls, 10 ∉ l) (height : Nat) (hh : 0 < height)
    (a : Align) : alignVLines W ls height a ≠ [] ∧ ∀ l ∈ alignVLines W ls height a, 10 ∉ l := by
  have hlen : (alignVLines W ls height a).length = height := by
    unfold alignVLines
    split
    · simp; omega
    · split
      · assumption
      · cases a <;> simp <;> omega
  refine ⟨fun h => by rw [h] at hlen; simp at hlen; omega, ?_⟩
  unfold alignVLines
  split
  · intro l hl; exact hn l (List.mem_of_mem_take hl)
  · split
    · exact hn
    · intro l hl
      cases a <;> simp only [List.mem_append, List.mem_replicate] at hl
      · rcases hl with hl | ⟨_, rfl⟩
        · exact hn l hl
        · exact nl_spaces _
      · rcases hl with (⟨_, rfl⟩ | hl) | ⟨_, rfl⟩
        · exact nl_spaces _
        · exact hn l hl
        · exact nl_spaces _
      · rcases hl with ⟨_, rfl⟩ | hl
        · exact nl_spaces _
        · exact hn l hl

/-- C44.  Vertical alignment yields exactly `height` lines: the first ones of a text that is too
long, otherwise all lines in order with blank lines (as wide as the widest line) above and below
according to the alignment. -/
theorem C44_vertical (W : Str → Nat) (text : Str) (ls : List Str) (hl : Lines text ls) (height : Nat) (hh : 0 < height)
    (a : Align) :
    ∃ out : List Str, Lines (alignV W text height a) out ∧ out.length = height ∧
      (height < ls.length → out = ls.take height) ∧
      (ls.length ≤ height → ∃ (t b m : Nat), out = List.replicate t (spaces m) ++ ls ++ List.replicate b (spaces m) ∧
        (∃ l ∈ ls, W l = m) ∧ (∀ l ∈ ls, W l ≤ m) ∧
        (a = .start → t = 0) ∧ (a = .finish → b = 0) ∧ (a = .middle → t = b ∨ t = b + 1)) := by
  obtain ⟨h1, h2, h3⟩ := hl
  have hs := (lines_iff text ls).1 ⟨h1, h2, h3⟩
  obtain ⟨o1, o2⟩ := alignVLines_ok W h2 h3 height hh a
  refine ⟨alignVLines W ls height a, ⟨by unfold alignV; rw [hs], o1, o2⟩, ?_, ?_, ?_⟩
  · unfold alignVLines
    split
    · simp; omega
    · split
      · assumption
      · cases a <;> simp <;> omega
  · intro h; unfold alignVLines; rw [if_pos h]
  · intro h
    have hm := maxOf_mem (l := ls.map W) (by simpa using h2)
    obtain ⟨l0, hl0, e0⟩ := List.mem_map.1 hm
    have hle : ∀ l ∈ ls, W l ≤ maxOf (ls.map W) := fun l hl => le_maxOf (List.mem_map_of_mem hl)
    unfold alignVLines
    rw [if_neg (by omega)]
    split
    · exact ⟨0, 0, _, by simp, ⟨l0, hl0, e0⟩, hle, by simp, by simp, by simp⟩
    · cases a with
      | start => exact ⟨0, _, _, by simp; rfl, ⟨l0, hl0, e0⟩, hle, by simp, by simp, by simp⟩
      | middle => exact ⟨_, _, _, rfl, ⟨l0, hl0, e0⟩, hle, by simp, by simp, fun _ => by omega⟩
      | finish => exact ⟨_, 0, _, by simp; rfl, ⟨l0, hl0, e0⟩, hle, by simp, by simp, by simp⟩

/-- The size used for the byte cut is the UTF-8 size of the rune. -/
theorem runeSize_utf8 (c : Char) : runeSize c.toNat = c.utf8Size := by
  unfold runeSize Char.utf8Size
  have e : c.toNat = c.val.toNat := rfl
  simp only [UInt32.le_iff_toNat_le]
  rw [e]
  repeat' split
  all_goals first | rfl | (exfalso; simp_all; omega)

/-- C44, too wide, any text: what is kept are the whole runes among the first `width` *bytes*, and one
replacement rune for every byte of a rune that was cut. -/
theorem C44_cut_bytes_partial (W : Str → Nat) (cs : List Char) (width : Nat) (a : Align)
    (hw : width < W (cs.map Char.toNat)) :
    ∃ (kept rest : List Char) (cut : Nat), cs = kept ++ rest ∧
      alignH W (cs.map Char.toNat) width a = kept.map Char.toNat ++ List.replicate cut 0xFFFD ∧
      ((rest = [] ∧ cut = 0 ∧ (kept.map Char.utf8Size).sum ≤ width) ∨
        (kept.map Char.utf8Size).sum + cut = width ∧ ∃ (c : Char) (t : List Char), rest = c :: t ∧ cut < c.utf8Size) := by
  unfold alignH
  rw [if_pos hw]
  clear hw
  induction cs generalizing width with
  | nil => exact ⟨[], [], 0, rfl, by simp [byteTake], .inl ⟨rfl, rfl, by simp⟩⟩
  | cons c t ih =>
    rw [List.map_cons, byteTake, runeSize_utf8]
    split
    · rename_i h
      obtain ⟨k, r, n, e1, e2, e3⟩ := ih (width - c.utf8Size)
      refine ⟨c :: k, r, n, by rw [e1]; rfl, by rw [e2]; rfl, ?_⟩
      rcases e3 with ⟨a1, a2, a3⟩ | ⟨b1, b2⟩
      · exact .inl ⟨a1, a2, by simp only [List.map_cons, List.sum_cons]; omega⟩
      · exact .inr ⟨by simp only [List.map_cons, List.sum_cons]; omega, b2⟩
    · exact ⟨[], c :: t, width, rfl, by simp, .inr ⟨by simp, c, t, rfl, by omega⟩⟩

/-- C44, too wide: single-byte single-column text is cut to the width. -/
theorem C44_cut_partial (text : Str) (width : Nat) (a : Align) (h : ∀ c ∈ text, c < 0x80) (hl : width < text.length) :
    alignH List.length text width a = text.take width := by
  unfold alignH
  rw [if_pos hl]
  clear hl
  induction text generalizing width with
  | nil => simp [byteTake]
  | cons c t ih =>
    have hc : runeSize c = 1 := by unfold runeSize; rw [if_pos (h c (by simp))]
    rw [byteTake, hc]
    cases width with
    | zero => simp
    | succ n =>
      rw [if_pos (by omega), ih _ (fun x hx => h x (List.mem_cons_of_mem _ hx))]
      simp

/-- The full claim: aligned text has the requested width, and is made of the characters of the
text and spaces. -/
def C44_statement : Prop :=
  ∀ (W : Str → Nat) (text : Str) (width : Nat) (a : Align), Sums W →
    W (alignH W text width a) = width ∧ ∀ c ∈ alignH W text width a, c ∈ text ∨ c = 32

/-- A width function with wide characters from U+4E00 to U+9FFF (CJK). -/
def wideW (s : Str) : Nat := (s.map fun c => if 0x4E00 ≤ c ∧ c ≤ 0x9FFF then 2 else 1).sum

theorem wideW_sums : Sums wideW := ⟨rfl, fun a b => by simp [wideW], rfl⟩

/-- C44 is false: the text is cut at a *byte* position, so two wide characters (4 columns, 6 bytes)
aligned to 3 columns become one character of 2 columns, and to 2 columns become garbage. -/
theorem C44_refuted : ¬ C44_statement := by
  intro h
  have := (h wideW [0x4E2D, 0x6587] 3 .start wideW_sums).1
  revert this
  decide

theorem C44_garbage_refuted : alignH wideW [0x4E2D, 0x6587] 2 .start = [0xFFFD, 0xFFFD] := by decide
example := C44_horizontal wideW_sums [0x4E2D, 97] 6 .middle (by decide)
example := C44_vertical wideW [97, 10, 0x4E2D] [[97], [0x4E2D]] ⟨by decide, by decide, by decide⟩ 5 (by decide) .middle
example := C44_cut_bytes_partial wideW "中文".toList 2 .start (by decide)
example := C44_cut_partial [97, 98, 99, 100] 2 .finish (by decide) (by decide)


example : alignH wideW [0x4E2D, 97] 6 .middle = [32, 32, 0x4E2D, 97, 32] := by decide

/-! ### C45 -/

/-- C45.  Padding and margin of a non-empty text: `top` blank lines, the lines of the text each
with `left` spaces before and `right` spaces after, `bottom` blank lines. -/
theorem C45_spacing {W : Str → Nat} (hW : Sums W) (text : Str) (ls : List Str) (hl : Lines text ls) (hne : text ≠ [])
    (p : Sides) :
    ∃ blank : Nat, Lines (applySpacing W text p)
      (List.replicate p.top (spaces blank) ++ ls.map (fun l => spaces p.left ++ l ++ spaces p.right) ++
        List.replicate p.bottom (spaces blank)) ∧
      ∀ w, Rect W ls w → blank = p.left + w + p.right ∧
        Rect W (List.replicate p.top (spaces blank) ++ ls.map (fun l => spaces p.left ++ l ++ spaces p.right) ++
          List.replicate p.bottom (spaces blank)) (p.left + w + p.right) := by
  obtain ⟨h1, h2, h3⟩ := hl
  have hs := (lines_iff text ls).1 ⟨h1, h2, h3⟩
  obtain ⟨l0, t, rfl⟩ := List.exists_cons_of_ne_nil h2
  refine ⟨W (spaces p.left ++ l0 ++ spaces p.right), ⟨?_, by simp, ?_⟩, ?_⟩
  · unfold applySpacing
    rw [if_neg hne, hs]
    rfl
  · intro l hl
    simp only [List.mem_append, List.mem_replicate, List.mem_map] at hl
    rcases hl with (⟨_, rfl⟩ | ⟨x, hx, rfl⟩) | ⟨_, rfl⟩
    · exact nl_spaces _
    · intro hm
      simp only [List.mem_append] at hm
      rcases hm with (hm | hm) | hm
      · exact nl_spaces _ hm
      · exact h3 x hx hm
      · exact nl_spaces _ hm
    · exact nl_spaces _
  · intro w hr
    have hb : W (spaces p.left ++ l0 ++ spaces p.right) = p.left + w + p.right := by
      rw [hW.append, hW.append, W_spaces hW, W_spaces hW, hr l0 (by simp)]
    refine ⟨hb, ?_⟩
    rw [hb]
    intro l hl
    simp only [List.mem_append, List.mem_replicate, List.mem_map] at hl
    rcases hl with (⟨_, rfl⟩ | ⟨x, hx, rfl⟩) | ⟨_, rfl⟩
    · rw [W_spaces hW]
    · rw [hW.append, hW.append, W_spaces hW, W_spaces hW, hr x hx]
    · rw [W_spaces hW]
example := C45_spacing wideW_sums [97, 10, 0x4E2D] [[97], [0x4E2D]] ⟨by decide, by decide, by decide⟩ (by decide) ⟨1, 2, 0, 3⟩


/-- The full claim for padding: it always adds its lines. -/
def C45_padding_statement : Prop :=
  ∀ (W : Str → Nat) (text : Str) (p : Sides), Sums W →
    (splitNl (applySpacing W text p)).length = (splitNl text).length + p.top + p.bottom

/-- C45 is false for the empty text, which gets no padding at all. -/
theorem C45_padding_refuted : ¬ C45_padding_statement := by
  intro h
  have := h wideW [] ⟨1, 2, 1, 2⟩ wideW_sums
  revert this
  decide

/-- A border of eight glyphs one column wide (true of the five predefined visible borders). -/
def Border.Thin (W : Str → Nat) (b : Border) : Prop :=
  ∀ g ∈ [b.top, b.bottom, b.left, b.right, b.topLeft, b.topRight, b.bottomLeft, b.bottomRight], W g = 1 ∧ 10 ∉ g

theorem W_part {W : Str → Nat} (hW : Sums W) {g : Str} (h : W g = 1) (c : Bool) : W (part c g) = c.toNat := by
  cases c <;> simp [part, hW.nil, h]

theorem nl_rep {g : Str} (h : 10 ∉ g) (n : Nat) : 10 ∉ rep g n := by
  induction n with
  | zero => simp [rep]
  | succ n ih => simp [rep, h, ih]

theorem nl_part {g : Str} (h : 10 ∉ g) (c : Bool) : 10 ∉ part c g := by
  cases c <;> simp [part, h]

/-- C45.  A border without colour: an edge line above and below if enabled, each content line
filled up with spaces to the widest and flanked by the side glyphs that are enabled; the result is
a rectangle. -/
theorem C45_border {W : Str → Nat} (hW : Sums W) (s : Sty) (b : Border) (hb : s.border = some b) (ht : b.Thin W)
    (hc : s.borderColor = none) (hside : (s.bTop || s.bBottom || s.bLeft || s.bRight) = true)
    (text : Str) (ls : List Str) (hl : Lines text ls) :
    ∃ (m : Nat) (out : List Str), (∃ l ∈ ls, W l = m) ∧ (∀ l ∈ ls, W l ≤ m) ∧
      Lines (borderRender W s text) out ∧
      out.length = s.bTop.toNat + ls.length + s.bBottom.toNat ∧
      Rect W out (s.bLeft.toNat + m + s.bRight.toNat) ∧
      (∀ (i : Nat) (l : Str), ls[i]? = some l → out[s.bTop.toNat + i]? =
        some (part s.bLeft b.left ++ (l ++ spaces (m - W l)) ++ part s.bRight b.right)) ∧
      (s.bTop = true → out[0]? = some (part s.bLeft b.topLeft ++ rep b.top m ++ part s.bRight b.topRight)) ∧
      (s.bBottom = true → out.getLast? =
        some (part s.bLeft b.bottomLeft ++ rep b.bottom m ++ part s.bRight b.bottomRight)) := by
  obtain ⟨h1, h2, h3⟩ := hl
  have hs := (lines_iff text ls).1 ⟨h1, h2, h3⟩
  have e1 : s.hasTop = s.bTop := by simp [Sty.hasTop, hb]
  have e2 : s.hasBottom = s.bBottom := by simp [Sty.hasBottom, hb]
  have e3 : s.hasLeft = s.bLeft := by simp [Sty.hasLeft, hb]
  have e4 : s.hasRight = s.bRight := by simp [Sty.hasRight, hb]
  have hle : ∀ l ∈ ls, W l ≤ maxOf (ls.map W) := fun l hl => le_maxOf (List.mem_map_of_mem hl)
  obtain ⟨l0, hl0, e0⟩ := List.mem_map.1 (maxOf_mem (l := ls.map W) (by simpa using h2))
  have hsame : borderRender W s text = joinNl (borderLines W s b ls) := by
    unfold borderRender
    rw [hb]
    simp only
    rw [if_neg, hs]
    rw [e1, e2, e3, e4]
    revert hside
    cases s.bTop <;> cases s.bBottom <;> cases s.bLeft <;> cases s.bRight <;> simp
  have hform : borderLines W s b ls =
      (if s.bTop then [part s.bLeft b.topLeft ++ rep b.top (maxOf (ls.map W)) ++ part s.bRight b.topRight] else []) ++
      ls.map (fun l => part s.bLeft b.left ++ (l ++ spaces (maxOf (ls.map W) - W l)) ++ part s.bRight b.right) ++
      (if s.bBottom then [part s.bLeft b.bottomLeft ++ rep b.bottom (maxOf (ls.map W)) ++ part s.bRight b.bottomRight] else []) := by
    unfold borderLines colorLine colorSides edgeLine contentLine
    simp only [hc, e1, e2, e3, e4]
  have g : ∀ x, x ∈ [b.top, b.bottom, b.left, b.right, b.topLeft, b.topRight, b.bottomLeft, b.bottomRight] → W x = 1 ∧ 10 ∉ x := ht
  have g1 := g b.top (by simp)
  have g2 := g b.bottom (by simp)
  have g3 := g b.left (by simp)
  have g4 := g b.right (by simp)
  have g5 := g b.topLeft (by simp)
  have g6 := g b.topRight (by simp)
  have g7 := g b.bottomLeft (by simp)
  have g8 := g b.bottomRight (by simp)
  refine ⟨maxOf (ls.map W), borderLines W s b ls, ⟨l0, hl0, e0⟩, hle, ⟨hsame, ?_, ?_⟩, ?_, ?_, ?_, ?_, ?_⟩
  · rw [hform]; simp [h2]
  · rw [hform]
    intro l hl
    simp only [List.mem_append, List.mem_map] at hl
    rcases hl with (hl | ⟨x, hx, rfl⟩) | hl
    · split at hl
      · simp only [List.mem_singleton] at hl
        subst hl
        simp only [List.mem_append, not_or]
        exact ⟨⟨nl_part g5.2 _, nl_rep g1.2 _⟩, nl_part g6.2 _⟩
      · cases hl
    · simp only [List.mem_append, not_or]
      exact ⟨⟨nl_part g3.2 _, h3 x hx, nl_spaces _⟩, nl_part g4.2 _⟩
    · split at hl
      · simp only [List.mem_singleton] at hl
        subst hl
        simp only [List.mem_append, not_or]
        exact ⟨⟨nl_part g7.2 _, nl_rep g2.2 _⟩, nl_part g8.2 _⟩
      · cases hl
  · rw [hform]
    cases s.bTop <;> cases s.bBottom <;> simp <;> omega
  · rw [hform]
    intro l hl
    simp only [List.mem_append, List.mem_map] at hl
    rcases hl with (hl | ⟨x, hx, rfl⟩) | hl
    · split at hl
      · simp only [List.mem_singleton] at hl
        subst hl
        rw [hW.append, hW.append, W_part hW g5.1, W_part hW g6.1, W_rep hW, g1.1]; omega
      · cases hl
    · have := hle x hx
      rw [hW.append, hW.append, hW.append, W_part hW g3.1, W_part hW g4.1, W_spaces hW]; omega
    · split at hl
      · simp only [List.mem_singleton] at hl
        subst hl
        rw [hW.append, hW.append, W_part hW g7.1, W_part hW g8.1, W_rep hW, g2.1]; omega
      · cases hl
  · intro i l hi
    have hi' := (List.getElem?_eq_some_iff.1 hi).1
    rw [hform, List.append_assoc]
    rw [List.getElem?_append_right (by cases s.bTop <;> simp)]
    rw [List.getElem?_append_left (by cases s.bTop <;> simp <;> omega)]
    have : s.bTop.toNat + i - (if s.bTop then [part s.bLeft b.topLeft ++ rep b.top (maxOf (ls.map W)) ++ part s.bRight b.topRight] else []).length = i := by
      cases s.bTop <;> simp
    rw [this, List.getElem?_map, hi]
    rfl
  · intro h; rw [hform, h]; rfl
  · intro h; rw [hform, h]; simp

/-- The rounded border of the package is one column wide. -/
example : Border.Thin wideW ⟨[0x2500], [0x2500], [0x2502], [0x2502], [0x256d], [0x256e], [0x2570], [0x256f]⟩ := by
  unfold Border.Thin; decide

example : splitNl (borderRender wideW (Sty.new.setBorder ⟨[45], [45], [124], [124], [43], [43], [43], [43]⟩) [97, 98, 10, 0x4E2D, 99]) =
    ["+---+".toList.map Char.toNat, [124, 97, 98, 32, 124], [124, 0x4E2D, 99, 124], "+---+".toList.map Char.toNat] := by decide

/-! ### C92 -/

/-- No colours and no decorations. -/
def Sty.Mono (s : Sty) : Prop :=
  s.fg = none ∧ s.bg = none ∧ s.borderColor = none ∧ s.bold = false ∧ s.italic = false ∧
    s.underline = false ∧ s.strike = false

/-- A block: the text, its lines and their common width. -/
structure Block (W : Str → Nat) (text : Str) (ls : List Str) (w : Nat) : Prop where
  lines : Lines text ls
  rect : Rect W ls w
  pos : 0 < w

theorem Block.ne {W : Str → Nat} (hW : Sums W) {text : Str} {ls : List Str} {w : Nat} (h : Block W text ls w) : text ≠ [] := by
  intro e
  have h1 := (lines_iff text ls).1 h.lines
  rw [e] at h1
  have h2 : ls = [[]] := by rw [← h1]; rfl
  have := h.rect [] (by rw [h2]; simp)
  rw [hW.nil] at this
  have := h.pos
  omega

/-- Where the lines of an inner block are in an outer one. -/
def Inside (W : Str → Nat) (inner outer : List Str) (row col : Nat) : Prop :=
  ∀ (i : Nat) (l : Str), inner[i]? = some l → ∃ pre post : Str, outer[row + i]? = some (pre ++ l ++ post) ∧ W pre = col

theorem Inside.trans {W : Str → Nat} (hW : Sums W) {a b c : List Str} {r1 c1 r2 c2 : Nat} (h1 : Inside W a b r1 c1)
    (h2 : Inside W b c r2 c2) : Inside W a c (r2 + r1) (c2 + c1) := by
  intro i l hi
  obtain ⟨p1, q1, e1, w1⟩ := h1 i l hi
  obtain ⟨p2, q2, e2, w2⟩ := h2 _ _ e1
  refine ⟨p2 ++ p1, q1 ++ q2, ?_, by rw [hW.append, w1, w2]⟩
  rw [Nat.add_assoc, e2]
  simp

theorem Inside.refl {W : Str → Nat} (hW : Sums W) (a : List Str) : Inside W a a 0 0 := by
  intro i l hi
  exact ⟨[], [], by simpa using hi, hW.nil⟩

/-- The four sides, zero if not set. -/
def sidesOf (p : Option Sides) : Sides := p.getD ⟨0, 0, 0, 0⟩

theorem space_block {W : Str → Nat} (hW : Sums W) {text : Str} {ls : List Str} {w : Nat} (h : Block W text ls w)
    (p : Option Sides) :
    ∃ out : List Str, Block W (spaceStep W p text) out ((sidesOf p).left + w + (sidesOf p).right) ∧
      out.length = (sidesOf p).top + ls.length + (sidesOf p).bottom ∧
      Inside W ls out (sidesOf p).top (sidesOf p).left := by
  cases p with
  | none => exact ⟨ls, ⟨h.lines, by simpa [sidesOf] using h.rect, by have := h.pos; simp [sidesOf]; omega⟩, by simp [sidesOf], Inside.refl hW ls⟩
  | some p =>
    obtain ⟨bl, h1, h2⟩ := C45_spacing hW text ls h.lines (h.ne hW) p
    obtain ⟨h3, h4⟩ := h2 w h.rect
    refine ⟨_, ⟨h1, h4, by have := h.pos; simp only [sidesOf, Option.getD_some]; omega⟩, by simp [sidesOf, Nat.add_assoc], ?_⟩
    intro i l hi
    have hi' := (List.getElem?_eq_some_iff.1 hi).1
    refine ⟨spaces p.left, spaces p.right, ?_, W_spaces hW _⟩
    show (_ : List Str)[p.top + i]? = _
    rw [List.append_assoc, List.getElem?_append_right (by simp), List.getElem?_append_left (by simp; omega)]
    simp only [List.length_replicate, Nat.add_sub_cancel_left, List.getElem?_map, hi, Option.map_some]

theorem border_block {W : Str → Nat} (hW : Sums W) {text : Str} {ls : List Str} {w : Nat} (h : Block W text ls w)
    (s : Sty) (hv : s.valid = true) (hc : s.borderColor = none) (ht : ∀ b, s.border = some b → b.Thin W) :
    ∃ out : List Str, Block W (borderRender W s text) out (s.bLeft.toNat + w + s.bRight.toNat) ∧
      out.length = s.bTop.toNat + ls.length + s.bBottom.toNat ∧ Inside W ls out s.bTop.toNat s.bLeft.toNat := by
  by_cases hside : (s.bTop || s.bBottom || s.bLeft || s.bRight) = true
  · cases hb : s.border with
    | none =>
      unfold Sty.valid at hv
      rw [hside, hb] at hv
      cases hv
    | some b =>
      obtain ⟨m, out, ⟨l0, hl0, e0⟩, h2, h3, h4, h5, h6, _, _⟩ := C45_border hW s b hb (ht b hb) hc hside text ls h.lines
      have hm : m = w := by rw [← e0]; exact h.rect l0 hl0
      subst hm
      refine ⟨out, ⟨h3, h5, by have := h.pos; omega⟩, h4, ?_⟩
      intro i l hi
      refine ⟨part s.bLeft b.left, spaces (m - W l) ++ part s.bRight b.right, ?_, W_part hW (ht b hb b.left (by simp)).1 _⟩
      rw [h6 i l hi]
      simp
  · have hall : s.bTop = false ∧ s.bBottom = false ∧ s.bLeft = false ∧ s.bRight = false := by
      revert hside
      cases s.bTop <;> cases s.bBottom <;> cases s.bLeft <;> cases s.bRight <;> simp
    obtain ⟨a1, a2, a3, a4⟩ := hall
    have hsame : borderRender W s text = text := by
      unfold borderRender
      cases hb : s.border with
      | none => rfl
      | some b => simp [Sty.hasTop, Sty.hasBottom, Sty.hasLeft, Sty.hasRight, a1, a2, a3, a4]
    rw [hsame, a1, a2, a3, a4]
    exact ⟨ls, ⟨h.lines, by simpa using h.rect, by simpa using h.pos⟩, by simp, by simpa using Inside.refl hW ls⟩

theorem align_block {W : Str → Nat} (hW : Sums W) {text : Str} {ls : List Str} (hl : Lines text ls) (w ht : Nat) (hw : 0 < w) (hh : 0 < ht)
    (fit1 : ls.length ≤ ht) (fit2 : ∀ l ∈ ls, W l ≤ w) (h v : Align) :
    ∃ (out : List Str) (row : Nat), Block W (alignBoth W text w ht h v) out w ∧ out.length = ht ∧
      (v = .start → row = 0) ∧ (v = .finish → row + ls.length = ht) ∧ (v = .middle → 2 * row + ls.length = ht ∨ 2 * row + ls.length = ht + 1) ∧
      ∀ (i : Nat) (l : Str), ls[i]? = some l → ∃ a b : Nat, out[row + i]? = some (spaces a ++ l ++ spaces b) ∧ a + W l + b = w ∧
        (h = .start → a = 0) ∧ (h = .finish → b = 0) ∧ (h = .middle → a = b ∨ a = b + 1) := by
  have hs := (lines_iff text ls).1 hl
  obtain ⟨h1, h2, h3⟩ := hl
  have hm : Lines (joinNl (ls.map fun l => alignH W l w h)) (ls.map fun l => alignH W l w h) := by
    refine ⟨rfl, by simpa using h2, ?_⟩
    intro l hl
    obtain ⟨x, hx, rfl⟩ := List.mem_map.1 hl
    obtain ⟨_, a, b, e, _⟩ := C44_horizontal hW x w h (fit2 x hx)
    rw [e]
    simp only [List.mem_append, not_or]
    exact ⟨⟨nl_spaces _, h3 x hx⟩, nl_spaces _⟩
  obtain ⟨out, o1, o2, _, o4⟩ := C44_vertical W _ _ hm ht hh v
  obtain ⟨t, b, m, e, ⟨l0, hl0, e0⟩, _, v1, v2, v3⟩ := o4 (by simpa using fit1)
  have hrect : Rect W (ls.map fun l => alignH W l w h) w := by
    intro l hl
    obtain ⟨x, hx, rfl⟩ := List.mem_map.1 hl
    exact (C44_horizontal hW x w h (fit2 x hx)).1
  have hmw : m = w := by rw [← e0]; exact hrect l0 hl0
  subst hmw
  have hlen : t + ls.length + b = ht := by rw [← o2, e]; simp [Nat.add_assoc]
  refine ⟨out, t, ⟨?_, ?_, hw⟩, o2, fun hv => v1 hv, fun hv => by have := v2 hv; omega, fun hv => by have := v3 hv; omega, ?_⟩
  · unfold alignBoth; rw [hs]; exact o1
  · intro l hl
    rw [e] at hl
    simp only [List.mem_append, List.mem_replicate] at hl
    rcases hl with (⟨_, rfl⟩ | hl) | ⟨_, rfl⟩
    · exact W_spaces hW _
    · exact hrect l hl
    · exact W_spaces hW _
  · intro i l hi
    have hi' := (List.getElem?_eq_some_iff.1 hi).1
    obtain ⟨q1, a, b', q2, q3⟩ := C44_horizontal hW l m h (fit2 l (List.mem_of_getElem? hi))
    refine ⟨a, b', ?_, ?_, q3⟩
    · rw [e, List.append_assoc, List.getElem?_append_right (by simp), List.getElem?_append_left (by simp; omega)]
      simp only [List.length_replicate, Nat.add_sub_cancel_left, List.getElem?_map, hi, Option.map_some, q2]
    · rw [q2, hW.append, hW.append, W_spaces hW, W_spaces hW] at q1
      omega

theorem mono_pipeline (W : Str → Nat) (s : Sty) (hm : s.Mono) (text : Str) :
    pipeline W s text = spaceStep W s.margin (borderRender W s (spaceStep W s.padding (alignStep W s text))) := by
  obtain ⟨h1, h2, h3, h4, h5, h6, h7⟩ := hm
  have hd : decoCodes s = [] := by simp [decoCodes, h4, h5, h6, h7, part]
  have hc : colorCodes s = [] := by simp [colorCodes, h1, h2]
  unfold pipeline wrapCodes
  rw [hd, hc, if_pos rfl, if_pos rfl]

/-- C92.  An uncoloured style with an alignment, a width and a height, applied to a text that fits
in it: the output is a rectangle of exactly the width and height plus padding, border and margin,
and every line of the text stands in it unbroken, at the place given by the alignment. -/
theorem C92_box_partial {W : Str → Nat} (hW : Sums W) (s : Sty) (hm : s.Mono) (text : Str) (ls : List Str) (hl : Lines text ls)
    (z : Size) (w ht : Nat) (h v : Align) (hs : s.size = some z) (hz1 : z.width = some w) (hz2 : z.height = some ht)
    (ha : s.align = some (h, v)) (hw : 0 < w) (hh : 0 < ht)
    (hok : (execute W s text).isSome) (hb : ∀ b, s.border = some b → b.Thin W)
    (fit1 : ls.length ≤ ht) (fit2 : ∀ l ∈ ls, W l ≤ w) :
    ∃ (out : List Str) (row : Nat), Lines (render W s text) out ∧
      out.length = (sidesOf s.margin).top + (s.bTop.toNat + ((sidesOf s.padding).top + ht + (sidesOf s.padding).bottom) + s.bBottom.toNat) + (sidesOf s.margin).bottom ∧
      Rect W out ((sidesOf s.margin).left + (s.bLeft.toNat + ((sidesOf s.padding).left + w + (sidesOf s.padding).right) + s.bRight.toNat) + (sidesOf s.margin).right) ∧
      (v = .start → row = 0) ∧ (v = .finish → row + ls.length = ht) ∧
      (v = .middle → 2 * row + ls.length = ht ∨ 2 * row + ls.length = ht + 1) ∧
      ∀ (i : Nat) (l : Str), ls[i]? = some l → ∃ (a b : Nat) (pre post : Str),
        out[(sidesOf s.margin).top + s.bTop.toNat + (sidesOf s.padding).top + row + i]? = some (pre ++ spaces a ++ l ++ spaces b ++ post) ∧
        W pre = (sidesOf s.margin).left + s.bLeft.toNat + (sidesOf s.padding).left ∧ a + W l + b = w ∧
        (h = .start → a = 0) ∧ (h = .finish → b = 0) ∧ (h = .middle → a = b ∨ a = b + 1) := by
  have hval : s.valid = true ∧ render W s text = pipeline W s text := by
    unfold execute at hok
    unfold render execute
    cases hx : (s.valid && constraintsOk W s text) with
    | false => rw [hx] at hok; cases hok
    | true => exact ⟨(Bool.and_eq_true _ _ ▸ hx : _ ∧ _).1, rfl⟩
  obtain ⟨hval, hr⟩ := hval
  have hal : alignStep W s text = alignBoth W text w ht h v := by
    unfold alignStep target
    rw [ha, hs]
    simp only [hz1, hz2, Option.getD_some]
    rw [if_pos ⟨hw, hh⟩]
  rw [hr, mono_pipeline W s hm, hal]
  obtain ⟨o1, row, b1, l1, v1, v2, v3, c1⟩ := align_block hW hl w ht hw hh fit1 fit2 h v
  obtain ⟨o2, b2, l2, i2⟩ := space_block hW b1 s.padding
  obtain ⟨o3, b3, l3, i3⟩ := border_block hW b2 s hval hm.2.2.1 hb
  obtain ⟨o4, b4, l4, i4⟩ := space_block hW b3 s.margin
  refine ⟨o4, row, b4.lines, by rw [l4, l3, l2, l1], b4.rect, v1, v2, v3, ?_⟩
  intro i l hi
  obtain ⟨a, b, e, q1, q2⟩ := c1 i l hi
  obtain ⟨p2, r2, e2, w2⟩ := ((i2.trans hW i3).trans hW i4) _ _ e
  refine ⟨a, b, p2, r2, ?_, by rw [w2]; omega, q1, q2⟩
  rw [show (sidesOf s.margin).top + s.bTop.toNat + (sidesOf s.padding).top + row + i =
    (sidesOf s.margin).top + (s.bTop.toNat + (sidesOf s.padding).top) + (row + i) by omega, e2]
  simp
-- the instance: a bordered, padded box of 9 x 3 with one centred line
example :=
  let s : Sty := { Sty.new.setBorder ⟨[45], [45], [124], [124], [43], [43], [43], [43]⟩ with
    padding := some ⟨1, 2, 1, 2⟩, margin := some ⟨0, 1, 0, 1⟩,
    size := some ⟨some 9, some 3, none, none, none, none⟩, align := some (.middle, .middle) }
  C92_box_partial wideW_sums s ⟨rfl, rfl, rfl, rfl, rfl, rfl, rfl⟩ [0x4E2D, 97] [[0x4E2D, 97]] ⟨by decide, by decide, by decide⟩ _ 9 3
    .middle .middle rfl rfl rfl rfl (by decide) (by decide) (by decide)
    (by intro b hb; cases hb; unfold Border.Thin; decide) (by decide) (by decide)


/-- C92 without alignment and sizes: a rectangular text keeps its place inside padding, border and
margin. -/
theorem C92_content_partial {W : Str → Nat} (hW : Sums W) (s : Sty) (hm : s.Mono) (text : Str) (ls : List Str) (w : Nat)
    (hl : Lines text ls) (hr : Rect W ls w) (hw : 0 < w)
    (ha : s.align = none) (hok : (execute W s text).isSome) (hb : ∀ b, s.border = some b → b.Thin W) :
    ∃ out : List Str, Lines (render W s text) out ∧
      out.length = (sidesOf s.margin).top + (s.bTop.toNat + ((sidesOf s.padding).top + ls.length + (sidesOf s.padding).bottom) + s.bBottom.toNat) + (sidesOf s.margin).bottom ∧
      Rect W out ((sidesOf s.margin).left + (s.bLeft.toNat + ((sidesOf s.padding).left + w + (sidesOf s.padding).right) + s.bRight.toNat) + (sidesOf s.margin).right) ∧
      Inside W ls out ((sidesOf s.margin).top + (s.bTop.toNat + (sidesOf s.padding).top))
        ((sidesOf s.margin).left + (s.bLeft.toNat + (sidesOf s.padding).left)) := by
  have hval : s.valid = true ∧ render W s text = pipeline W s text := by
    unfold execute at hok
    unfold render execute
    cases hx : (s.valid && constraintsOk W s text) with
    | false => rw [hx] at hok; cases hok
    | true => exact ⟨(Bool.and_eq_true _ _ ▸ hx : _ ∧ _).1, rfl⟩
  obtain ⟨hval, hrr⟩ := hval
  have hal : alignStep W s text = text := by unfold alignStep; rw [ha]
  rw [hrr, mono_pipeline W s hm, hal]
  obtain ⟨o2, b2, l2, i2⟩ := space_block hW ⟨hl, hr, hw⟩ s.padding
  obtain ⟨o3, b3, l3, i3⟩ := border_block hW b2 s hval hm.2.2.1 hb
  obtain ⟨o4, b4, l4, i4⟩ := space_block hW b3 s.margin
  exact ⟨o4, b4.lines, by rw [l4, l3, l2], b4.rect, (i2.trans hW i3).trans hW i4⟩
example :=
  let s : Sty := { Sty.new.setBorder ⟨[45], [45], [124], [124], [43], [43], [43], [43]⟩ with padding := some ⟨1, 2, 1, 2⟩ }
  C92_content_partial wideW_sums s ⟨rfl, rfl, rfl, rfl, rfl, rfl, rfl⟩ [0x4E2D, 10, 97, 98] [[0x4E2D], [97, 98]] 2
    ⟨by decide, by decide, by decide⟩ (by unfold Rect; decide) (by decide) rfl (by decide)
    (by intro b hb; cases hb; unfold Border.Thin; decide)


/-- The full claim: `Width(w)` makes every line of the output at least `w` columns wide. -/
def C92_width_statement : Prop :=
  ∀ (W : Str → Nat) (s : Sty) (text : Str) (w : Nat), Sums W → s.valid = true →
    s.size = some ⟨some w, none, none, none, none, none⟩ →
    ∀ l ∈ splitNl (render W s text), w ≤ W l

/-- C92 is false: a width without an alignment has no effect at all. -/
theorem C92_width_refuted : ¬ C92_width_statement := by
  intro h
  have := h wideW { Sty.new with size := some ⟨some 5, none, none, none, none, none⟩ } [97] 5 wideW_sums rfl rfl [97] (by decide)
  revert this
  decide

/-- It is false with an alignment too when no height is set: the lines are padded as if they were
one ("ab\ncd" with width 8 becomes "ab\ncd" and three spaces: a line of 2 and one of 5 columns). -/
theorem C92_multiline_refuted :
    splitNl (render wideW { Sty.new with size := some ⟨some 8, none, none, none, none, none⟩, align := some (.start, .start) }
      [97, 98, 10, 99, 100]) = [[97, 98], [99, 100, 32, 32, 32]] := by decide

/-- The hypotheses of `C92_box_partial` hold for a bordered, padded, centred box. -/
example :
    let s : Sty := { Sty.new.setBorder ⟨[45], [45], [124], [124], [43], [43], [43], [43]⟩ with
      padding := some ⟨1, 2, 1, 2⟩, margin := some ⟨0, 1, 0, 1⟩,
      size := some ⟨some 9, some 3, none, none, none, none⟩, align := some (.middle, .middle) }
    s.Mono ∧ (execute wideW s [0x4E2D, 97]).isSome = true ∧ (splitNl (render wideW s [0x4E2D, 97])).length = 7 := by
  refine ⟨⟨rfl, rfl, rfl, rfl, rfl, rfl, rfl⟩, by decide, by decide⟩

/-! ### C93 -/

/-- The style without colours and decorations. -/
def Sty.plain (s : Sty) : Sty :=
  { s with fg := none, bg := none, borderColor := none, bold := false, italic := false, underline := false, strike := false }

/-- `l` shows `v`, whatever follows. -/
def Shows (l v : Str) : Prop := ∀ rest, strip .text (l ++ rest) = v ++ strip .text rest

theorem shows_nil : Shows [] [] := fun _ => rfl

theorem Shows.append {a b x y : Str} (h1 : Shows a x) (h2 : Shows b y) : Shows (a ++ b) (x ++ y) := by
  intro rest
  rw [List.append_assoc, h1, h2, List.append_assoc]

theorem shows_clean {l : Str} (h : 27 ∉ l) : Shows l l := by
  intro rest
  induction l with
  | nil => rfl
  | cons c t ih =>
    simp only [List.mem_cons, not_or] at h
    rw [List.cons_append, strip, if_neg (fun e => h.1 e.symm), ih h.2]
    rfl

theorem Shows.strip {l v : Str} (h : Shows l v) : strip .text l = v := by
  have := h []
  simpa [Style.strip] using this

theorem shows_csi (p : Str) (hp : ∀ c ∈ p, c < 0x40) : Shows (csi ++ p ++ [109]) [] := by
  intro rest
  show Style.strip .text (27 :: 91 :: (p ++ [109] ++ rest)) = _
  rw [Style.strip, if_pos rfl, Style.strip, if_pos rfl]
  induction p with
  | nil => simp [Style.strip]
  | cons c t ih =>
    have := hp c (by simp)
    rw [List.cons_append, List.cons_append, Style.strip, if_neg (by omega)]
    exact ih (fun x hx => hp x (List.mem_cons_of_mem _ hx))

theorem nat_low (n : Nat) : ∀ c ∈ Dec.nat n, c < 0x40 := by
  intro c hc
  have := Dec.nat_digits n c hc
  unfold Dec.isDigit at this
  simp at this
  omega

theorem shows_1 (n : Nat) : Shows (sgr1 n) [] := shows_csi _ (nat_low n)

theorem shows_256 (k n : Nat) : Shows (sgr256 k n) [] := by
  apply shows_csi
  intro c hc
  simp only [List.mem_append, List.mem_singleton] at hc
  rcases hc with (((hc | rfl) | hc) | rfl) | hc <;> first | exact nat_low _ c hc | omega

theorem shows_rgb (k : Nat) (x : Color) : Shows (sgrRGB k x) [] := by
  apply shows_csi
  intro c hc
  simp only [List.mem_append, List.mem_singleton] at hc
  rcases hc with (((((((hc | rfl) | hc) | rfl) | hc) | rfl) | hc) | rfl) | hc <;> first | exact nat_low _ c hc | omega

theorem shows_16 (b k : Nat) : Shows (sgr16 b k) [] := by
  unfold sgr16; split <;> exact shows_1 _

theorem shows_fg (c : Color) (cap : Capability) : Shows (fgSeq c cap) [] := by
  cases cap
  · exact shows_nil
  · exact shows_16 _ _
  · exact shows_256 _ _
  · exact shows_rgb _ _

theorem shows_bg (c : Color) (cap : Capability) : Shows (bgSeq c cap) [] := by
  cases cap
  · exact shows_nil
  · exact shows_16 _ _
  · exact shows_256 _ _
  · exact shows_rgb _ _

theorem shows_border (c : Color) (cap : Capability) : Shows (borderSeq c cap) [] := by
  cases cap
  · exact shows_nil
  · exact shows_16 _ _
  · exact shows_256 _ _
  · exact shows_rgb _ _

theorem shows_wrap {codes l v : Str} (hc : Shows codes []) (h : Shows l v) : Shows (wrapCodes codes l) v := by
  unfold wrapCodes
  split
  · exact h
  · have := (hc.append h).append (shows_1 0)
    simpa [reset] using this

theorem shows_part (c : Bool) {g v : Str} (h : Shows g v) : Shows (part c g) (part c v) := by
  cases c
  · exact shows_nil
  · exact h

theorem shows_colors (s : Sty) : Shows (colorCodes s) [] := by
  unfold colorCodes
  have h1 : Shows ((s.fg.map fun c => fgSeq c s.cap).getD []) [] := by
    cases s.fg with
    | none => exact shows_nil
    | some c => exact shows_fg c _
  have h2 : Shows ((s.bg.map fun c => bgSeq c s.cap).getD []) [] := by
    cases s.bg with
    | none => exact shows_nil
    | some c => exact shows_bg c _
  exact h1.append h2

theorem part_nil (c : Bool) : part c [] = [] := by cases c <;> rfl

theorem shows_deco (s : Sty) : Shows (decoCodes s) [] := by
  unfold decoCodes
  have h := fun (c : Bool) (n : Nat) => shows_part c (shows_1 n)
  have := (((h s.bold 1).append (h s.italic 3)).append (h s.underline 4)).append (h s.strike 9)
  simpa [part_nil] using this

theorem shows_right (code : Str) (hcode : Shows code []) (hasR : Bool) (runes : Str) (h : 27 ∉ runes) :
    Shows (colorRight code hasR runes) runes := by
  unfold colorRight
  split
  · rename_i hh
    simp only [Bool.and_eq_true, Bool.not_eq_true', List.isEmpty_eq_false_iff] at hh
    have hne := hh.2
    have e : runes = runes.dropLast ++ [runes.getLastD 0] := by
      rw [List.getLastD_eq_getLast?, List.getLast?_eq_some_getLast hne]
      exact (List.dropLast_concat_getLast hne).symm
    have hclean : 27 ∉ runes.dropLast ∧ 27 ∉ [runes.getLastD 0] := by
      rw [e] at h
      simp only [List.mem_append, not_or] at h
      exact h
    have := (shows_clean hclean.1).append ((hcode.append (shows_clean hclean.2)).append (shows_1 0))
    simp only [List.nil_append, List.append_nil] at this
    rw [← e] at this
    exact this
  · exact shows_clean h

theorem shows_sides (code : Str) (hcode : Shows code []) (hasL hasR : Bool) (line : Str) (h : 27 ∉ line) :
    Shows (colorSidesWith code hasL hasR line) line := by
  unfold colorSidesWith
  split
  · have hclean : 27 ∉ line.take 1 ∧ 27 ∉ line.drop 1 :=
      ⟨fun hm => h (List.mem_of_mem_take hm), fun hm => h (List.mem_of_mem_drop hm)⟩
    have := ((hcode.append (shows_clean hclean.1)).append (shows_1 0)).append (shows_right code hcode hasR _ hclean.2)
    simp only [List.nil_append, List.append_nil, List.take_append_drop] at this
    exact this
  · exact shows_right code hcode hasR line h

/-- Two lists of lines, the first showing the second, neither with line breaks in a line. -/
inductive ShowLines : List Str → List Str → Prop
  | nil : ShowLines [] []
  | cons {l v : Str} {ls vs : List Str} : Shows l v → 10 ∉ l → 10 ∉ v → ShowLines ls vs →
      ShowLines (l :: ls) (v :: vs)

theorem ShowLines.append {a b c d : List Str} (h1 : ShowLines a b) (h2 : ShowLines c d) : ShowLines (a ++ c) (b ++ d) := by
  induction h1 with
  | nil => exact h2
  | cons p q r _ ih => exact .cons p q r ih

theorem ShowLines.nl {a b : List Str} (h : ShowLines a b) : (∀ l ∈ a, 10 ∉ l) ∧ (∀ l ∈ b, 10 ∉ l) ∧ (a = [] ↔ b = []) := by
  induction h with
  | nil => simp
  | cons p q r _ ih =>
    refine ⟨?_, ?_, by simp⟩
    · intro l hl
      rcases List.mem_cons.1 hl with rfl | hl
      · exact q
      · exact ih.1 l hl
    · intro l hl
      rcases List.mem_cons.1 hl with rfl | hl
      · exact r
      · exact ih.2.1 l hl

theorem ShowLines.join {a b : List Str} (h : ShowLines a b) : Shows (joinNl a) (joinNl b) := by
  induction h with
  | nil => exact shows_nil
  | cons p q r t ih =>
    cases t with
    | nil => exact p
    | cons p' q' r' t' =>
      have hnl : Shows [10] [10] := shows_clean (by decide)
      have := (p.append hnl).append ih
      simpa [joinNl] using this

theorem join_nil (a : List Str) : joinNl a = [] ↔ a = [] ∨ a = [[]] := by
  match a with
  | [] => simp [joinNl]
  | [x] => simp [joinNl]
  | x :: y :: t => simp [joinNl]

theorem ShowLines.map_pad {a b : List Str} (h : ShowLines a b) (l r : Nat) :
    ShowLines (a.map fun x => spaces l ++ x ++ spaces r) (b.map fun x => spaces l ++ x ++ spaces r) := by
  have hs : ∀ n, Shows (spaces n) (spaces n) := fun n =>
    shows_clean (fun h => by have := List.eq_of_mem_replicate h; omega)
  induction h with
  | nil => exact .nil
  | cons p q r' _ ih =>
    refine .cons (((hs _).append p).append (hs _)) ?_ ?_ ih
    · simp only [List.mem_append, not_or]; exact ⟨⟨nl_spaces _, q⟩, nl_spaces _⟩
    · simp only [List.mem_append, not_or]; exact ⟨⟨nl_spaces _, r'⟩, nl_spaces _⟩

/-- No escape character and no line break. -/
def Tidy (g : Str) : Prop := 27 ∉ g ∧ 10 ∉ g

def Border.Tidy (b : Border) : Prop :=
  ∀ g ∈ [b.top, b.bottom, b.left, b.right, b.topLeft, b.topRight, b.bottomLeft, b.bottomRight], Style.Tidy g

theorem tidy_append {a b : Str} (h1 : Tidy a) (h2 : Tidy b) : Tidy (a ++ b) := by
  unfold Tidy at *
  simp only [List.mem_append, not_or]
  exact ⟨⟨h1.1, h2.1⟩, h1.2, h2.2⟩

theorem tidy_part {g : Str} (h : Tidy g) (c : Bool) : Tidy (part c g) := by
  cases c
  · exact ⟨by simp [part], by simp [part]⟩
  · exact h

theorem tidy_rep {g : Str} (h : Tidy g) (n : Nat) : Tidy (rep g n) := by
  induction n with
  | zero => exact ⟨by simp [rep], by simp [rep]⟩
  | succ n ih => exact tidy_append h ih

theorem tidy_spaces (n : Nat) : Tidy (spaces n) :=
  ⟨fun h => by have := List.eq_of_mem_replicate h; omega, nl_spaces n⟩

theorem code_nl {l : Str} (p : Str) (hp : ∀ c ∈ p, c < 0x40 ∧ c ≠ 10) (h : l = csi ++ p ++ [109]) : 10 ∉ l := by
  subst h
  simp only [List.mem_append, not_or, csi]
  refine ⟨⟨by decide, fun hm => (hp _ hm).2 rfl⟩, by decide⟩

theorem nat_low' (n : Nat) : ∀ c ∈ Dec.nat n, c < 0x40 ∧ c ≠ 10 := by
  intro c hc
  have := Dec.nat_digits n c hc
  unfold Dec.isDigit at this
  simp at this
  omega

theorem nl_1 (n : Nat) : 10 ∉ sgr1 n := code_nl _ (nat_low' n) rfl

theorem nl_border (c : Color) (cap : Capability) : 10 ∉ borderSeq c cap := by
  cases cap
  · exact by simp [borderSeq]
  · show 10 ∉ sgr16 _ _
    unfold sgr16; split <;> exact nl_1 _
  · refine code_nl _ ?_ rfl
    intro c hc
    simp only [List.mem_append, List.mem_singleton] at hc
    rcases hc with (((hc | rfl) | hc) | rfl) | hc <;> first | exact nat_low' _ c hc | omega
  · refine code_nl _ ?_ rfl
    intro c hc
    simp only [List.mem_append, List.mem_singleton] at hc
    rcases hc with (((((((hc | rfl) | hc) | rfl) | hc) | rfl) | hc) | rfl) | hc <;> first | exact nat_low' _ c hc | omega

theorem reset_ne : reset ≠ [] := by decide

theorem nl_reset : 10 ∉ reset := nl_1 0

theorem nl_right {code : Str} (hc : 10 ∉ code) (hasR : Bool) {runes : Str} (h : 10 ∉ runes) : 10 ∉ colorRight code hasR runes := by
  unfold colorRight
  split
  · rename_i hh
    simp only [Bool.and_eq_true, Bool.not_eq_true', List.isEmpty_eq_false_iff] at hh
    simp only [List.mem_append, not_or]
    refine ⟨fun hm => h (List.dropLast_subset _ hm), ⟨hc, ?_⟩, nl_reset⟩
    rw [List.getLastD_eq_getLast?, List.getLast?_eq_some_getLast hh.2]
    simp only [Option.getD_some, List.mem_singleton]
    intro e
    exact h (e ▸ List.getLast_mem hh.2)
  · exact h

theorem nl_sidesWith {code : Str} (hc : 10 ∉ code) (hasL hasR : Bool) {line : Str} (h : 10 ∉ line) :
    10 ∉ colorSidesWith code hasL hasR line := by
  unfold colorSidesWith
  split
  · simp only [List.mem_append, not_or]
    exact ⟨⟨⟨hc, fun hm => h (List.mem_of_mem_take hm)⟩, nl_reset⟩, nl_right hc _ (fun hm => h (List.mem_of_mem_drop hm))⟩
  · exact nl_right hc _ h

theorem right_nil (code : Str) (hasR : Bool) (runes : Str) : colorRight code hasR runes = [] ↔ runes = [] := by
  unfold colorRight
  split
  · rename_i hh
    simp only [Bool.and_eq_true, Bool.not_eq_true', List.isEmpty_eq_false_iff] at hh
    constructor
    · intro h; simp at h
    · intro h; exact absurd h hh.2
  · rfl

theorem sidesWith_nil (code : Str) (hasL hasR : Bool) (line : Str) : colorSidesWith code hasL hasR line = [] ↔ line = [] := by
  unfold colorSidesWith
  split
  · rename_i hh
    simp only [Bool.and_eq_true, Bool.not_eq_true', List.isEmpty_eq_false_iff] at hh
    constructor
    · intro h; simp [reset_ne] at h
    · intro h; exact absurd h hh.2
  · exact right_nil _ _ _

theorem colorSides_ok (s : Sty) {line : Str} (h : Tidy line) :
    Shows (colorSides s line) line ∧ 10 ∉ colorSides s line ∧ (colorSides s line = [] ↔ line = []) := by
  unfold colorSides
  cases s.borderColor with
  | none => exact ⟨shows_clean h.1, h.2, Iff.rfl⟩
  | some c =>
    simp only
    split
    · exact ⟨shows_clean h.1, h.2, Iff.rfl⟩
    · exact ⟨shows_sides _ (shows_border c _) _ _ _ h.1, nl_sidesWith (nl_border c _) _ _ h.2, sidesWith_nil _ _ _ _⟩

theorem colorLine_ok (s : Sty) {line : Str} (h : Tidy line) : Shows (colorLine s line) line ∧ 10 ∉ colorLine s line := by
  unfold colorLine
  cases s.borderColor with
  | none => exact ⟨shows_clean h.1, h.2⟩
  | some c =>
    refine ⟨?_, ?_⟩
    · have := ((shows_border c s.cap).append (shows_clean h.1)).append (shows_1 0)
      simpa [reset] using this
    · simp only [List.mem_append, not_or]
      exact ⟨⟨nl_border c _, h.2⟩, nl_reset⟩

theorem plain_sides (s : Sty) : s.plain.hasTop = s.hasTop ∧ s.plain.hasBottom = s.hasBottom ∧ s.plain.hasLeft = s.hasLeft ∧
    s.plain.hasRight = s.hasRight := ⟨rfl, rfl, rfl, rfl⟩

theorem split_clean {x : Str} (h : 27 ∉ x) : ∀ l ∈ splitNl x, Tidy l := by
  intro l hl
  refine ⟨?_, split_no_nl x l hl⟩
  intro hm
  apply h
  have key : ∀ (ls : List Str), l ∈ ls → 27 ∈ l → 27 ∈ joinNl ls := by
    intro ls
    induction ls with
    | nil => intro h; cases h
    | cons a t ih =>
      intro h1 h2
      cases t with
      | nil => simp at h1; subst h1; exact h2
      | cons b t =>
        rw [joinNl]
        · rcases List.mem_cons.1 h1 with rfl | h1
          · exact List.mem_append_left _ h2
          · exact List.mem_append_right _ (List.mem_cons_of_mem _ (ih h1 h2))
        · simp
  have := key _ hl hm
  rwa [join_split] at this

theorem borderLines_show (W : Str → Nat) (s : Sty) (b : Border) (hb : b.Tidy) (ls : List Str) (hne : ls ≠ []) (hl : ∀ l ∈ ls, Tidy l) :
    ShowLines (borderLines W s b ls) (borderLines W s.plain b ls) ∧ (borderLines W s b ls = [[]] ↔ borderLines W s.plain b ls = [[]]) := by
  have g : ∀ x, x ∈ [b.top, b.bottom, b.left, b.right, b.topLeft, b.topRight, b.bottomLeft, b.bottomRight] → Tidy x := hb
  have edge : ∀ (l m r : Str) (n : Nat), Tidy l → Tidy m → Tidy r → Tidy (edgeLine l m r n s.hasLeft s.hasRight) := by
    intro l m r n h1 h2 h3
    exact tidy_append (tidy_append (tidy_part h1 _) (tidy_rep h2 _)) (tidy_part h3 _)
  have cont : ∀ l ∈ ls, Tidy (contentLine W l b (maxOf (ls.map W)) s.hasLeft s.hasRight) := by
    intro l hx
    exact tidy_append (tidy_append (tidy_part (g _ (by simp)) _) (tidy_append (hl l hx) (tidy_spaces _))) (tidy_part (g _ (by simp)) _)
  have hpl : ∀ x, colorLine s.plain x = x := fun _ => rfl
  have hps : ∀ x, colorSides s.plain x = x := fun _ => rfl
  have hmid : ∀ (xs : List Str), (∀ l ∈ xs, l ∈ ls) →
      ShowLines (xs.map fun l => colorSides s (contentLine W l b (maxOf (ls.map W)) s.hasLeft s.hasRight))
        (xs.map fun l => contentLine W l b (maxOf (ls.map W)) s.hasLeft s.hasRight) := by
    intro xs
    induction xs with
    | nil => intro _; exact .nil
    | cons a t ih =>
      intro hx
      have c := cont a (hx a (by simp))
      exact .cons (colorSides_ok s c).1 (colorSides_ok s c).2.1 c.2 (ih fun l hl => hx l (List.mem_cons_of_mem _ hl))
  refine ⟨?_, ?_⟩
  · unfold borderLines
    simp only [hpl, hps, (plain_sides s).1, (plain_sides s).2.1, (plain_sides s).2.2.1, (plain_sides s).2.2.2]
    refine ShowLines.append (ShowLines.append ?_ (hmid ls fun _ h => h)) ?_
    · split
      · have c := edge b.topLeft b.top b.topRight (maxOf (ls.map W)) (g _ (by simp)) (g _ (by simp)) (g _ (by simp))
        exact .cons (colorLine_ok s c).1 (colorLine_ok s c).2 c.2 .nil
      · exact .nil
    · split
      · have c := edge b.bottomLeft b.bottom b.bottomRight (maxOf (ls.map W)) (g _ (by simp)) (g _ (by simp)) (g _ (by simp))
        exact .cons (colorLine_ok s c).1 (colorLine_ok s c).2 c.2 .nil
      · exact .nil
  · unfold borderLines
    simp only [hpl, hps, (plain_sides s).1, (plain_sides s).2.1, (plain_sides s).2.2.1, (plain_sides s).2.2.2]
    obtain ⟨a, t, rfl⟩ := List.exists_cons_of_ne_nil hne
    have c := (colorSides_ok s (cont a (by simp))).2.2
    simp only [List.map_cons] at c ⊢
    cases s.hasTop <;> cases s.hasBottom <;> simp [c]

theorem borderRender_show (W : Str → Nat) (s : Sty) (hb : ∀ b, s.border = some b → b.Tidy) (x : Str) (hx : 27 ∉ x) :
    ∃ ls vs : List Str, ShowLines ls vs ∧ ls ≠ [] ∧ borderRender W s x = joinNl ls ∧ borderRender W s.plain x = joinNl vs ∧
      (ls = [[]] ↔ vs = [[]]) := by
  have tid := split_clean hx
  have triv : ∃ ls vs : List Str, ShowLines ls vs ∧ ls ≠ [] ∧ x = joinNl ls ∧ x = joinNl vs ∧ (ls = [[]] ↔ vs = [[]]) := by
    refine ⟨splitNl x, splitNl x, ?_, split_ne x, (join_split x).symm, (join_split x).symm, Iff.rfl⟩
    revert tid
    generalize splitNl x = ys
    intro tid
    induction ys with
    | nil => exact .nil
    | cons a t ih =>
      have c := tid a (by simp)
      exact .cons (shows_clean c.1) c.2 c.2 (ih fun l hl => tid l (List.mem_cons_of_mem _ hl))
  have e0 : s.plain.border = s.border := rfl
  unfold borderRender
  rw [e0]
  cases hbd : s.border with
  | none => exact triv
  | some b =>
    simp only
    by_cases hh : (!s.hasTop && !s.hasBottom && !s.hasLeft && !s.hasRight) = true
    · rw [if_pos hh]
      rw [if_pos (show (!s.plain.hasTop && !s.plain.hasBottom && !s.plain.hasLeft && !s.plain.hasRight) = true from hh)]
      exact triv
    · rw [if_neg hh]
      rw [if_neg (show ¬ (!s.plain.hasTop && !s.plain.hasBottom && !s.plain.hasLeft && !s.plain.hasRight) = true from hh)]
      obtain ⟨h1, h2⟩ := borderLines_show W s b (hb b hbd) (splitNl x) (split_ne x) tid
      refine ⟨_, _, h1, ?_, rfl, rfl, h2⟩
      unfold borderLines
      simp [split_ne]

theorem clean_join {ls : List Str} (h : ∀ l ∈ ls, 27 ∉ l) : 27 ∉ joinNl ls := by
  induction ls with
  | nil => simp [joinNl]
  | cons a t ih =>
    cases t with
    | nil => exact h a (by simp)
    | cons b t =>
      have := ih fun l hl => h l (List.mem_cons_of_mem _ hl)
      show 27 ∉ a ++ 10 :: joinNl (b :: t)
      simp only [List.mem_append, List.mem_cons, not_or]
      exact ⟨h a (by simp), by decide, this⟩

theorem byteTake_clean {x : Str} (h : 27 ∉ x) (n : Nat) : 27 ∉ byteTake x n := by
  induction x generalizing n with
  | nil => simp [byteTake]
  | cons c t ih =>
    simp only [List.mem_cons, not_or] at h
    rw [byteTake]
    split
    · simp only [List.mem_cons, not_or]; exact ⟨h.1, ih h.2 _⟩
    · intro hm; have := List.eq_of_mem_replicate hm; omega

theorem alignH_clean (W : Str → Nat) {x : Str} (h : 27 ∉ x) (w : Nat) (a : Align) : 27 ∉ alignH W x w a := by
  unfold alignH
  have sp := fun n => (tidy_spaces n).1
  split
  · exact byteTake_clean h w
  · split
    · exact h
    · cases a <;> simp [List.mem_append, h, sp]

theorem alignV_clean (W : Str → Nat) {x : Str} (h : 27 ∉ x) (n : Nat) (a : Align) : 27 ∉ alignV W x n a := by
  have tid := split_clean h
  unfold alignV
  apply clean_join
  intro l hl
  have sp := fun n => (tidy_spaces n).1
  unfold alignVLines at hl
  split at hl
  · exact (tid l (List.mem_of_mem_take hl)).1
  · split at hl
    · exact (tid l hl).1
    · cases a <;> simp only [List.mem_append, List.mem_replicate] at hl
      · rcases hl with hl | ⟨_, rfl⟩
        · exact (tid l hl).1
        · exact sp _
      · rcases hl with (⟨_, rfl⟩ | hl) | ⟨_, rfl⟩
        · exact sp _
        · exact (tid l hl).1
        · exact sp _
      · rcases hl with ⟨_, rfl⟩ | hl
        · exact sp _
        · exact (tid l hl).1

theorem alignStep_clean (W : Str → Nat) (s : Sty) {x : Str} (h : 27 ∉ x) : 27 ∉ alignStep W s x := by
  unfold alignStep
  cases s.align with
  | none => exact h
  | some hv =>
    simp only
    split
    · unfold alignBoth
      apply alignV_clean
      apply clean_join
      intro l hl
      obtain ⟨y, hy, rfl⟩ := List.mem_map.1 hl
      exact alignH_clean W (split_clean h y hy).1 _ _
    · split
      · exact alignH_clean W h _ _
      · split
        · exact alignV_clean W h _ _
        · exact h

theorem spaceStep_clean (W : Str → Nat) (p : Option Sides) {x : Str} (h : 27 ∉ x) : 27 ∉ spaceStep W p x := by
  unfold spaceStep
  cases p with
  | none => exact h
  | some p =>
    simp only [applySpacing]
    split
    · simp
    · apply clean_join
      intro l hl
      have tid := split_clean h
      have sp := fun n => (tidy_spaces n).1
      unfold spaceLines at hl
      simp only [List.mem_append, List.mem_replicate, List.mem_map] at hl
      rcases hl with (⟨_, rfl⟩ | ⟨y, hy, rfl⟩) | ⟨_, rfl⟩
      · exact sp _
      · simp only [List.mem_append, not_or]; exact ⟨⟨sp _, (tid y hy).1⟩, sp _⟩
      · exact sp _

/-- C93.  Colours and decorations never change the text: what a terminal shows of the styled
output is the output of the same style without colours and decorations.  Partial: styles with both
a border colour and a vertical margin are excluded, see `C93_refuted`. -/
theorem C93_text_partial (W : Str → Nat) (s : Sty) (text : Str) (ht : 27 ∉ text) (hb : ∀ b, s.border = some b → b.Tidy)
    (hm : s.borderColor = none ∨ ∀ m, s.margin = some m → m.top = 0 ∧ m.bottom = 0) :
    strip .text (render W s text) = render W s.plain text := by
  have hex : ∀ t : Sty, render W t text = if t.valid && constraintsOk W t text then pipeline W t text else text := by
    intro t
    unfold render execute
    split <;> rfl
  rw [hex, hex]
  show _ = if s.valid && constraintsOk W s text then pipeline W s.plain text else text
  split
  · apply Shows.strip
    unfold pipeline
    have hpc : colorCodes s.plain = [] := rfl
    have hpd : decoCodes s.plain = [] := rfl
    rw [hpc, hpd]
    show Shows _ (spaceStep W s.margin (borderRender W s.plain (spaceStep W s.padding (alignStep W s text))))
    apply shows_wrap (shows_deco s)
    apply shows_wrap (shows_colors s)
    have hclean := spaceStep_clean W s.padding (alignStep_clean W s ht)
    generalize spaceStep W s.padding (alignStep W s text) = x at hclean
    rcases hm with hm | hm
    · have : borderRender W s x = borderRender W s.plain x := by
        unfold borderRender
        show (match s.border with | none => x | some b => _) = (match s.border with | none => x | some b => _)
        cases s.border with
        | none => rfl
        | some b =>
          have : borderLines W s b = borderLines W s.plain b := by
            funext ls
            unfold borderLines colorLine colorSides
            rw [hm]
            rfl
          simp only [this]
          rfl
      rw [this]
      apply shows_clean
      apply spaceStep_clean
      have tid := split_clean hclean
      unfold borderRender
      show 27 ∉ (match s.border with | none => x | some b => _)
      cases hbd : s.border with
      | none => exact hclean
      | some b =>
        simp only
        split
        · exact hclean
        · apply clean_join
          have g : ∀ x, x ∈ [b.top, b.bottom, b.left, b.right, b.topLeft, b.topRight, b.bottomLeft, b.bottomRight] → Tidy x := hb b hbd
          intro l hl
          unfold borderLines colorLine colorSides at hl
          simp only [List.mem_append, List.mem_map] at hl
          rcases hl with (hl | ⟨y, hy, rfl⟩) | hl
          · split at hl
            · simp only [List.mem_singleton] at hl
              subst hl
              exact (tidy_append (tidy_append (tidy_part (g _ (by simp)) _) (tidy_rep (g _ (by simp)) _)) (tidy_part (g _ (by simp)) _)).1
            · cases hl
          · exact (tidy_append (tidy_append (tidy_part (g _ (by simp)) _) (tidy_append (tid y hy) (tidy_spaces _))) (tidy_part (g _ (by simp)) _)).1
          · split at hl
            · simp only [List.mem_singleton] at hl
              subst hl
              exact (tidy_append (tidy_append (tidy_part (g _ (by simp)) _) (tidy_rep (g _ (by simp)) _)) (tidy_part (g _ (by simp)) _)).1
            · cases hl
    · obtain ⟨ls, vs, h1, h2, h3, h4, h5⟩ := borderRender_show W s hb x hclean
      rw [h3, h4]
      cases hmg : s.margin with
      | none => exact h1.join
      | some m =>
        obtain ⟨m1, m2⟩ := hm m hmg
        obtain ⟨n1, n2, n3⟩ := h1.nl
        have h2' : vs ≠ [] := fun e => h2 (n3.2 e)
        show Shows (applySpacing W _ m) (applySpacing W _ m)
        unfold applySpacing
        by_cases he : joinNl ls = []
        · rw [if_pos he]
          rw [if_pos]
          · exact shows_nil
          · rw [join_nil] at he ⊢
            rcases he with he | he
            · exact absurd he h2
            · exact Or.inr (h5.1 he)
        · rw [if_neg he]
          rw [if_neg]
          · rw [split_join ls h2 n1, split_join vs h2' n2]
            unfold spaceLines
            rw [m1, m2]
            simp only [List.replicate_zero, List.nil_append, List.append_nil]
            exact (h1.map_pad _ _).join
          · rw [join_nil] at he ⊢
            rintro (e | e)
            · exact h2' e
            · exact he (Or.inr (h5.2 e))
  · exact (shows_clean ht).strip

/-- The full claim, with a border colour and a margin. -/
def C93_statement : Prop :=
  ∀ (W : Str → Nat) (s : Sty) (text : Str), Sums W → 27 ∉ text → (∀ b, s.border = some b → b.Tidy) →
    strip .text (render W s text) = render W s.plain text

/-- A width in which an escape character takes no column and every other character one. -/
def escW (s : Str) : Nat := (s.map fun c => if c = 27 then 0 else 1).sum

theorem escW_sums : Sums escW := ⟨rfl, fun a b => by simp [escW], rfl⟩

/-- C93 is false: the blank lines of a margin are as wide as the first line *including* its colour
codes, so a coloured border with a margin gets blank lines that are too long. -/
theorem C93_refuted : ¬ C93_statement := by
  intro h
  have := h escW { (Sty.new.setBorder ⟨[45], [45], [124], [124], [43], [43], [43], [43]⟩) with
    borderColor := some ⟨1, 2, 3⟩, margin := some ⟨1, 0, 0, 0⟩ } [97] escW_sums (by decide)
    (by intro b hb; cases hb; unfold Border.Tidy Tidy; decide)
  revert this
  decide +kernel

/-- The hypotheses hold for a bold red text in a blue border. -/
example :
    let s : Sty := { (Sty.new.setBorder ⟨[45], [45], [124], [124], [43], [43], [43], [43]⟩) with
      borderColor := some ⟨0, 0, 255⟩, fg := some ⟨255, 0, 0⟩, bold := true, margin := some ⟨0, 3, 0, 3⟩ }
    (27 ∉ ([97, 98] : Str)) ∧ (∀ b, s.border = some b → b.Tidy) ∧ (∀ m, s.margin = some m → m.top = 0 ∧ m.bottom = 0) ∧
      render escW s [97, 98] ≠ render escW s.plain [97, 98] := by
  refine ⟨by decide, ?_, ?_, by decide +kernel⟩
  · intro b hb; cases hb; unfold Border.Tidy Tidy; decide
  · intro m hm; cases hm; decide

/-! ### C94 -/

theorem constraints_aux (W : Str → Nat) (s : Sty) (hv : s.valid = true) (text : Str) (z : Size) (hz : s.size = some z) :
    let w := (outerSize W s text).1
    let h := (outerSize W s text).2
    ((∀ m, z.minWidth = some m → m ≤ w) ∧ (∀ m, z.maxWidth = some m → w ≤ m) ∧
      (∀ m, z.minHeight = some m → m ≤ h) ∧ (∀ m, z.maxHeight = some m → h ≤ m) → render W s text = pipeline W s text) ∧
    (¬ ((∀ m, z.minWidth = some m → m ≤ w) ∧ (∀ m, z.maxWidth = some m → w ≤ m) ∧
      (∀ m, z.minHeight = some m → m ≤ h) ∧ (∀ m, z.maxHeight = some m → h ≤ m)) → render W s text = text) := by
  intro w h
  have hany : ∀ (o : Option Nat) (p : Nat → Bool), (!(o.any p)) = true ↔ ∀ m, o = some m → p m = false := by
    intro o p
    cases o <;> simp
  have key : constraintsOk W s text = true ↔ ((∀ m, z.minWidth = some m → m ≤ w) ∧ (∀ m, z.maxWidth = some m → w ≤ m) ∧
      (∀ m, z.minHeight = some m → m ≤ h) ∧ (∀ m, z.maxHeight = some m → h ≤ m)) := by
    unfold constraintsOk
    rw [hz]
    simp only [sizeOk, Bool.and_eq_true, hany, decide_eq_false_iff_not, Nat.not_lt, and_assoc, gt_iff_lt]
    rfl
  rw [← key]
  unfold render execute
  rw [hv]
  constructor
  · intro hk; rw [hk]; rfl
  · intro hk
    cases hc : constraintsOk W s text with
    | true => exact absurd hc hk
    | false => rfl

/-- C94.  Constraints decide whether a style is applied at all.  For a text whose widest line is
`widest` wide: the style is applied exactly when widest line + horizontal padding + 2 for a border with
a left or right side + horizontal margin, and the same vertically with the number of lines, are within
all limits; otherwise Render returns the content itself. -/
theorem C94_constraints_partial (W : Str → Nat) (s : Sty) (hv : s.valid = true) (text : Str) (ls : List Str) (hl : Lines text ls)
    (widest : Nat) (hw1 : ∀ l ∈ ls, W l ≤ widest) (hw2 : ∃ l ∈ ls, W l = widest) (z : Size) (hz : s.size = some z) :
    let p := sidesOf s.padding
    let m := sidesOf s.margin
    let w := widest + p.left + p.right + m.left + m.right +
      (if s.border ≠ none ∧ (s.bLeft = true ∨ s.bRight = true) then 2 else 0)
    let h := ls.length + p.top + p.bottom + m.top + m.bottom +
      (if s.border ≠ none ∧ (s.bTop = true ∨ s.bBottom = true) then 2 else 0)
    ((∀ m, z.minWidth = some m → m ≤ w) ∧ (∀ m, z.maxWidth = some m → w ≤ m) ∧
      (∀ m, z.minHeight = some m → m ≤ h) ∧ (∀ m, z.maxHeight = some m → h ≤ m) → render W s text = pipeline W s text) ∧
    (¬ ((∀ m, z.minWidth = some m → m ≤ w) ∧ (∀ m, z.maxWidth = some m → w ≤ m) ∧
      (∀ m, z.minHeight = some m → m ≤ h) ∧ (∀ m, z.maxHeight = some m → h ≤ m)) → render W s text = text) := by
  intro p m w h
  have hmax : maxOf (ls.map W) = widest := by
    apply Nat.le_antisymm
    · apply maxOf_le
      intro x hx
      obtain ⟨l, hl', rfl⟩ := List.mem_map.1 hx
      exact hw1 l hl'
    · obtain ⟨l, hl', rfl⟩ := hw2
      exact le_maxOf (List.mem_map.2 ⟨l, hl', rfl⟩)
  have hs : splitNl text = ls := (lines_iff text ls).1 hl
  have hb : ∀ x y : Bool, ((x && s.border.isSome || y && s.border.isSome) = true) ↔ (s.border ≠ none ∧ (x = true ∨ y = true)) := by
    intro x y
    cases s.border <;> cases x <;> cases y <;> simp
  have hw : (outerSize W s text).1 = w := by
    change maxOf ((splitNl text).map W) + (p.left + p.right) + (if (s.hasLeft || s.hasRight) = true then 2 else 0) + (m.left + m.right) = _
    rw [hs, hmax]
    simp only [Sty.hasLeft, Sty.hasRight, hb]
    omega
  have hh : (outerSize W s text).2 = h := by
    change (splitNl text).length + (p.top + p.bottom) + (if (s.hasTop || s.hasBottom) = true then 2 else 0) + (m.top + m.bottom) = _
    rw [hs]
    simp only [Sty.hasTop, Sty.hasBottom, hb]
    omega
  have := constraints_aux W s hv text z hz
  rw [hw, hh] at this
  exact this

example : let s : Sty := { (Sty.new.setBorder ⟨[45], [45], [124], [124], [43], [43], [43], [43]⟩) with
      size := some ⟨none, none, none, some 5, none, none⟩, padding := some ⟨0, 1, 0, 1⟩ }
    s.valid = true ∧ Lines [97, 10, 97, 97] [[97], [97, 97]] ∧ render wideW s [97, 10, 97, 97] = [97, 10, 97, 97] ∧
      render wideW s [97] ≠ [97] := by
  refine ⟨by decide, ⟨by decide, by decide, by decide⟩, by decide +kernel, by decide +kernel⟩

/-- The full claim: `MaxWidth(m)` bounds the width of the output. -/
def C94_max_statement : Prop :=
  ∀ (W : Str → Nat) (s : Sty) (text : Str) (z : Size) (m : Nat), Sums W → s.valid = true → s.size = some z →
    z.maxWidth = some m → ∀ l ∈ splitNl (render W s text), W l ≤ m

/-- C94 is false: content that is too wide is returned whole. -/
theorem C94_max_refuted : ¬ C94_max_statement := by
  intro h
  have := h wideW { Sty.new with size := some ⟨none, none, none, some 2, none, none⟩ } [97, 97, 97] _ 2 wideW_sums rfl rfl rfl
    [97, 97, 97] (by decide)
  revert this
  decide

/-- ValidateWidth / ValidateHeight: the result never exceeds the maximum and, when the limits are
consistent, never falls below the minimum; a value inside the limits is unchanged. -/
theorem C94_clamp (lo hi : Option Nat) (w : Nat) :
    (∀ m, hi = some m → clampSize lo hi w ≤ m) ∧
    ((∀ a b, lo = some a → hi = some b → a ≤ b) → ∀ a, lo = some a → a ≤ clampSize lo hi w) ∧
    ((∀ a, lo = some a → a ≤ w) → (∀ b, hi = some b → w ≤ b) → clampSize lo hi w = w) := by
  unfold clampSize
  cases lo with
  | none =>
    cases hi with
    | none => simp
    | some b =>
      simp only [Option.some.injEq]
      refine ⟨fun m hm => ?_, fun _ a ha => (by cases ha), fun _ h => ?_⟩
      · split <;> omega
      · have := h b rfl; split <;> omega
  | some a =>
    cases hi with
    | none =>
      simp only [Option.some.injEq]
      refine ⟨fun m hm => (by cases hm), fun _ a' ha => ?_, fun h _ => ?_⟩
      · split <;> omega
      · have := h a rfl; split <;> omega
    | some b =>
      simp only [Option.some.injEq]
      refine ⟨fun m hm => ?_, fun h a' ha => ?_, fun h h' => ?_⟩
      · (repeat' split) <;> omega
      · have := h a b rfl rfl; (repeat' split) <;> omega
      · have := h a rfl; have := h' b rfl; (repeat' split) <;> omega
example := (C94_clamp (some 3) (some 8) 12).1 8 rfl
example := (C94_clamp (some 3) (some 8) 1).2.1 (by intro a b h1 h2; cases h1; cases h2; decide) 3 rfl


end Phoenix.Style
