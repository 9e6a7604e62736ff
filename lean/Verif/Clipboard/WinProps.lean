import Verif.Clipboard.WinModel
/-
C143: the Windows clipboard gives back the text put into it, in standard UTF-16.
C144: what Write reads.
C145: Write and Read when system calls fail.
-/
set_option linter.unusedVariables false
set_option linter.unusedSimpArgs false

namespace Phoenix.Clip.Win

/-- Specification: `us` is the standard UTF-16 form of `c` (Unicode standard, table 3-5). -/
def IsUTF16 (c : Char) (us : List Nat) : Prop :=
  (c.toNat < 0x10000 ∧ us = [c.toNat]) ∨
  (∃ hi lo, 0xD800 ≤ hi ∧ hi ≤ 0xDBFF ∧ 0xDC00 ≤ lo ∧ lo ≤ 0xDFFF ∧ us = [hi, lo] ∧
    c.toNat = 0x10000 + (hi - 0xD800) * 0x400 + (lo - 0xDC00))

/-- Specification: `us` is the UTF-16 form of `text`, no terminator. -/
inductive UTF16 : List Char → List Nat → Prop
  | nil : UTF16 [] []
  | cons {c text a us} : IsUTF16 c a → UTF16 text us → UTF16 (c :: text) (a ++ us)

theorem char_lt (c : Char) : c.toNat < 0xD800 ∨ (0xDFFF < c.toNat ∧ c.toNat < 0x110000) := c.valid

theorem runeToChar_toNat (c : Char) : runeToChar c.toNat = c := by
  unfold runeToChar
  have hv : c.toNat.isValidChar := c.valid
  rw [dif_pos hv]
  rfl

theorem unitsOf_spec (c : Char) : IsUTF16 c (unitsOf c) := by
  unfold IsUTF16 unitsOf
  have := char_lt c
  by_cases h : c.toNat < 0x10000
  · left; simp [h]
  · right
    refine ⟨_, _, ?_, ?_, ?_, ?_, if_neg h, ?_⟩ <;>
    (have e : (c.toNat - 0x10000) &&& 0x3FF = (c.toNat - 0x10000) % 0x400 := Nat.and_two_pow_sub_one_eq_mod _ 10
     try rw [Nat.shiftRight_eq_div_pow]
     try rw [e]
     omega)

theorem utf16_unique {c : Char} {a b : List Nat} (ha : IsUTF16 c a) (hb : IsUTF16 c b) : a = b := by
  rcases ha with ⟨h, rfl⟩ | ⟨hi, lo, h1, h2, h3, h4, rfl, h5⟩ <;>
  rcases hb with ⟨g, rfl⟩ | ⟨hi', lo', g1, g2, g3, g4, rfl, g5⟩
  · rfl
  · omega
  · omega
  · have e1 : hi = hi' := by omega
    have e2 : lo = lo' := by omega
    rw [e1, e2]

theorem encode_spec (text : List Char) : UTF16 text (text.flatMap unitsOf) := by
  induction text with
  | nil => exact .nil
  | cons c t ih => exact .cons (unitsOf_spec c) ih

theorem or_add (a b : Nat) (hb : b < 0x400) : (a <<< 10) ||| b = a * 0x400 + b := by
  rw [← Nat.shiftLeft_add_eq_or_of_lt (i := 10) hb, Nat.shiftLeft_eq]

theorem decode_single (r : Nat) (us : List Nat) (h : r < 0xD800 ∨ 0xDC00 ≤ r) :
    decode (r :: us) = runeToChar r :: decode us := by
  cases us with
  | nil => simp [decode]
  | cons b t => rw [decode, if_neg (by omega)]

theorem decode_utf16 {text : List Char} {us : List Nat} (h : UTF16 text us) : decode us = text := by
  induction h with
  | nil => rfl
  | @cons c text a us hc _ ih =>
    have := char_lt c
    rcases hc with ⟨h, rfl⟩ | ⟨hi, lo, h1, h2, h3, h4, rfl, h5⟩
    · show decode (c.toNat :: us) = _
      rw [decode_single _ _ (by omega), ih, runeToChar_toNat]
    · show decode (hi :: lo :: us) = _
      rw [decode, if_pos ⟨h1, by omega, h3, by omega⟩, or_add _ _ (by omega), ih,
        show (hi - 0xD800) * 0x400 + (lo - 0xDC00) + 0x10000 = c.toNat by omega, runeToChar_toNat]

theorem char_zero (c : Char) : c.toNat = 0 ↔ c = Char.ofNat 0 := by
  constructor
  · intro h
    have := runeToChar_toNat c
    rw [← this, h]
    rfl
  · rintro rfl; rfl

theorem unit_ne_zero {c : Char} {a : List Nat} (h : IsUTF16 c a) (hc : c ≠ Char.ofNat 0) : ∀ u ∈ a, u ≠ 0 := by
  have hz : c.toNat ≠ 0 := fun h => hc ((char_zero c).1 h)
  rcases h with ⟨h, rfl⟩ | ⟨hi, lo, h1, h2, h3, h4, rfl, h5⟩
  · intro u hu; simp at hu; omega
  · intro u hu; simp at hu; omega

theorem takeWhile_append_zero (us rest : List Nat) (h : ∀ u ∈ us, u ≠ 0) :
    (us ++ 0 :: rest).takeWhile (· != 0) = us := by
  induction us with
  | nil => simp
  | cons a t ih =>
    have ha : a ≠ 0 := h a (by simp)
    rw [List.cons_append, List.takeWhile_cons_of_pos (by simpa using ha), ih (fun u hu => h u (by simp [hu]))]

/-- Reading any block that holds the UTF-16 form of a text without NUL, then a zero. -/
theorem readText_utf16 {text : List Char} {us : List Nat} (h : UTF16 text us)
    (hz : Char.ofNat 0 ∉ text) (rest : List Nat) : readText (us ++ 0 :: rest) = text := by
  have hu : ∀ u ∈ us, u ≠ 0 := by
    clear rest
    induction h with
    | nil => simp
    | @cons c text a us hc _ ih =>
      intro u hu
      rcases List.mem_append.1 hu with h | h
      · exact unit_ne_zero hc (fun e => hz (by simp [e])) u h
      · exact ih (fun m => hz (by simp [m])) u h
  unfold readText
  rw [takeWhile_append_zero us rest hu, decode_utf16 h]

theorem size_units (c : Char) : (unitsOf c).length ≤ c.utf8Size := by
  unfold unitsOf
  have : 0 < c.utf8Size := Char.utf8Size_pos c
  by_cases h : c.toNat < 0x10000
  · simp [h]; omega
  · rw [if_neg h]
    have h4 : c.utf8Size = 4 := by
      unfold Char.utf8Size
      have hv : c.val.toNat = c.toNat := rfl
      have l1 : ¬ c.val ≤ 127 := by rw [UInt32.le_iff_toNat_le]; simp; omega
      have l2 : ¬ c.val ≤ 0x7FF := by rw [UInt32.le_iff_toNat_le]; simp; omega
      have l3 : ¬ c.val ≤ 0xFFFF := by rw [UInt32.le_iff_toNat_le]; simp; omega
      simp [l1, l2, l3]
    simp [h4]

theorem units_le (text : List Char) : (text.flatMap unitsOf).length ≤ byteLen text := by
  induction text with
  | nil => simp [byteLen]
  | cons c t ih =>
    have := size_units c
    simp only [List.flatMap_cons, List.length_append, byteLen, List.map_cons, List.sum_cons] at *
    omega

theorem copied_eq (text : List Char) : copied text = byteLen text + 1 := by
  unfold copied; omega

/-- The copy always takes the whole text with its terminator; what follows it is not the text's. -/
theorem copy_shape (g : Nat → Nat) (text : List Char) :
    ∃ rest, copy g text = text.flatMap unitsOf ++ 0 :: rest := by
  have := units_le text
  unfold copy
  rw [copied_eq, List.take_append, List.take_of_length_le (by unfold encode; rw [List.length_append]; simp only [List.length_cons, List.length_nil]; omega)]
  exact ⟨_, by simp [encode]; rfl⟩

/-- C143: what another program finds in the clipboard after a Write is the standard UTF-16 form of
the text followed by a zero, for every text, and whatever the memory behind the text holds. -/
theorem C143_standard_units (g : Nat → Nat) (text : List Char) (s : Sys) :
    ∃ us rest, UTF16 text us ∧ (write allOk g (some text) s).2 = true ∧
      (write allOk g (some text) s).1.clip = some (us ++ 0 :: rest) := by
  obtain ⟨rest, h⟩ := copy_shape g text
  exact ⟨_, rest, encode_spec text, rfl, by rw [← h]; rfl⟩

/-- C143: Write then Read gives back the text: every nonempty text of any length without a NUL
character, whatever the clipboard held before and whatever lies in memory behind the copies. -/
theorem C143_write_read (g : Nat → Nat) (behind : List Nat) (text : List Char) (s : Sys)
    (hne : text ≠ []) (hz : Char.ofNat 0 ∉ text) :
    (read allOk behind (write allOk g (some text) s).1).2 = some text := by
  obtain ⟨rest, h⟩ := copy_shape g text
  have hr : readText (copy g text ++ behind) = text := by
    rw [h, List.append_assoc]
    exact readText_utf16 (encode_spec text) hz (rest ++ behind)
  simp [write, read, allOk, hr, hne]

/-- C143: reading what any other program stored: well-formed UTF-16, then a zero. -/
theorem C143_read_foreign (behind us rest : List Nat) (text : List Char) (s : Sys)
    (hu : UTF16 text us) (hne : text ≠ []) (hz : Char.ofNat 0 ∉ text) (hc : s.clip = some (us ++ 0 :: rest)) :
    (read allOk behind s).2 = some text := by
  have hr : readText (us ++ 0 :: (rest ++ behind)) = text := readText_utf16 hu hz (rest ++ behind)
  simp [read, allOk, hc, hr, hne]

/-- C143, the limit: a text with a NUL character comes back cut at the NUL. -/
theorem C143_cut_at_nul (g : Nat → Nat) (behind : List Nat) (a b : List Char) (s : Sys)
    (hne : a ≠ []) (hz : Char.ofNat 0 ∉ a) :
    (read allOk behind (write allOk g (some (a ++ Char.ofNat 0 :: b)) s).1).2 = some a := by
  obtain ⟨rest, h⟩ := copy_shape g (a ++ Char.ofNat 0 :: b)
  have hr : readText (copy g (a ++ Char.ofNat 0 :: b) ++ behind) = a := by
    rw [h, List.flatMap_append, List.flatMap_cons, show unitsOf (Char.ofNat 0) = [0] by decide]
    have := readText_utf16 (encode_spec a) hz (b.flatMap unitsOf ++ 0 :: rest ++ behind)
    simpa [List.append_assoc] using this
  simp [write, read, allOk, hr, hne]

/-- Non-trivial case: BMP and supplementary characters, an emoji and a euro sign. -/
example : encode ['a', '€', '😀'] = [97, 0x20AC, 0xD83D, 0xDE00, 0] := by decide +kernel
example : (read allOk [7, 7] (write allOk (fun i => i + 5) (some ['a', '€', '😀']) ⟨none, false, 0, 0⟩).1).2
    = some ['a', '€', '😀'] :=
  C143_write_read _ _ _ _ (by decide) (by decide)
example : UTF16 ['😀'] [0xD83D, 0xDE00] := by
  have := encode_spec ['😀']
  exact this

/-- C144 (what is true): a Write of pure ASCII text copies exactly the text's units and the
terminator and nothing from the memory behind. Missing: see `C144_overread_refuted`. -/
theorem C144_ascii_exact_partial (g : Nat → Nat) (text : List Char) (h : ∀ c ∈ text, c.toNat < 128) :
    copy g text = text.map Char.toNat ++ [0] ∧ copied text = (encode text).length := by
  have key : ∀ t : List Char, (∀ c ∈ t, c.toNat < 128) →
      t.flatMap unitsOf = t.map Char.toNat ∧ byteLen t = t.length := by
    intro t
    induction t with
    | nil => simp [byteLen]
    | cons c t ih =>
      intro ht
      have hc : c.toNat < 128 := ht c (by simp)
      obtain ⟨i1, i2⟩ := ih (fun x hx => ht x (by simp [hx]))
      have hu : unitsOf c = [c.toNat] := by unfold unitsOf; rw [if_pos (by omega)]
      have hs : c.utf8Size = 1 := by
        unfold Char.utf8Size
        have hv : c.val.toNat = c.toNat := rfl
        have l1 : c.val ≤ 127 := by rw [UInt32.le_iff_toNat_le]; simp; omega
        simp [l1]
      constructor
      · rw [List.flatMap_cons, i1, hu]; rfl
      · simp only [byteLen, List.map_cons, List.sum_cons, List.length_cons] at *; omega
  obtain ⟨k1, k2⟩ := key text h
  have hl : copied text = (encode text).length := by
    rw [copied_eq, k2]; simp [encode, k1]
  refine ⟨?_, hl⟩
  unfold copy
  rw [hl, List.take_append, List.take_of_length_le (Nat.le_refl _), Nat.sub_self]
  simp [encode, k1]

/-- C144 refuted in general: a text with any character outside ASCII makes Write copy units from
behind its own buffer, so that the clipboard shows other programs memory that is not the text's. -/
theorem C144_overread_refuted (text : List Char) (c : Char) (hc : c ∈ text) (h128 : 128 ≤ c.toNat) :
    (encode text).length < copied text := by
  have hlt : (unitsOf c).length < c.utf8Size := by
    have hv : c.val.toNat = c.toNat := rfl
    have l1 : ¬ c.val ≤ 127 := by rw [UInt32.le_iff_toNat_le]; simp; omega
    unfold unitsOf
    by_cases h : c.toNat < 0x10000
    · rw [if_pos h]
      unfold Char.utf8Size
      simp only [List.length_cons, List.length_nil]
      split
      · exact absurd ‹_› l1
      · split
        · omega
        · split <;> omega
    · rw [if_neg h]
      have l2 : ¬ c.val ≤ 0x7FF := by rw [UInt32.le_iff_toNat_le]; simp; omega
      have l3 : ¬ c.val ≤ 0xFFFF := by rw [UInt32.le_iff_toNat_le]; simp; omega
      unfold Char.utf8Size
      simp [l1, l2, l3]
  obtain ⟨a, b, rfl⟩ := List.append_of_mem hc
  have ha := units_le a
  have hb := units_le b
  rw [copied_eq]
  simp only [encode, List.flatMap_append, List.flatMap_cons, List.length_append, byteLen, List.map_append,
    List.map_cons, List.sum_append, List.sum_cons, List.length_cons, List.length_nil] at *
  omega

/-- The leaked units are in the clipboard: for "é" the unit behind the terminator is whatever the
process had in memory there. -/
theorem C144_leak_refuted (g : Nat → Nat) (s : Sys) :
    (write allOk g (some ['é']) s).1.clip = some [233, 0, g 0] := by
  have h : 'é'.utf8Size = 2 := by decide
  simp [write, allOk, copy, copied, byteLen, encode, unitsOf, h, List.range_succ]

/-- C145: whatever system call fails, in whatever combination, Read and Write return with the
clipboard closed and nothing left locked, and Read changes nothing. -/
theorem C145_released (k : Calls) (g : Nat → Nat) (behind : List Nat) (content : Option (List Char)) (s : Sys)
    (ho : s.isOpen = false) :
    (read k behind s).1 = s ∧
    (write k g content s).1.isOpen = false ∧ (write k g content s).1.locks = s.locks := by
  obtain ⟨clip, isOpen, owned, locks⟩ := s
  obtain ⟨a, b, c, d, e, f⟩ := k
  simp only at ho
  subst ho
  refine ⟨?_, ?_⟩
  · cases a <;> cases b <;> cases c <;> cases clip <;> simp [read]
  · cases content <;> cases a <;> cases c <;> cases d <;> cases e <;> cases f <;> simp [write]

/-- C145: Write reports success exactly when every call it made succeeded on a text, and then the
clipboard holds the new text and the process owns nothing more than before. -/
theorem C145_success (k : Calls) (g : Nat → Nat) (content : Option (List Char)) (s : Sys) :
    (write k g content s).2 = true ↔
      (∃ text, content = some text) ∧ k.alloc = true ∧ k.lock = true ∧ k.openC = true ∧ k.empty = true ∧
        k.setData = true := by
  obtain ⟨a, b, c, d, e, f⟩ := k
  cases content <;> cases a <;> cases c <;> cases d <;> cases e <;> cases f <;> simp [write]

/-- C145: after success no block is owned and the clipboard holds the new text. -/
theorem C145_success_state (k : Calls) (g : Nat → Nat) (text : List Char) (s : Sys)
    (h : (write k g (some text) s).2 = true) :
    (write k g (some text) s).1.owned = s.owned ∧ (write k g (some text) s).1.clip = some (copy g text) := by
  obtain ⟨a, b, c, d, e, f⟩ := k
  revert h
  cases a <;> cases c <;> cases d <;> cases e <;> cases f <;> simp [write]

/-- C145 (what is true): a Write that fails before the clipboard is emptied leaves its content
alone; one that fails before the clipboard is opened frees its memory.
Missing: the two failures of `C145_leak_refuted` and `C145_lost_refuted`. -/
theorem C145_failure_partial (k : Calls) (g : Nat → Nat) (content : Option (List Char)) (s : Sys)
    (h : (write k g content s).2 = false) :
    (k.empty = false → (write k g content s).1.clip = s.clip) ∧
    (k.openC = false → (write k g content s).1 = s) ∧
    (content = none → (write k g content s).1 = s) := by
  obtain ⟨a, b, c, d, e, f⟩ := k
  revert h
  cases content <;> cases a <;> cases c <;> cases d <;> cases e <;> cases f <;> simp [write]

/-- C145 refuted: when EmptyClipboard or SetClipboardData fails the allocated block is never freed. -/
theorem C145_leak_refuted (k : Calls) (g : Nat → Nat) (text : List Char) (s : Sys)
    (h : k.alloc = true ∧ k.lock = true ∧ k.openC = true) (hf : k.empty = false ∨ k.setData = false) :
    (write k g (some text) s).2 = false ∧ (write k g (some text) s).1.owned = s.owned + 1 := by
  obtain ⟨a, b, c, d, e, f⟩ := k
  revert h hf
  cases a <;> cases c <;> cases d <;> cases e <;> cases f <;> simp [write]

/-- C145 refuted: when SetClipboardData fails the user's earlier clipboard content is gone. -/
theorem C145_lost_refuted (g : Nat → Nat) (text : List Char) (s : Sys) :
    (write { allOk with setData := false } g (some text) s).2 = false ∧
    (write { allOk with setData := false } g (some text) s).1.clip = none := by
  simp [write, allOk]

/-- Non-trivial cases: a failed set and a failed open. -/
example : (write { allOk with setData := false } (fun _ => 9) (some ['x']) ⟨some [97, 0], false, 0, 0⟩)
    = (⟨none, false, 1, 0⟩, false) := by decide +kernel
example : (write { allOk with openC := false } (fun _ => 9) (some ['x']) ⟨some [97, 0], false, 0, 0⟩)
    = (⟨some [97, 0], false, 0, 0⟩, false) := by decide +kernel

end Phoenix.Clip.Win
