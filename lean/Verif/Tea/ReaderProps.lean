import Verif.Tea.ReaderModel
/-
C25: keyboard input is decoded key by key.
-/
set_option linter.unusedVariables false
set_option linter.unusedSimpArgs false
namespace Phoenix.Input

/-! ## Specification: what a terminal sends -/

/-- Standard UTF-8. -/
def utf8 (c : Nat) : List Nat :=
  if c < 0x80 then [c]
  else if c < 0x800 then [0xC0 + c / 64, 0x80 + c % 64]
  else if c < 0x10000 then [0xE0 + c / 4096, 0x80 + c / 64 % 64, 0x80 + c % 64]
  else [0xF0 + c / 262144, 0x80 + c / 4096 % 64, 0x80 + c / 64 % 64, 0x80 + c % 64]

/-- Keys of a terminal. -/
inductive Key where
  | enter | backspace | tab | esc | space
  | ctrl (i : Nat)     -- Ctrl+letter, 1 = a
  | text (c : Char)    -- a printable character
  | up | down | left | right | home | «end» | insert | delete | pgUp | pgDown
  | f (n : Nat)

/-- Keys the statement is about. -/
def Key.Valid : Key → Prop
  | .ctrl i => 1 ≤ i ∧ i ≤ 26 ∧ i ≠ 8 ∧ i ≠ 9 ∧ i ≠ 10 ∧ i ≠ 13
  | .text c => 33 ≤ c.toNat ∧ c.toNat ≠ 127
  | .f n => 1 ≤ n ∧ n ≤ 12
  | _ => True

/-- Bytes of a function key (xterm). -/
def fBytes : Nat → List Nat
  | 1 => [27, 79, 80] | 2 => [27, 79, 81] | 3 => [27, 79, 82] | 4 => [27, 79, 83]
  | 5 => [27, 91, 49, 53, 126] | 6 => [27, 91, 49, 55, 126] | 7 => [27, 91, 49, 56, 126]
  | 8 => [27, 91, 49, 57, 126] | 9 => [27, 91, 50, 48, 126] | 10 => [27, 91, 50, 49, 126]
  | 11 => [27, 91, 50, 51, 126] | _ => [27, 91, 50, 52, 126]

/-- Bytes a terminal sends for a key. -/
def Key.bytes : Key → List Nat
  | .enter => [13] | .backspace => [127] | .tab => [9] | .esc => [27] | .space => [32]
  | .ctrl i => [i]
  | .text c => utf8 c.toNat
  | .up => [27, 91, 65] | .down => [27, 91, 66] | .right => [27, 91, 67] | .left => [27, 91, 68]
  | .home => [27, 91, 72] | .end => [27, 91, 70]
  | .insert => [27, 91, 50, 126] | .delete => [27, 91, 51, 126]
  | .pgUp => [27, 91, 53, 126] | .pgDown => [27, 91, 54, 126]
  | .f n => fBytes n

/-- Message type of a function key. -/
def fType : Nat → KeyType
  | 1 => .f1 | 2 => .f2 | 3 => .f3 | 4 => .f4 | 5 => .f5 | 6 => .f6 | 7 => .f7 | 8 => .f8
  | 9 => .f9 | 10 => .f10 | 11 => .f11 | _ => .f12

/-- The message a program expects for a key. -/
def Key.msg : Key → KeyMsg
  | .enter => { type := .enter } | .backspace => { type := .backspace } | .tab => { type := .tab }
  | .esc => { type := .esc } | .space => { type := .space }
  | .ctrl i => { type := .rune, rune := Char.ofNat (96 + i), ctrl := true }
  | .text c => { type := .rune, rune := c }
  | .up => { type := .up } | .down => { type := .down } | .right => { type := .right }
  | .left => { type := .left } | .home => { type := .home } | .end => { type := .end }
  | .insert => { type := .insert } | .delete => { type := .delete }
  | .pgUp => { type := .pgUp } | .pgDown => { type := .pgDown }
  | .f n => { type := fType n }

/-- C25: any keys, any chunking of their bytes: exactly these keys are reported. -/
def C25_statement : Prop :=
  ∀ (ks : List Key), (∀ k ∈ ks, k.Valid) → ∀ chunks : List (List Nat), chunks.flatten = ks.flatMap Key.bytes →
    messages chunks = ks.map Key.msg

/-- C25 is false for F1: its final byte is taken for text (the reader stops at the 'O'). -/
theorem C25_f1_refuted : ¬ C25_statement := by
  intro h
  have := h [.f 1] (by simp [Key.Valid]) [[27, 79, 80]] (by decide)
  revert this
  decide

/-- C25 is false for Esc followed by another key in the same chunk: both are lost. -/
theorem C25_esc_refuted : ¬ C25_statement := by
  intro h
  have := h [.esc, .text 'x'] (by intro k hk; simp at hk; rcases hk with rfl | rfl <;> simp [Key.Valid]) [[27, 120]] (by decide)
  revert this
  decide

/-- C25 is false when a chunk ends inside an escape sequence: an arrow key becomes Esc and
text. -/
theorem C25_split_refuted : ¬ C25_statement := by
  intro h
  have := h [.up] (by simp [Key.Valid]) [[27], [91, 65]] (by decide)
  revert this
  decide

/-! ## UTF-8 -/

theorem cont_of (x : Nat) : cont (0x80 + x % 64) = true := by
  unfold cont; simp; omega

theorem leadInfo2 {b : Nat} (h : 0xC2 ≤ b ∧ b ≤ 0xDF) : leadInfo b = some (2, 0x80, 0xBF) := by
  unfold leadInfo; rw [if_pos h]

theorem utf8_pos (c : Nat) : 0 < (utf8 c).length := by
  unfold utf8; (repeat' split) <;> simp

/-- The range of the second byte, for the lead byte of a valid character. -/
theorem lead3 {c : Nat} (h1 : 0x800 ≤ c) (h2 : c < 0x10000) (hs : c < 0xD800 ∨ 0xDFFF < c) :
    ∃ lo hi, leadInfo (0xE0 + c / 4096) = some (3, lo, hi) ∧ within (0x80 + c / 64 % 64) lo hi = true := by
  unfold leadInfo within
  rw [if_neg (by omega)]
  by_cases e : 0xE0 + c / 4096 = 0xE0
  · rw [if_pos e]; exact ⟨_, _, rfl, by simp; omega⟩
  · rw [if_neg e]
    by_cases e2 : 0xE0 + c / 4096 = 0xED
    · rw [if_pos e2]; exact ⟨_, _, rfl, by simp; omega⟩
    · rw [if_neg e2, if_pos (by omega)]; exact ⟨_, _, rfl, by simp; omega⟩

theorem lead4 {c : Nat} (h1 : 0x10000 ≤ c) (h2 : c < 0x110000) :
    ∃ lo hi, leadInfo (0xF0 + c / 262144) = some (4, lo, hi) ∧ within (0x80 + c / 4096 % 64) lo hi = true := by
  unfold leadInfo within
  rw [if_neg (by omega), if_neg (by omega), if_neg (by omega), if_neg (by omega)]
  by_cases e : 0xF0 + c / 262144 = 0xF0
  · rw [if_pos e]; exact ⟨_, _, rfl, by simp; omega⟩
  · rw [if_neg e]
    by_cases e2 : 0xF1 ≤ 0xF0 + c / 262144 ∧ 0xF0 + c / 262144 ≤ 0xF3
    · rw [if_pos e2]; exact ⟨_, _, rfl, by simp; omega⟩
    · rw [if_neg e2, if_pos (by omega)]; exact ⟨_, _, rfl, by simp; omega⟩

/-- Valid code points. -/
def Scalar (c : Nat) : Prop := c < 0xD800 ∨ (0xDFFF < c ∧ c < 0x110000)

theorem char_scalar (c : Char) : Scalar c.toNat := by
  have h := c.valid
  rw [UInt32.isValidChar] at h
  rcases h with h | h
  · exact Or.inl h
  · exact Or.inr h

theorem decode_utf8 {c : Nat} (hs : Scalar c) (h : 0x80 ≤ c) (tl : List Nat) :
    decodeRune (utf8 c ++ tl) = (c, (utf8 c).length) := by
  unfold Scalar at hs
  unfold utf8
  rw [if_neg (by omega)]
  by_cases h2 : c < 0x800
  · rw [if_pos h2]
    simp only [List.cons_append, List.nil_append, decodeRune, List.length_cons, List.length_nil]
    rw [if_neg (by omega), leadInfo2 (by omega)]
    simp only
    rw [if_pos (by unfold within; simp; omega)]
    congr 1
    omega
  · rw [if_neg h2]
    by_cases h3 : c < 0x10000
    · rw [if_pos h3]
      obtain ⟨lo, hi, e1, e2⟩ := lead3 (by omega : 0x800 ≤ c) h3 (by omega)
      simp only [List.cons_append, List.nil_append, decodeRune, List.length_cons, List.length_nil]
      rw [if_neg (by omega), e1]
      simp only
      rw [e2, cont_of, if_pos (by rfl)]
      congr 1
      omega
    · rw [if_neg h3]
      obtain ⟨lo, hi, e1, e2⟩ := lead4 (by omega : 0x10000 ≤ c) (by omega)
      simp only [List.cons_append, List.nil_append, decodeRune, List.length_cons, List.length_nil]
      rw [if_neg (by omega), e1]
      simp only
      rw [e2, cont_of, cont_of, if_pos (by rfl)]
      congr 1
      omega

/-- A proper prefix of a character's encoding is not a full rune. -/
theorem fullRune_prefix {c : Nat} (hs : Scalar c) (h : 0x80 ≤ c) (p q : List Nat) (e : utf8 c = p ++ q)
    (hq : q ≠ []) : fullRune p = false := by
  unfold Scalar at hs
  unfold utf8 at e
  rw [if_neg (by omega)] at e
  by_cases h2 : c < 0x800
  · rw [if_pos h2] at e
    match p, e with
    | [], _ => rfl
    | [b], e =>
      simp only [List.cons_append, List.cons.injEq] at e
      rw [fullRune, ← e.1, leadInfo2 (by omega)]; simp
    | [_, _], e =>
      simp only [List.cons_append, List.cons.injEq, List.nil_append] at e
      exact absurd e.2.2.symm hq
    | _ :: _ :: _ :: p, e => simp at e
  · rw [if_neg h2] at e
    by_cases h3 : c < 0x10000
    · rw [if_pos h3] at e
      obtain ⟨lo, hi, e1, e2⟩ := lead3 (by omega : 0x800 ≤ c) h3 (by omega)
      match p, e with
      | [], _ => rfl
      | [b], e =>
        simp only [List.cons_append, List.cons.injEq] at e
        rw [fullRune, ← e.1, e1]; simp
      | [b, b1], e =>
        simp only [List.cons_append, List.cons.injEq] at e
        rw [fullRune, ← e.1, e1, ← e.2.1]; simp [e2]
      | [_, _, _], e =>
        simp only [List.cons_append, List.cons.injEq, List.nil_append] at e
        exact absurd e.2.2.2.symm hq
      | _ :: _ :: _ :: _ :: p, e => simp at e
    · rw [if_neg h3] at e
      obtain ⟨lo, hi, e1, e2⟩ := lead4 (by omega : 0x10000 ≤ c) (by omega)
      match p, e with
      | [], _ => rfl
      | [b], e =>
        simp only [List.cons_append, List.cons.injEq] at e
        rw [fullRune, ← e.1, e1]; simp
      | [b, b1], e =>
        simp only [List.cons_append, List.cons.injEq] at e
        rw [fullRune, ← e.1, e1, ← e.2.1]; simp [e2]
      | [b, b1, b2], e =>
        simp only [List.cons_append, List.cons.injEq] at e
        rw [fullRune, ← e.1, e1, ← e.2.1, ← e.2.2.1]; simp [e2, cont_of]
      | [_, _, _, _], e =>
        simp only [List.cons_append, List.cons.injEq, List.nil_append] at e
        exact absurd e.2.2.2.2.symm hq
      | _ :: _ :: _ :: _ :: _ :: p, e => simp at e

/-! ## one key -/

/-- Filling the buffer keeps the stream, and stops only at a full rune or at its end. -/
theorem fillRune_spec (more : List (List Nat)) : ∀ buf : List Nat,
    (fillRune buf more).buf ++ (fillRune buf more).more.flatten = buf ++ more.flatten ∧
    (fullRune (fillRune buf more).buf = true ∨ (fillRune buf more).more = []) := by
  induction more with
  | nil => intro buf; simp [fillRune]
  | cons c more ih =>
    intro buf
    rw [fillRune]
    by_cases h : fullRune buf = true
    · rw [if_pos h]; exact ⟨rfl, Or.inl h⟩
    · rw [if_neg h]
      have := ih (buf ++ c)
      refine ⟨?_, this.2⟩
      rw [this.1]; simp

/-- The rest of the buffer never loses whole chunks: `more` is only shortened. -/
theorem fillRune_full {buf : List Nat} (h : fullRune buf = true) (more : List (List Nat)) :
    fillRune buf more = ⟨buf, more⟩ := by
  cases more with
  | nil => rfl
  | cons c more => rw [fillRune, if_pos h]

theorem fullRune_utf8 {c : Nat} (hs : Scalar c) (h : 0x80 ≤ c) (tl : List Nat) : fullRune (utf8 c ++ tl) = true := by
  unfold Scalar at hs
  unfold utf8
  rw [if_neg (by omega)]
  by_cases h2 : c < 0x800
  · rw [if_pos h2]
    simp only [List.cons_append, List.nil_append, fullRune]
    rw [leadInfo2 (by omega)]
    simp
  · rw [if_neg h2]
    by_cases h3 : c < 0x10000
    · rw [if_pos h3]
      obtain ⟨lo, hi, e1, e2⟩ := lead3 (by omega : 0x800 ≤ c) h3 (by omega)
      simp only [List.cons_append, List.nil_append, fullRune]
      rw [e1]
      simp
    · rw [if_neg h3]
      obtain ⟨lo, hi, e1, e2⟩ := lead4 (by omega : 0x10000 ≤ c) (by omega)
      simp only [List.cons_append, List.nil_append, fullRune]
      rw [e1]
      simp

/-! ## Chunkings that do not split an escape sequence -/

/-- A part of the stream a chunk boundary does not split: one byte, or the whole sequence of
a key that starts with ESC. -/
inductive Piece where
  | byte (b : Nat)
  | seq (k : Key)

def Piece.bytes : Piece → List Nat
  | .byte b => [b]
  | .seq k => k.bytes

/-- Keys sent as an escape sequence (or a lone ESC). -/
def Key.isSeq : Key → Bool
  | .esc | .up | .down | .left | .right | .home | .end | .insert | .delete | .pgUp | .pgDown | .f _ => true
  | _ => false

/-- The pieces of a key: text may be split anywhere, even inside a character. -/
def Key.pieces (k : Key) : List Piece := if k.isSeq then [.seq k] else k.bytes.map .byte

/-- The bytes of a list of pieces. -/
def bytesOf (ps : List Piece) : List Nat := ps.flatMap Piece.bytes

/-- A lone ESC can only be the last thing in a chunk. -/
def EscLast (ps : List Piece) : Prop := ∀ a b, ps = a ++ .seq .esc :: b → b = []

/-- The keys the reader can decode: all but F1-F4. -/
def Key.Supported (k : Key) : Prop := k.Valid ∧ ∀ n, k = .f n → 5 ≤ n

theorem bytesOf_append (a b : List Piece) : bytesOf (a ++ b) = bytesOf a ++ bytesOf b := by simp [bytesOf]

theorem bytesOf_byte (l : List Nat) : bytesOf (l.map .byte) = l := by
  induction l with
  | nil => rfl
  | cons b l ih =>
    have : bytesOf ((b :: l).map .byte) = b :: bytesOf (l.map .byte) := rfl
    rw [this, ih]

theorem EscLast.tail {a b : List Piece} (h : EscLast (a ++ b)) : EscLast b := by
  intro x y e
  exact h (a ++ x) y (by rw [e]; simp)

theorem EscLast.prepend {l : List Nat} {b : List Piece} (h : EscLast b) : EscLast (l.map .byte ++ b) := by
  induction l with
  | nil => exact h
  | cons n l ih =>
    intro x y e
    cases x with
    | nil => simp at e
    | cons z x =>
      simp only [List.map_cons, List.cons_append, List.cons.injEq] at e
      exact ih x y e.2

theorem parseByte_high {b : Nat} (h : 0x80 ≤ b) : parseByte b = none := by
  unfold parseByte
  rw [if_neg (by omega), if_neg (by omega), if_neg (by omega), if_neg (by omega), if_neg (by omega),
    if_neg (by omega), if_neg (by omega)]

/-- `read` skips empty buffers. -/
theorem read_nil (c : List Nat) (more : List (List Nat)) : read ⟨[], c :: more⟩ = read ⟨c, more⟩ := by
  unfold read
  simp only [readByte]

theorem read_esc (t : List Nat) (more : List (List Nat)) :
    read ⟨27 :: t, more⟩ = some (interpret 27 (27 :: (escTail 10 t).1) ⟨(escTail 10 t).2, more⟩) := by
  unfold read
  simp [readByte]

/-- A key that starts with ESC, complete in the buffer. -/
theorem read_seq {k : Key} (hk : k.isSeq = true) (hs : k.Supported) (tl : List Nat) (more : List (List Nat))
    (he : ∀ h : k = .esc, tl = []) : read ⟨k.bytes ++ tl, more⟩ = some (some k.msg, ⟨tl, more⟩) := by
  cases k with
  | esc => rw [he rfl]; exact read_esc [] more
  | f n =>
    have h1 := hs.1
    have h2 := hs.2 n rfl
    simp only [Key.Valid] at h1
    have : n = 5 ∨ n = 6 ∨ n = 7 ∨ n = 8 ∨ n = 9 ∨ n = 10 ∨ n = 11 ∨ n = 12 := by omega
    rcases this with rfl | rfl | rfl | rfl | rfl | rfl | rfl | rfl <;> exact read_esc _ more
  | _ => first | exact read_esc _ more | exact absurd hk (by decide) | cases hk

/-- A one-byte key. -/
theorem read_byte {k : Key} {b : Nat} (hk : k.isSeq = false) (hs : k.Supported) (hb : k.bytes = [b])
    (tl : List Nat) (more : List (List Nat)) : read ⟨b :: tl, more⟩ = some (some k.msg, ⟨tl, more⟩) := by
  have key : b ≠ 27 ∧ parseByte b = some k.msg := by
    cases k with
    | enter => simp [Key.bytes] at hb; subst hb; exact ⟨by decide, rfl⟩
    | backspace => simp [Key.bytes] at hb; subst hb; exact ⟨by decide, rfl⟩
    | tab => simp [Key.bytes] at hb; subst hb; exact ⟨by decide, rfl⟩
    | space => simp [Key.bytes] at hb; subst hb; exact ⟨by decide, rfl⟩
    | ctrl i =>
      simp only [Key.bytes, List.cons.injEq, and_true] at hb
      subst hb
      have := hs.1
      simp only [Key.Valid] at this
      refine ⟨by omega, ?_⟩
      unfold parseByte
      rw [if_neg (by omega), if_neg (by omega), if_neg (by omega), if_neg (by omega), if_neg (by omega),
        if_pos (by omega)]
      rfl
    | text c =>
      have := hs.1
      simp only [Key.Valid] at this
      simp only [Key.bytes, utf8] at hb
      by_cases hc : c.toNat < 0x80
      · rw [if_pos hc] at hb
        simp only [List.cons.injEq, and_true] at hb
        subst hb
        refine ⟨by omega, ?_⟩
        unfold parseByte
        rw [if_neg (by omega), if_neg (by omega), if_neg (by omega), if_neg (by omega), if_neg (by omega),
          if_neg (by omega), if_pos (by omega)]
        simp only [Key.msg, Option.some.injEq, KeyMsg.mk.injEq, and_true, true_and]
        exact Char.ofNat_toNat c
      · rw [if_neg hc] at hb
        split at hb
        · simp at hb
        · split at hb <;> simp at hb
    | _ => simp [Key.isSeq] at hk
  unfold read
  simp only [readByte]
  rw [if_neg key.1]
  unfold interpret
  simp only [parseKey, key.2]

/-- Filling the buffer for a multi-byte character, in terms of pieces. -/
theorem fill_pieces {c : Nat} (hs : Scalar c) (hc : 0x80 ≤ c) (mp : List (List Piece)) :
    ∀ (P rest : List Piece), P ++ mp.flatten = (utf8 c).map .byte ++ rest → EscLast P →
      (∀ x ∈ mp, EscLast x) →
      ∃ (P' : List Piece) (mp' : List (List Piece)), fillRune (bytesOf P) (mp.map bytesOf) = ⟨utf8 c ++ bytesOf P', mp'.map bytesOf⟩ ∧
        P' ++ mp'.flatten = rest ∧ EscLast P' ∧ ∀ x ∈ mp', EscLast x := by
  induction mp with
  | nil =>
    intro P rest e hP _
    simp only [List.flatten_nil, List.append_nil] at e
    refine ⟨rest, [], ?_, by simp, ?_, by simp⟩
    · rw [e, bytesOf_append, bytesOf_byte]; rfl
    · rw [e] at hP; exact hP.tail
  | cons x mp ih =>
    intro P rest e hP hx
    by_cases hl : (utf8 c).length ≤ P.length
    · -- complete
      have e1 : P = (utf8 c).map .byte ++ P.drop (utf8 c).length := by
        have ht : P.take (utf8 c).length = (utf8 c).map .byte := by
          have := congrArg (List.take (utf8 c).length) e
          rw [List.take_append_of_le_length hl, List.take_append_of_le_length (by rw [List.length_map]; exact Nat.le_refl _)] at this
          rw [this, List.take_of_length_le (by rw [List.length_map]; exact Nat.le_refl _)]
        conv => lhs; rw [← List.take_append_drop (utf8 c).length P]
        rw [ht]
      refine ⟨P.drop (utf8 c).length, x :: mp, ?_, ?_, ?_, hx⟩
      · have hb : bytesOf P = utf8 c ++ bytesOf (P.drop (utf8 c).length) := by
          conv => lhs; rw [e1]
          rw [bytesOf_append, bytesOf_byte]
        rw [hb]
        exact fillRune_full (fullRune_utf8 hs hc _) _
      · have e2 := e
        rw [e1, List.append_assoc] at e2
        exact List.append_cancel_left e2
      · rw [e1] at hP; exact hP.tail
    · -- a proper prefix: another chunk is read
      have e1 : P = ((utf8 c).take P.length).map .byte := by
        have := congrArg (List.take P.length) e
        rw [List.take_append_of_le_length (Nat.le_refl _), List.take_append_of_le_length (by simp; omega),
          List.take_of_length_le (Nat.le_refl _), ← List.map_take] at this
        exact this
      have hb : bytesOf P = (utf8 c).take P.length := by
        conv => lhs; rw [e1]
        rw [bytesOf_byte]
      have hn : fullRune (bytesOf P) = false := by
        rw [hb]
        apply fullRune_prefix hs hc _ ((utf8 c).drop P.length) (List.take_append_drop _ _).symm
        intro h
        have := congrArg List.length h
        simp at this
        omega
      rw [List.map_cons, fillRune, if_neg (by rw [hn]; simp), ← bytesOf_append]
      apply ih (P ++ x) rest (by rw [List.append_assoc]; simpa using e)
      · rw [e1]; exact (hx x (by simp)).prepend
      · intro y hy; exact hx y (by simp [hy])

theorem utf8_lead {c : Nat} (hc : 0x80 ≤ c) : ∃ b t, utf8 c = b :: t ∧ 0x80 ≤ b := by
  unfold utf8
  rw [if_neg (by omega)]
  split
  · exact ⟨_, _, rfl, by omega⟩
  · split
    · exact ⟨_, _, rfl, by omega⟩
    · exact ⟨_, _, rfl, by omega⟩

theorem pieces_pos {k : Key} : 0 < (bytesOf k.pieces).length := by
  have : bytesOf k.pieces = k.bytes := by
    unfold Key.pieces
    split
    · simp [bytesOf, Piece.bytes]
    · exact bytesOf_byte _
  rw [this]
  cases k with
  | text c => exact utf8_pos _
  | f n => simp only [Key.bytes]; unfold fBytes; split <;> simp
  | _ => simp [Key.bytes]

/-- One Read consumes exactly the first key. -/
theorem read_key (k : Key) (hs : k.Supported) (mp : List (List Piece)) :
    ∀ (P rest : List Piece), P ++ mp.flatten = k.pieces ++ rest → EscLast P → (∀ x ∈ mp, EscLast x) →
      ∃ (P' : List Piece) (mp' : List (List Piece)), read ⟨bytesOf P, mp.map bytesOf⟩ = some (some k.msg, ⟨bytesOf P', mp'.map bytesOf⟩) ∧
        P' ++ mp'.flatten = rest ∧ EscLast P' ∧ ∀ x ∈ mp', EscLast x := by
  have main : ∀ (mp : List (List Piece)) (p : Piece) (P rest : List Piece),
      (p :: P) ++ mp.flatten = k.pieces ++ rest → EscLast (p :: P) → (∀ x ∈ mp, EscLast x) →
      ∃ (P' : List Piece) (mp' : List (List Piece)), read ⟨bytesOf (p :: P), mp.map bytesOf⟩ = some (some k.msg, ⟨bytesOf P', mp'.map bytesOf⟩) ∧
        P' ++ mp'.flatten = rest ∧ EscLast P' ∧ ∀ x ∈ mp', EscLast x := by
    intro mp p P rest e hP hmp
    have hPt : EscLast P := EscLast.tail (a := [p]) hP
    by_cases hq : k.isSeq = true
    · simp only [Key.pieces, hq, if_true, List.cons_append, List.nil_append, List.cons.injEq] at e
      obtain ⟨rfl, e⟩ := e
      refine ⟨P, mp, ?_, e, hPt, hmp⟩
      show read ⟨k.bytes ++ bytesOf P, _⟩ = _
      apply read_seq hq hs
      intro hk
      subst hk
      have : P = [] := hP [] P rfl
      rw [this]; rfl
    · have hq : k.isSeq = false := by simpa using hq
      simp only [Key.pieces, hq] at e
      by_cases h1 : k.bytes.length = 1
      · obtain ⟨b, hb⟩ := List.length_eq_one_iff.1 h1
        rw [hb] at e
        simp only [Bool.false_eq_true, if_false, List.map_cons, List.map_nil, List.cons_append, List.nil_append,
          List.cons.injEq] at e
        obtain ⟨rfl, e⟩ := e
        exact ⟨P, mp, read_byte hq hs hb (bytesOf P) _, e, hPt, hmp⟩
      · -- a multi-byte character
        obtain ⟨c, rfl⟩ : ∃ c, k = .text c := by
          cases k with
          | text c => exact ⟨c, rfl⟩
          | _ => first | exact absurd rfl h1 | simp [Key.isSeq] at hq
        have hc : 0x80 ≤ c.toNat := by
          by_cases h : c.toNat < 0x80
          · exfalso; apply h1; simp [Key.bytes, utf8, h]
          · omega
        simp only [Bool.false_eq_true, if_false, Key.bytes] at e
        obtain ⟨P', mp', f1, f2, f3, f4⟩ := fill_pieces (char_scalar c) hc mp (p :: P) rest e hP hmp
        obtain ⟨b, t, hu, hb⟩ := utf8_lead hc
        have hp : p = .byte b := by
          rw [hu] at e
          simp only [List.map_cons, List.cons_append, List.cons.injEq] at e
          exact e.1
        subst hp
        refine ⟨P', mp', ?_, f2, f3, f4⟩
        have hbuf : bytesOf (Piece.byte b :: P) = b :: bytesOf P := rfl
        unfold read
        rw [hbuf] at f1 ⊢
        simp only [readByte]
        rw [if_neg (by omega)]
        unfold interpret
        simp only [parseKey, parseByte_high hb]
        rw [if_pos hb, f1]
        simp only [decode_utf8 (char_scalar c) hc, List.drop_left, Key.msg]
        rw [Char.ofNat_toNat]
  intro P rest e hP hmp
  cases P with
  | cons p P => exact main mp p P rest e hP hmp
  | nil =>
    induction mp with
    | nil =>
      exfalso
      have : k.pieces = [] := by
        have := congrArg List.length e
        simp at this
        exact List.eq_nil_of_length_eq_zero (by omega)
      have hp := pieces_pos (k := k)
      rw [this] at hp
      simp [bytesOf] at hp
    | cons x mp ih =>
      show ∃ (P' : List Piece) (mp' : List (List Piece)), read ⟨[], bytesOf x :: mp.map bytesOf⟩ = _ ∧ _
      rw [read_nil]
      cases x with
      | nil => exact ih (fun y hy => hmp y (by simp [hy])) (by simpa using e)
      | cons p P =>
        exact main mp p P rest (by simpa using e) (hmp _ (by simp)) (fun y hy => hmp y (by simp [hy]))

theorem readByte_end (more : List (List Nat)) (h : more.flatten = []) : readByte [] more = none := by
  induction more with
  | nil => rfl
  | cons c more ih =>
    simp only [List.flatten_cons, List.append_eq_nil_iff] at h
    rw [h.1, readByte]
    exact ih h.2

theorem readN_keys (ks : List Key) (hs : ∀ k ∈ ks, k.Supported) : ∀ (n : Nat) (P : List Piece) (mp : List (List Piece)),
    P ++ mp.flatten = ks.flatMap Key.pieces → EscLast P → (∀ x ∈ mp, EscLast x) → ks.length < n →
    readN n ⟨bytesOf P, mp.map bytesOf⟩ = ks.map Key.msg := by
  induction ks with
  | nil =>
    intro n P mp e _ _ hn
    simp only [List.flatMap_nil, List.append_eq_nil_iff] at e
    cases n with
    | zero => rfl
    | succ n =>
      rw [readN]
      have : read ⟨bytesOf P, mp.map bytesOf⟩ = none := by
        unfold read
        have : readByte (bytesOf P) (mp.map bytesOf) = none := by
          rw [e.1]
          apply readByte_end
          have h2 := e.2
          have : ∀ (l : List (List Piece)), l.flatten = [] → (l.map bytesOf).flatten = [] := by
            intro l
            induction l with
            | nil => intro _; rfl
            | cons x l ih =>
              intro h
              simp only [List.flatten_cons, List.append_eq_nil_iff] at h
              simp only [List.map_cons, List.flatten_cons, h.1, ih h.2]; rfl
          exact this mp h2
        simp only [this]
      rw [this]
      rfl
  | cons k ks ih =>
    intro n P mp e hP hmp hn
    cases n with
    | zero => omega
    | succ n =>
      rw [List.flatMap_cons] at e
      obtain ⟨P', mp', r1, r2, r3, r4⟩ := read_key k (hs k (by simp)) mp P _ e hP hmp
      rw [readN, r1]
      simp only [Option.toList, List.cons_append, List.nil_append, List.map_cons]
      rw [ih (fun x hx => hs x (by simp [hx])) n P' mp' r2 r3 r4 (by simp only [List.length_cons] at hn; omega)]

/-- C25, what holds: any sequence of supported keys (all but F1-F4), split into chunks
anywhere except inside an escape sequence (text may be split even inside a character), with
a lone Esc only at the end of a chunk, is decoded to exactly these keys in order. -/
theorem C25_partial (ks : List Key) (hs : ∀ k ∈ ks, k.Supported) (chunks : List (List Piece))
    (hc : chunks.flatten = ks.flatMap Key.pieces) (he : ∀ x ∈ chunks, EscLast x) :
    messages (chunks.map bytesOf) = ks.map Key.msg := by
  unfold messages
  apply readN_keys ks hs _ [] chunks (by simpa using hc) (by intro a b h; simp at h) he
  have e1 : ∀ l : List (List Piece), (l.map bytesOf).flatten = bytesOf l.flatten := by
    intro l
    induction l with
    | nil => rfl
    | cons x l ih => rw [List.map_cons, List.flatten_cons, List.flatten_cons, bytesOf_append, ih]
  rw [e1, hc]
  clear hc e1 he
  induction ks with
  | nil => simp
  | cons k ks ih =>
    rw [List.flatMap_cons, bytesOf_append, List.length_append, List.length_cons]
    have := pieces_pos (k := k)
    have := ih (fun x hx => hs x (by simp [hx]))
    omega

/-- C25, text: any text of printable characters, split into chunks anywhere, arrives
unchanged. -/
theorem C25_text (cs : List Char) (hv : ∀ c ∈ cs, 33 ≤ c.toNat ∧ c.toNat ≠ 127) (chunks : List (List Nat))
    (hc : chunks.flatten = cs.flatMap fun c => utf8 c.toNat) :
    messages chunks = cs.map fun c => { type := .rune, rune := c } := by
  have h := C25_partial (cs.map .text) (by
      intro k hk
      simp only [List.mem_map] at hk
      obtain ⟨c, hc, rfl⟩ := hk
      exact ⟨hv c hc, by intro n h; cases h⟩)
    (chunks.map (·.map .byte)) (by
      rw [← List.map_flatten, hc, List.flatMap_map, List.map_flatMap]
      rfl)
    (by
      intro x hx
      simp only [List.mem_map] at hx
      obtain ⟨y, _, rfl⟩ := hx
      have := EscLast.prepend (l := y) (b := []) (by intro a b h; simp at h)
      simpa using this)
  rw [List.map_map, List.map_map] at h
  have e : chunks.map (bytesOf ∘ fun x => x.map .byte) = chunks := by
    conv => rhs; rw [← List.map_id chunks]
    apply List.map_congr_left
    intro x _
    exact bytesOf_byte x
  rw [e] at h
  rw [h]
  rfl

/-- A concrete case: "é", Up, Enter, Esc, then F5, with "é" split between two chunks. -/
example : messages [[0xC3], [0xA9, 27, 91, 65, 13, 27], [27, 91, 49, 53, 126]] =
    [{ type := .rune, rune := 'é' }, { type := .up }, { type := .enter }, { type := .esc }, { type := .f5 }] := by
  have h := C25_partial [.text 'é', .up, .enter, .esc, .f 5] (by
      intro k hk
      simp only [List.mem_cons, List.not_mem_nil, or_false] at hk
      rcases hk with rfl | rfl | rfl | rfl | rfl <;> refine ⟨?_, ?_⟩ <;> simp [Key.Valid])
    [[.byte 0xC3], [.byte 0xA9, .seq .up, .byte 13, .seq .esc], [.seq (.f 5)]] (by rfl) (by
      intro x hx a b e
      simp only [List.mem_cons, List.not_mem_nil, or_false] at hx
      rcases hx with rfl | rfl | rfl
      · rcases a with _ | ⟨a0, _ | ⟨a1, a⟩⟩ <;> simp at e
      · rcases a with _ | ⟨a0, _ | ⟨a1, _ | ⟨a2, _ | ⟨a3, _ | ⟨a4, a⟩⟩⟩⟩⟩ <;> simp at e
        exact e.2.2.2
      · rcases a with _ | ⟨a0, _ | ⟨a1, a⟩⟩ <;> simp at e)
  exact h

/-- C25: the key parser by itself, given the complete bytes of a key and nothing else, recognises every key, the function keys
F1 to F4 included (that these fail in the input stream, C25_f1_refuted, is the reader's doing). -/
theorem C25_parser (k : Key) (hk : k.Valid) (ht : ∀ c, k = .text c → c.toNat < 127) : parseKey k.bytes = some k.msg := by
  cases k with
  | enter | backspace | tab | esc | space | up | down | left | right | home | «end» | insert | delete | pgUp | pgDown => rfl
  | ctrl i =>
    simp only [Key.Valid] at hk
    have : parseByte i = some { type := .rune, rune := Char.ofNat (96 + i), ctrl := true } := by
      unfold parseByte
      rw [if_neg (by omega), if_neg (by omega), if_neg (by omega), if_neg (by omega), if_neg (by omega), if_pos (by omega)]
    exact this
  | text c =>
    simp only [Key.Valid] at hk
    have h := ht c rfl
    have : parseByte c.toNat = some { type := .rune, rune := c } := by
      unfold parseByte
      rw [if_neg (by omega), if_neg (by omega), if_neg (by omega), if_neg (by omega), if_neg (by omega), if_neg (by omega),
        if_pos (by omega), Char.ofNat_toNat]
    simp only [Key.bytes, Key.msg, utf8, if_pos (show c.toNat < 0x80 by omega), parseKey, this]
  | f n =>
    simp only [Key.Valid] at hk
    have : n = 1 ∨ n = 2 ∨ n = 3 ∨ n = 4 ∨ n = 5 ∨ n = 6 ∨ n = 7 ∨ n = 8 ∨ n = 9 ∨ n = 10 ∨ n = 11 ∨ n = 12 := by omega
    rcases this with h|h|h|h|h|h|h|h|h|h|h|h <;> subst h <;> rfl

example : parseKey [27, 79, 83] = some { type := .f4 } := by decide

end Phoenix.Input
