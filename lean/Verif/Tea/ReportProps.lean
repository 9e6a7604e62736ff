import Verif.Tea.TypingProps
/-
C196: the reports a terminal sends by itself (mouse, focus, cursor position, bracketed paste, device attributes) do not
type text.
-/
set_option linter.unusedVariables false
set_option linter.unusedSimpArgs false
namespace Phoenix.Input

/-! ### Specification -/

/-- A control sequence of a terminal (ECMA-48): ESC [ , parameter and intermediate bytes, a final byte. -/
def csi (params : List Nat) (final : Nat) : List Nat := 27 :: 91 :: params ++ [final]

/-- ECMA-48's byte ranges. -/
def ParamByte (b : Nat) : Prop := 0x20 ≤ b ∧ b ≤ 0x3F
def FinalByte (b : Nat) : Prop := 0x40 ≤ b ∧ b ≤ 0x7E

/-- The sequence is one a key sends (`Key.bytes`, and the older ESC [ 1 ~ and ESC [ 4 ~ of Home and End). -/
def IsKey (seq : List Nat) : Prop := (∃ k : Key, k.Valid ∧ k.bytes = seq) ∨ seq = [27, 91, 49, 126] ∨ seq = [27, 91, 52, 126]

/-- C196, full claim: a control sequence that is not a key, delivered in one piece, is no input: the program gets
the same messages as without it. -/
def C196_statement : Prop :=
  ∀ (params : List Nat) (final : Nat) (rest : List Nat) (more : List (List Nat)),
    (∀ b ∈ params, ParamByte b) → FinalByte final → ¬ IsKey (csi params final) →
    messages ((csi params final ++ rest) :: more) = messages (rest :: more)

/-! ### Proofs -/

theorem escTail_stop (final : Nat) (hf : isFinal final = true) (rest : List Nat) : ∀ (params : List Nat) (n : Nat),
    (∀ b ∈ params, isFinal b = false) → params.length < n →
    escTail n (params ++ final :: rest) = (params ++ [final], rest) := by
  intro params
  induction params with
  | nil =>
    intro n _ hn
    obtain ⟨n, rfl⟩ := Nat.exists_eq_add_of_lt hn
    rw [show ([] : List Nat).length + n + 1 = n + 1 by simp]
    simp [escTail, hf]
  | cons b t ih =>
    intro n hb hn
    cases n with
    | zero => simp at hn
    | succ n =>
      have := ih n (fun x hx => hb x (List.mem_cons_of_mem _ hx)) (by simp at hn; omega)
      simp only [List.cons_append, escTail, hb b List.mem_cons_self, this, Bool.false_eq_true, if_false]

theorem escTail_cut (tl : List Nat) : ∀ (n : Nat) (params : List Nat), (∀ b ∈ params, isFinal b = false) → n ≤ params.length →
    escTail n (params ++ tl) = (params.take n, params.drop n ++ tl) := by
  intro n
  induction n with
  | zero => intro params _ _; simp [escTail]
  | succ n ih =>
    intro params hb hn
    cases params with
    | nil => simp at hn
    | cons b t =>
      have := ih t (fun x hx => hb x (List.mem_cons_of_mem _ hx)) (by simp at hn; omega)
      simp only [List.cons_append, escTail, hb b List.mem_cons_self, this, Bool.false_eq_true, if_false, List.take_succ_cons,
        List.drop_succ_cons]

theorem param_notFinal {b : Nat} (h : ParamByte b) : isFinal b = false := by
  obtain ⟨h1, h2⟩ := h
  unfold isFinal
  simp only [Bool.or_eq_false_iff, Bool.and_eq_false_iff, decide_eq_false_iff_not, beq_eq_false_iff_ne]
  omega

theorem lookup_mem {β γ : Type} [BEq β] [LawfulBEq β] {l : List (β × γ)} {k : β} {v : γ} (h : l.lookup k = some v) : (k, v) ∈ l := by
  induction l with
  | nil => simp at h
  | cons p t ih =>
    obtain ⟨a, b⟩ := p
    rw [List.lookup_cons] at h
    by_cases e : (k == a) = true
    · rw [e] at h
      have e' := eq_of_beq e
      simp only [Option.some.injEq] at h
      subst e' h
      exact List.mem_cons_self
    · rw [Bool.not_eq_true] at e
      rw [e] at h
      exact List.mem_cons_of_mem _ (ih h)

theorem parseEsc_key {seq : List Nat} {k : KeyMsg} (h : parseEsc seq = some k) : IsKey (27 :: seq) ∧ seq.length ≤ 4 := by
  unfold parseEsc at h
  obtain ⟨t, ht, _⟩ := Option.map_eq_some_iff.1 h
  have := lookup_mem ht
  simp only [csiTable, ss3Table, tildeTable, List.cons_append, List.nil_append, List.mem_cons, List.not_mem_nil, or_false,
    Prod.mk.injEq] at this
  rcases this with ⟨rfl, _⟩ | ⟨rfl, _⟩ | ⟨rfl, _⟩ | ⟨rfl, _⟩ | ⟨rfl, _⟩ | ⟨rfl, _⟩ | ⟨rfl, _⟩ | ⟨rfl, _⟩ | ⟨rfl, _⟩ |
    ⟨rfl, _⟩ | ⟨rfl, _⟩ | ⟨rfl, _⟩ | ⟨rfl, _⟩ | ⟨rfl, _⟩ | ⟨rfl, _⟩ | ⟨rfl, _⟩ | ⟨rfl, _⟩ | ⟨rfl, _⟩ |
    ⟨rfl, _⟩ | ⟨rfl, _⟩ | ⟨rfl, _⟩ | ⟨rfl, _⟩ | ⟨rfl, _⟩ | ⟨rfl, _⟩
  · exact ⟨Or.inl ⟨.up, trivial, rfl⟩, by decide⟩
  · exact ⟨Or.inl ⟨.down, trivial, rfl⟩, by decide⟩
  · exact ⟨Or.inl ⟨.right, trivial, rfl⟩, by decide⟩
  · exact ⟨Or.inl ⟨.left, trivial, rfl⟩, by decide⟩
  · exact ⟨Or.inl ⟨.home, trivial, rfl⟩, by decide⟩
  · exact ⟨Or.inl ⟨.end, trivial, rfl⟩, by decide⟩
  · exact ⟨Or.inl ⟨.f 1, by simp [Key.Valid], rfl⟩, by decide⟩
  · exact ⟨Or.inl ⟨.f 2, by simp [Key.Valid], rfl⟩, by decide⟩
  · exact ⟨Or.inl ⟨.f 3, by simp [Key.Valid], rfl⟩, by decide⟩
  · exact ⟨Or.inl ⟨.f 4, by simp [Key.Valid], rfl⟩, by decide⟩
  · exact ⟨Or.inr (Or.inl rfl), by decide⟩
  · exact ⟨Or.inl ⟨.insert, trivial, rfl⟩, by decide⟩
  · exact ⟨Or.inl ⟨.delete, trivial, rfl⟩, by decide⟩
  · exact ⟨Or.inr (Or.inr rfl), by decide⟩
  · exact ⟨Or.inl ⟨.pgUp, trivial, rfl⟩, by decide⟩
  · exact ⟨Or.inl ⟨.pgDown, trivial, rfl⟩, by decide⟩
  · exact ⟨Or.inl ⟨.f 5, by simp [Key.Valid], rfl⟩, by decide⟩
  · exact ⟨Or.inl ⟨.f 6, by simp [Key.Valid], rfl⟩, by decide⟩
  · exact ⟨Or.inl ⟨.f 7, by simp [Key.Valid], rfl⟩, by decide⟩
  · exact ⟨Or.inl ⟨.f 8, by simp [Key.Valid], rfl⟩, by decide⟩
  · exact ⟨Or.inl ⟨.f 9, by simp [Key.Valid], rfl⟩, by decide⟩
  · exact ⟨Or.inl ⟨.f 10, by simp [Key.Valid], rfl⟩, by decide⟩
  · exact ⟨Or.inl ⟨.f 11, by simp [Key.Valid], rfl⟩, by decide⟩
  · exact ⟨Or.inl ⟨.f 12, by simp [Key.Valid], rfl⟩, by decide⟩

theorem messages_chunk (c : List Nat) (more : List (List Nat)) : messages (c :: more) = keysLeft ⟨c, more⟩ := by
  rw [← keysLeft_start]
  have hn := read_nil c more
  cases hr : read ⟨c, more⟩ with
  | none => rw [keysLeft_none (hn.trans hr), keysLeft_none hr]
  | some p =>
    obtain ⟨m, s'⟩ := p
    rw [keysLeft_some (hn.trans hr), keysLeft_some hr]

/-- ESC and bytes that are not a key sequence. -/
theorem drop_seq {t : List Nat} {more : List (List Nat)} {taken left : List Nat} (h : escTail 10 t = (taken, left))
    (hn : taken ≠ []) (hk : ¬ IsKey (27 :: taken)) : keysLeft ⟨27 :: t, more⟩ = keysLeft ⟨left, more⟩ := by
  have e : read ⟨27 :: t, more⟩ = some (none, ⟨left, more⟩) := by
    rw [read_esc, h]
    simp only [interpret]
    cases taken with
    | nil => exact absurd rfl hn
    | cons a as =>
      simp only [parseKey, if_pos]
      cases hp : parseEsc (a :: as) with
      | some k => exact absurd (parseEsc_key hp).1 hk
      | none => simp
  rw [keysLeft_some e]
  rfl

/-- C196, what holds: a sequence of at most eight parameter bytes that ends with a letter or `~` is no input. -/
theorem C196_short_partial (params : List Nat) (final : Nat) (rest : List Nat) (more : List (List Nat))
    (hp : ∀ b ∈ params, ParamByte b)
    (hf : (65 ≤ final ∧ final ≤ 90) ∨ (97 ≤ final ∧ final ≤ 122) ∨ final = 126) (hk : ¬ IsKey (csi params final))
    (hl : params.length ≤ 8) :
    messages ((csi params final ++ rest) :: more) = messages (rest :: more) := by
  have hfin : isFinal final = true := by
    unfold isFinal
    simp only [Bool.or_eq_true, Bool.and_eq_true, decide_eq_true_eq, beq_iff_eq]
    omega
  have h := escTail_stop final hfin rest (91 :: params) 10 (by
    intro b hb
    rcases List.mem_cons.1 hb with rfl | hb
    · decide
    · exact param_notFinal (hp b hb)) (by simp; omega)
  rw [messages_chunk, messages_chunk]
  have e : csi params final ++ rest = 27 :: ((91 :: params) ++ final :: rest) := by simp [csi]
  rw [e]
  exact drop_seq h (by simp) hk

/-- The key message of one byte of ASCII text. -/
def typed (b : Nat) : KeyMsg := if b = 32 then { type := .space } else { type := .rune, rune := Char.ofNat b }

theorem type_byte {b : Nat} (h : 32 ≤ b ∧ b ≤ 126) (tl : List Nat) (more : List (List Nat)) :
    keysLeft ⟨b :: tl, more⟩ = typed b :: keysLeft ⟨tl, more⟩ := by
  have hp : parseByte b = some (typed b) := by
    unfold parseByte typed
    rw [if_neg (by omega), if_neg (by omega), if_neg (by omega), if_neg (by omega)]
    by_cases h32 : b = 32
    · rw [if_pos h32, if_pos h32]
    · rw [if_neg h32, if_neg h32, if_neg (by omega), if_pos h]
  have e : read ⟨b :: tl, more⟩ = some (some (typed b), ⟨tl, more⟩) := by
    unfold read
    simp only [readByte]
    rw [if_neg (by omega)]
    unfold interpret
    simp only [parseKey, hp]
  rw [keysLeft_some e]
  rfl

theorem type_bytes (tl : List Nat) (more : List (List Nat)) : ∀ bs : List Nat, (∀ b ∈ bs, 32 ≤ b ∧ b ≤ 126) →
    keysLeft ⟨bs ++ tl, more⟩ = bs.map typed ++ keysLeft ⟨tl, more⟩ := by
  intro bs
  induction bs with
  | nil => intro _; rfl
  | cons b t ih =>
    intro h
    rw [List.cons_append, type_byte (h b List.mem_cons_self), ih (fun x hx => h x (List.mem_cons_of_mem _ hx))]
    rfl

/-- C196, what happens to longer sequences: everything after the ninth parameter byte is typed, as if the user had
pressed these keys. -/
theorem C196_long_partial (params : List Nat) (final : Nat) (rest : List Nat) (more : List (List Nat))
    (hp : ∀ b ∈ params, ParamByte b) (hf : FinalByte final) (hl : 9 ≤ params.length) :
    messages ((csi params final ++ rest) :: more) =
      (params.drop 9).map typed ++ typed final :: messages (rest :: more) := by
  have h := escTail_cut (final :: rest) 10 (91 :: params) (by
    intro b hb
    rcases List.mem_cons.1 hb with rfl | hb
    · decide
    · exact param_notFinal (hp b hb)) (by simp; omega)
  rw [messages_chunk, messages_chunk]
  have e : csi params final ++ rest = 27 :: ((91 :: params) ++ final :: rest) := by simp [csi]
  rw [e]
  have hk : ¬ IsKey (27 :: (91 :: params).take 10) := by
    have hlen : (27 :: (91 :: params).take 10).length = 11 := by simp; omega
    generalize 27 :: (91 :: params).take 10 = seq at hlen
    rintro (⟨k, hv, rfl⟩ | rfl | rfl)
    · cases k with
      | text c =>
        simp only [Key.bytes, utf8] at hlen
        split at hlen
        · simp at hlen
        · split at hlen
          · simp at hlen
          · split at hlen <;> simp at hlen
      | f n =>
        simp only [Key.Valid] at hv
        have : n = 1 ∨ n = 2 ∨ n = 3 ∨ n = 4 ∨ n = 5 ∨ n = 6 ∨ n = 7 ∨ n = 8 ∨ n = 9 ∨ n = 10 ∨ n = 11 ∨ n = 12 := by omega
        rcases this with rfl | rfl | rfl | rfl | rfl | rfl | rfl | rfl | rfl | rfl | rfl | rfl <;> simp [Key.bytes, fBytes] at hlen
      | _ => simp [Key.bytes] at hlen
    · simp at hlen
    · simp at hlen
  rw [drop_seq h (by simp) hk]
  have e2 : (91 :: params).drop 10 ++ final :: rest = (params.drop 9 ++ [final]) ++ rest := by simp
  rw [e2, type_bytes]
  · simp
  · intro b hb
    obtain ⟨f1, f2⟩ := hf
    rcases List.mem_append.1 hb with hb | hb
    · obtain ⟨b1, b2⟩ := hp b (List.mem_of_mem_drop hb)
      omega
    · have := List.mem_singleton.1 hb
      omega

/-! #### The other final bytes: @ [ \ ] ^ _ ` { | } -/

/-- A letter or `~`: the only final bytes the reader knows. -/
def Known (b : Nat) : Prop := (65 ≤ b ∧ b ≤ 90) ∨ (97 ≤ b ∧ b ≤ 122) ∨ b = 126

/-- `Eaten n rest k`: of `n` bytes that may be read, the first `k` of `rest` are: up to and with the first letter or
`~`, or all `n`, or all there are. -/
def Eaten (n : Nat) (rest : List Nat) (k : Nat) : Prop :=
  k ≤ n ∧ k ≤ rest.length ∧ (∀ i b, i + 1 < k → rest[i]? = some b → ¬ Known b) ∧
  (k < n → k < rest.length → ∃ b, 0 < k ∧ rest[k - 1]? = some b ∧ Known b)

theorem isFinal_known (b : Nat) : isFinal b = true ↔ Known b := by
  unfold isFinal Known
  simp only [Bool.or_eq_true, Bool.and_eq_true, decide_eq_true_eq, beq_iff_eq]
  omega

theorem escTail_eaten : ∀ (n : Nat) (rest : List Nat), ∃ k, Eaten n rest k ∧ escTail n rest = (rest.take k, rest.drop k) := by
  intro n
  induction n with
  | zero =>
    intro rest
    exact ⟨0, ⟨Nat.le_refl _, Nat.zero_le _, fun i b h => by omega, fun h => by omega⟩, by simp [escTail]⟩
  | succ n ih =>
    intro rest
    cases rest with
    | nil => exact ⟨0, ⟨Nat.zero_le _, Nat.zero_le _, fun i b h => by omega, fun _ h => by simp at h⟩, by simp [escTail]⟩
    | cons b t =>
      by_cases hb : isFinal b = true
      · refine ⟨1, ⟨by omega, by simp, fun i x h => by omega, fun _ _ => ⟨b, by omega, rfl, (isFinal_known b).1 hb⟩⟩, ?_⟩
        simp [escTail, hb]
      · obtain ⟨k, ⟨h1, h2, h3, h4⟩, he⟩ := ih t
        refine ⟨k + 1, ⟨by omega, by simp; omega, ?_, ?_⟩, ?_⟩
        · intro i x hi hx
          cases i with
          | zero =>
            simp at hx; subst hx
            exact fun hk => hb ((isFinal_known _).2 hk)
          | succ i => exact h3 i x (by omega) (by simpa using hx)
        · intro hn hl
          obtain ⟨x, hk, hx, hkn⟩ := h4 (by omega) (by simp at hl; omega)
          refine ⟨x, by omega, ?_, hkn⟩
          rw [show k + 1 - 1 = (k - 1) + 1 by omega, List.getElem?_cons_succ]
          exact hx
        · rw [Bool.not_eq_true] at hb
          simp only [escTail, hb, he, Bool.false_eq_true, if_false, List.take_succ_cons, List.drop_succ_cons]

theorem escTail_through (tl : List Nat) : ∀ (params : List Nat) (n : Nat), (∀ b ∈ params, isFinal b = false) →
    escTail (params.length + n) (params ++ tl) = (params ++ (escTail n tl).1, (escTail n tl).2) := by
  intro params
  induction params with
  | nil => intro n _; simp
  | cons b t ih =>
    intro n hb
    have := ih n (fun x hx => hb x (List.mem_cons_of_mem _ hx))
    rw [show (b :: t).length + n = (t.length + n) + 1 by simp; omega]
    simp only [List.cons_append, escTail, hb b List.mem_cons_self, this, Bool.false_eq_true, if_false]

/-- C196, the remaining final bytes (@ [ \ ] ^ _ ` { | }): the reader does not see that the sequence has ended.  The
sequence itself types nothing, but the bytes that follow it, up to and with the first letter or `~`, or as many as it
may still read, are lost with it. -/
theorem C196_swallowed_partial (params : List Nat) (final : Nat) (rest : List Nat) (more : List (List Nat))
    (hp : ∀ b ∈ params, ParamByte b) (hf : FinalByte final) (hu : ¬ Known final) (hl : params.length ≤ 8) :
    ∃ k, Eaten (8 - params.length) rest k ∧
      messages ((csi params final ++ rest) :: more) = messages (rest.drop k :: more) := by
  obtain ⟨k, hk, he⟩ := escTail_eaten (8 - params.length) rest
  refine ⟨k, hk, ?_⟩
  have hfin : isFinal final = false := by
    rw [← Bool.not_eq_true]; exact fun h => hu ((isFinal_known _).1 h)
  have ht := escTail_through rest (91 :: params ++ [final]) (8 - params.length) (by
    intro b hb
    simp only [List.cons_append, List.mem_cons, List.mem_append, List.not_mem_nil, or_false] at hb
    rcases hb with rfl | hb | rfl
    · decide
    · exact param_notFinal (hp b hb)
    · exact hfin)
  rw [show (91 :: params ++ [final]).length + (8 - params.length) = 10 by simp; omega, he] at ht
  rw [messages_chunk, messages_chunk]
  have e : csi params final ++ rest = 27 :: ((91 :: params ++ [final]) ++ rest) := by simp [csi]
  rw [e]
  have hnone : parseEsc (91 :: params ++ [final] ++ rest.take k) = none := by
    cases hq : parseEsc (91 :: params ++ [final] ++ rest.take k) with
    | none => rfl
    | some v =>
      exfalso
      unfold parseEsc at hq
      obtain ⟨t, ht, _⟩ := Option.map_eq_some_iff.1 hq
      have hm := lookup_mem ht
      have hin : final ∈ (91 :: params ++ [final] ++ rest.take k).tail := by simp
      obtain ⟨f1, f2⟩ := hf
      unfold Known at hu
      generalize 91 :: params ++ [final] ++ rest.take k = seq at hm hin
      simp only [csiTable, ss3Table, tildeTable, List.cons_append, List.nil_append, List.mem_cons, List.not_mem_nil, or_false,
        Prod.mk.injEq] at hm
      rcases hm with ⟨rfl, _⟩ | ⟨rfl, _⟩ | ⟨rfl, _⟩ | ⟨rfl, _⟩ | ⟨rfl, _⟩ | ⟨rfl, _⟩ | ⟨rfl, _⟩ | ⟨rfl, _⟩ | ⟨rfl, _⟩ |
        ⟨rfl, _⟩ | ⟨rfl, _⟩ | ⟨rfl, _⟩ | ⟨rfl, _⟩ | ⟨rfl, _⟩ | ⟨rfl, _⟩ | ⟨rfl, _⟩ | ⟨rfl, _⟩ | ⟨rfl, _⟩ |
        ⟨rfl, _⟩ | ⟨rfl, _⟩ | ⟨rfl, _⟩ | ⟨rfl, _⟩ | ⟨rfl, _⟩ | ⟨rfl, _⟩ <;>
        simp only [List.tail_cons, List.mem_cons, List.not_mem_nil, or_false] at hin <;> omega
  have er : read ⟨27 :: ((91 :: params ++ [final]) ++ rest), more⟩ = some (none, ⟨rest.drop k, more⟩) := by
    rw [read_esc, ht]
    simp only [interpret]
    rw [show 91 :: params ++ [final] ++ rest.take k = 91 :: (params ++ [final] ++ rest.take k) by simp] at hnone ⊢
    simp only [parseKey, if_pos]
    rw [hnone]
    simp
  rw [keysLeft_some er]
  rfl

/-- The hypotheses: ESC [ 5 ` (HPA) before "ab" loses the "a". -/
example : messages [csi [53] 96 ++ [97, 98]] = [{ type := .rune, rune := 'b' }] ∧
    ∃ k, Eaten 7 [97, 98] k ∧ messages [csi [53] 96 ++ [97, 98]] = messages [[97, 98].drop k] :=
  ⟨by decide +kernel, C196_swallowed_partial [53] 96 [97, 98] []
    (by intro b hb; simp only [List.mem_cons, List.not_mem_nil, or_false] at hb; unfold ParamByte; omega)
    (by unfold FinalByte; omega) (by unfold Known; omega) (by decide)⟩

/-- C196 is false: the report of a mouse movement at column 100, row 50 (ESC [ < 35 ; 100 ; 50 M) types "0M". -/
theorem C196_refuted : ¬ C196_statement := by
  intro H
  have := H [60, 51, 53, 59, 49, 48, 48, 59, 53, 48] 77 [] []
    (by intro b hb; simp only [List.mem_cons, List.not_mem_nil, or_false] at hb; unfold ParamByte; omega)
    (by unfold FinalByte; omega) (by
      intro hk
      have hlen : (csi [60, 51, 53, 59, 49, 48, 48, 59, 53, 48] 77).length = 13 := by decide
      generalize csi [60, 51, 53, 59, 49, 48, 48, 59, 53, 48] 77 = seq at hlen hk
      rcases hk with ⟨k, hv, rfl⟩ | rfl | rfl
      · cases k with
        | text c =>
          simp only [Key.bytes, utf8] at hlen
          split at hlen
          · simp at hlen
          · split at hlen
            · simp at hlen
            · split at hlen <;> simp at hlen
        | f n =>
          simp only [Key.bytes] at hlen
          unfold fBytes at hlen
          split at hlen <;> simp at hlen
        | _ => simp [Key.bytes] at hlen
      · simp at hlen
      · simp at hlen)
  revert this
  decide +kernel

/-- The hypotheses: a press at column 5, row 7 (ESC [ < 0 ; 5 ; 7 M) is no input, ... -/
example : messages [csi [60, 48, 59, 53, 59, 55] 77 ++ [97]] = [{ type := .rune, rune := 'a' }] ∧
    ([60, 48, 59, 53, 59, 55] : List Nat).length ≤ 8 ∧ ∀ b ∈ ([60, 48, 59, 53, 59, 55] : List Nat), ParamByte b := by
  refine ⟨by decide +kernel, by decide, ?_⟩
  intro b hb; simp only [List.mem_cons, List.not_mem_nil, or_false] at hb; unfold ParamByte; omega

/-- ... one at column 120, row 40 types "0M" in front of it. -/
example : messages [csi [60, 51, 53, 59, 49, 50, 48, 59, 52, 48] 77 ++ [97]] =
    [{ type := .rune, rune := '0' }, { type := .rune, rune := 'M' }, { type := .rune, rune := 'a' }] := by decide +kernel

end Phoenix.Input
