import Verif.Tea.PublicModel
/-
C140 messages cross the public API unchanged; C141 key names identify keys.
-/
set_option linter.unusedVariables false
set_option linter.unusedSimpArgs false
namespace Phoenix.Public

mutual
theorem pub_int {α} : (m : PMsg α) → toPub (toInt m) = m
  | .key .. | .mouse .. | .size .. | .quit | .println _ | .tick _ | .app _ => rfl
  | .batch ms => by simp only [toInt, toPub]; rw [pubs_ints ms]
  | .seq ms => by simp only [toInt, toPub]; rw [pubs_ints ms]
theorem pubs_ints {α} : (ms : List (PMsg α)) → toPubs (toInts ms) = ms
  | [] => rfl
  | m :: ms => by simp only [toInts, toPubs]; rw [pub_int m, pubs_ints ms]
end

mutual
theorem int_pub {α} : (m : IMsg α) → toInt (toPub m) = m
  | .key .. | .mouse .. | .size .. | .quit | .println _ | .tick _ | .app _ => rfl
  | .batch ms => by simp only [toInt, toPub]; rw [ints_pubs ms]
  | .seq ms => by simp only [toInt, toPub]; rw [ints_pubs ms]
theorem ints_pubs {α} : (ms : List (IMsg α)) → toInts (toPubs ms) = ms
  | [] => rfl
  | m :: ms => by simp only [toInts, toPubs]; rw [int_pub m, ints_pubs ms]
end

/-- C140: whatever is sent — with Send, or as the result of a command — is what Update is called with: a message of the
application arrives as it was, however deeply batches and sequences are nested. -/
theorem C140_update_gets_what_was_sent {α ω σ} (init : σ → PCmd α ω) (update : σ → PMsg α → σ × PCmd α ω) (s : σ) (m : PMsg α) :
    ((wrap init update).update s (send m)).1 = (update s m).1 ∧
    (((wrap init update).update s (send m)).2.isSome ↔ (update s m).2.isSome) ∧
    (∀ f w, (update s m).2 = some f →
      ∃ g, ((wrap init update).update s (send m)).2 = some g ∧
        ∀ s', ((wrap init update).update s' (g w)).1 = (update s' (f w)).1) ∧
    (∀ f w, init s = some f → ∃ g, (wrap init update).init s = some g ∧
        ∀ s', ((wrap init update).update s' (g w)).1 = (update s' (f w)).1) := by
  have h : toPub (send m) = m := pub_int m
  refine ⟨?_, ?_, ?_, ?_⟩
  · simp only [wrap, h]
  · simp only [wrap, h, cmdToInt, Option.isSome_map]
  · intro f w hf
    refine ⟨fun w => toInt (f w), ?_, ?_⟩
    · simp only [wrap, h, cmdToInt, hf, Option.map_some]
    · intro s'; simp only [wrap, pub_int]
  · intro f w hf
    refine ⟨fun w => toInt (f w), ?_, ?_⟩
    · simp only [wrap, cmdToInt, hf, Option.map_some]
    · intro s'; simp only [wrap, pub_int]

/-- C140: different messages stay different inside the program, and every internal message (a key read from the terminal, a
window size) has exactly one public form. -/
theorem C140_no_confusion {α} (m n : PMsg α) (i : IMsg α) :
    (send m = send n → m = n) ∧ send (toPub i) = i := by
  refine ⟨fun h => ?_, int_pub i⟩
  have := congrArg toPub h
  simpa [send, pub_int] using this

/-- The number of a constant in its declaration. -/
def codeIn {κ : Type} [DecidableEq κ] (l : List κ) (k : κ) : Nat := l.idxOf k

/-- C140: the conversions keep numbers, and the numbers mean the same on both sides: every key, mouse button and mouse action
is declared on both sides, once, under the same number. -/
theorem C140_constants_agree :
    (∀ k : KeyType, k ∈ pubKeys ∧ k ∈ intKeys ∧ codeIn pubKeys k = codeIn intKeys k) ∧
    (∀ b : MouseButton, b ∈ pubButtons ∧ b ∈ intButtons ∧ codeIn pubButtons b = codeIn intButtons b) ∧
    (∀ a : MouseAction, a ∈ pubActions ∧ a ∈ intActions ∧ codeIn pubActions a = codeIn intActions a) ∧
    pubKeys.Nodup ∧ intKeys.Nodup ∧ pubButtons.Nodup ∧ pubActions.Nodup := by
  refine ⟨fun k => ?_, fun b => ?_, fun a => ?_, by decide, by decide, by decide, by decide⟩
  · cases k <;> decide
  · cases b <;> decide
  · cases a <;> decide

/-- C140: the key the input reader reports under its internal number is the key the application sees under the public constant
of the same name, with the same rune and modifiers. -/
theorem C140_keys_arrive {α} (k : KeyType) (r : Int) (a c s : Bool) :
    toPub (IMsg.key (α := α) (codeIn intKeys k) r a c s) = .key (codeIn pubKeys k) r a c s := by
  cases k <;> rfl

/-- C140: mouse events arrive with their button, action, position and modifiers. -/
theorem C140_mouse_arrives {α} (b : MouseButton) (k : MouseAction) (x y : Int) (a c s : Bool) :
    toPub (IMsg.mouse (α := α) x y (codeIn intButtons b) (codeIn intActions k) a c s) =
      .mouse x y (codeIn pubButtons b) (codeIn pubActions k) a c s := by
  cases b <;> cases k <;> rfl

/-- C140: a window size is valid exactly when both dimensions are positive. -/
theorem C140_size_valid (w h : Int) : sizeIsValid w h = true ↔ 0 < w ∧ 0 < h := by
  simp [sizeIsValid]

example : toPub (send (.batch [.key 0 97 false true false, .seq [.app "x", .quit]] : PMsg String)) =
    .batch [.key 0 97 false true false, .seq [.app "x", .quit]] := rfl

/-! ## C141: key names -/

/-- Specification: the key press a message stands for. A rune key is its rune with Alt and Ctrl (Shift is part of the
rune); any other key is its type with the three modifiers; the dedicated Ctrl+C type is Ctrl and the rune c. -/
def press (k : KeyMsg) : KeyType × Option Char × Bool × Bool × Bool :=
  if k.type = .ctrlC then (.rune, some 'c', false, true, false)
  else if k.type = .rune then (.rune, some k.rune, k.alt, k.ctrl, false)
  else (k.type, none, k.alt, k.ctrl, k.shift)

/-- The four characters that are also names of arrow keys. -/
def arrows : List Char := ['↑', '↓', '←', '→']

/-- Remove a prefix. -/
def strip (p s : List Char) : Bool × List Char := if p.isPrefixOf s then (true, s.drop p.length) else (false, s)

/-- The keys that have a name of their own. -/
def named : List KeyType :=
  [.enter, .backspace, .tab, .esc, .space, .up, .down, .left, .right, .home, .end, .pgUp, .pgDown, .delete,
   .insert, .f1, .f2, .f3, .f4, .f5, .f6, .f7, .f8, .f9, .f10, .f11, .f12]

/-- Reading a key name. -/
def decodeName (s : List Char) : KeyType × Option Char × Bool × Bool × Bool :=
  let a := strip "alt+".toList s
  let c := strip "ctrl+".toList a.2
  let h := strip "shift+".toList c.2
  match named.find? (fun t => keyTypeName t 'x' == h.2) with
  | some t => (t, none, a.1, c.1, h.1)
  | none => (.rune, h.2.head?, a.1, c.1, false)

theorem find_single (r : Char) (h : r ∉ arrows) :
    named.find? (fun t => keyTypeName t 'x' == [r]) = none := by
  have key : ∀ t ∈ named, (keyTypeName t 'x').length = 1 → ∀ c, (keyTypeName t 'x').head? = some c → c ∈ arrows := by
    have : named.all (fun t => (keyTypeName t 'x').length != 1 || ((keyTypeName t 'x').head?.all (arrows.contains ·))) = true := by
      decide +kernel
    intro t ht hl c hc
    have h1 := List.all_eq_true.1 this t ht
    simp only [hl, hc, bne_self_eq_false, Bool.false_or, Option.all_some, List.contains_iff_mem] at h1
    exact h1
  rw [List.find?_eq_none]
  intro t ht e
  have e' : keyTypeName t 'x' = [r] := by simpa using e
  exact h (key t ht (by rw [e']; rfl) r (by rw [e']; rfl))

theorem strip_single (p : List Char) (a b r : Char) (q : List Char) (h : p = a :: b :: q) :
    strip p [r] = (false, [r]) := by
  subst h; simp [strip, List.isPrefixOf]

theorem strip_app (p s : List Char) : strip p (p ++ s) = (true, s) := by
  simp [strip]

theorem name_rune (r : Char) : keyTypeName .rune r = [r] := rfl

theorem str_rune (r : Char) (a c s : Bool) : KeyMsg.str { type := .rune, rune := r, alt := a, ctrl := c, shift := s } =
    (if a then "alt+".toList else []) ++ (if c then "ctrl+".toList else []) ++ [r] := by
  have h1 : ¬ (KeyType.rune = KeyType.ctrlC) := by decide
  have h2 : (s && KeyType.rune != KeyType.rune) = false := by cases s <;> rfl
  unfold KeyMsg.str
  simp only [h1, if_false, h2, name_rune, Bool.false_eq_true, List.append_nil]

theorem str_ctrlC (r : Char) (a c s : Bool) :
    KeyMsg.str { type := .ctrlC, rune := r, alt := a, ctrl := c, shift := s } = "ctrl+c".toList := by
  unfold KeyMsg.str; rw [if_pos rfl]

theorem ctrl_c : "ctrl+c".toList = "ctrl+".toList ++ ['c'] := by decide

theorem decode_rune (r : Char) (a c s : Bool) (h : r ∉ arrows) :
    decodeName (KeyMsg.str { type := .rune, rune := r, alt := a, ctrl := c, shift := s }) =
      (.rune, some r, a, c, false) := by
  have f := find_single r h
  have s1 := strip_single "alt+".toList 'a' 'l' r ['t', '+'] rfl
  have s2 := strip_single "ctrl+".toList 'c' 't' r ['r', 'l', '+'] rfl
  have s3 := strip_single "shift+".toList 's' 'h' r ['i', 'f', 't', '+'] rfl
  have s4 : strip "alt+".toList ("ctrl+".toList ++ [r]) = (false, "ctrl+".toList ++ [r]) := by
    simp [strip, List.isPrefixOf]
  cases a <;> cases c
  · have e : KeyMsg.str { type := .rune, rune := r, alt := false, ctrl := false, shift := s } = [r] := by
      rw [str_rune]; rfl
    rw [e]; simp only [decodeName, s1, s2, s3, f, List.head?_cons]
  · have e : KeyMsg.str { type := .rune, rune := r, alt := false, ctrl := true, shift := s } = "ctrl+".toList ++ [r] := by
      rw [str_rune]; simp only [if_true, Bool.false_eq_true, if_false, List.nil_append]
    rw [e]; simp only [decodeName, s4, strip_app, s3, f, List.head?_cons]
  · have e : KeyMsg.str { type := .rune, rune := r, alt := true, ctrl := false, shift := s } = "alt+".toList ++ [r] := by
      rw [str_rune]; simp only [if_true, Bool.false_eq_true, if_false, List.append_nil]
    rw [e]; simp only [decodeName, strip_app, s2, s3, f, List.head?_cons]
  · have e : KeyMsg.str { type := .rune, rune := r, alt := true, ctrl := true, shift := s } =
        "alt+".toList ++ ("ctrl+".toList ++ [r]) := by
      rw [str_rune]; simp only [if_true, List.append_assoc]
    rw [e]; simp only [decodeName, strip_app, s3, f, List.head?_cons]

theorem str_irrelevant (t : KeyType) (r : Char) (a c s : Bool) (h : t ≠ .rune) :
    KeyMsg.str { type := t, rune := r, alt := a, ctrl := c, shift := s } =
      KeyMsg.str { type := t, rune := 'x', alt := a, ctrl := c, shift := s } := by
  cases t <;> first | exact absurd rfl h | rfl

theorem decode_named (t : KeyType) (a c s : Bool) (h : t ≠ .rune) (h2 : t ≠ .ctrlC) :
    decodeName (KeyMsg.str { type := t, rune := 'x', alt := a, ctrl := c, shift := s }) = (t, none, a, c, s) := by
  have key : ∀ t ∈ named, ∀ a c s : Bool,
      decodeName (KeyMsg.str { type := t, rune := 'x', alt := a, ctrl := c, shift := s }) = (t, none, a, c, s) := by
    decide +kernel
  have : t ∈ named := by cases t <;> first | exact absurd rfl h | exact absurd rfl h2 | decide
  exact key t this a c s

theorem decode_str (k : KeyMsg) (h : k.type = .rune → k.rune ∉ arrows) : decodeName k.str = press k := by
  obtain ⟨t, r, a, c, s⟩ := k
  by_cases h1 : t = .rune
  · subst h1; rw [decode_rune r a c s (h rfl)]; simp [press]
  · by_cases h2 : t = .ctrlC
    · subst h2
      have : KeyMsg.str { type := .ctrlC, rune := r, alt := a, ctrl := c, shift := s } =
        KeyMsg.str { type := .rune, rune := 'c', alt := false, ctrl := true, shift := false } := by
        rw [str_ctrlC, str_rune, ctrl_c]; rfl
      rw [this, decode_rune 'c' false true false (by decide)]; simp [press]
    · rw [str_irrelevant t r a c s h1, decode_named t a c s h1 h2]; simp [press, h1, h2]

theorem str_press (k l : KeyMsg) (h : press k = press l) : k.str = l.str := by
  obtain ⟨t, r, a, c, s⟩ := k
  obtain ⟨t', r', a', c', s'⟩ := l
  have key : ∀ (t : KeyType) (r : Char) (a c s : Bool), KeyMsg.str ⟨t, r, a, c, s⟩ =
      (if (press ⟨t, r, a, c, s⟩).2.2.1 then "alt+".toList else []) ++
      (if (press ⟨t, r, a, c, s⟩).2.2.2.1 then "ctrl+".toList else []) ++
      (if (press ⟨t, r, a, c, s⟩).2.2.2.2 then "shift+".toList else []) ++
      keyTypeName (press ⟨t, r, a, c, s⟩).1 ((press ⟨t, r, a, c, s⟩).2.1.getD 'x') := by
    intro t r a c s
    by_cases h1 : t = .rune
    · subst h1
      have e : press ⟨.rune, r, a, c, s⟩ = (.rune, some r, a, c, false) := by simp [press]
      rw [str_rune, e]
      simp only [Option.getD_some, name_rune, Bool.false_eq_true, if_false, List.append_nil]
    · by_cases h2 : t = .ctrlC
      · subst h2
        have e : press ⟨.ctrlC, r, a, c, s⟩ = (.rune, some 'c', false, true, false) := by simp [press]
        rw [str_ctrlC, e, ctrl_c]
        simp only [Option.getD_some, name_rune, Bool.false_eq_true, if_false, if_true, List.append_nil, List.nil_append]
      · have e : keyTypeName t r = keyTypeName t 'x' := by cases t <;> first | exact absurd rfl h1 | rfl
        simp [KeyMsg.str, press, h1, h2, e]
  rw [key, key, h]

/-- C141: the full claim: two key messages have the same name exactly when they are the same key press. -/
def C141_statement : Prop := ∀ k l : KeyMsg, k.str = l.str ↔ press k = press l

/-- C141: the same key press always has the same name; the name tells the key press apart from every other, the only
exception being the four arrow characters. -/
theorem C141_names_identify_keys_partial (k l : KeyMsg) :
    (press k = press l → k.str = l.str) ∧
    ((k.type = .rune → k.rune ∉ arrows) → (l.type = .rune → l.rune ∉ arrows) → k.str = l.str → press k = press l) := by
  refine ⟨str_press k l, fun hk hl h => ?_⟩
  rw [← decode_str k hk, ← decode_str l hl, h]

/-- C141: typing the character ↑ has the same name as the Up key. -/
theorem C141_arrow_refuted : ¬ C141_statement := by
  intro h
  have := (h { type := .rune, rune := '↑' } { type := .up }).1 (by decide)
  revert this; decide

/-- C141: the documented examples, and Ctrl+C under both its spellings. -/
theorem C141_documented_names :
    KeyMsg.str { type := .rune, rune := 'a' } = "a".toList ∧
    KeyMsg.str { type := .rune, rune := 'A', shift := true } = "A".toList ∧
    KeyMsg.str { type := .enter } = "enter".toList ∧
    KeyMsg.str { type := .rune, rune := 'c', ctrl := true } = "ctrl+c".toList ∧
    (∀ r a c s, KeyMsg.str { type := .ctrlC, rune := r, alt := a, ctrl := c, shift := s } = "ctrl+c".toList) ∧
    KeyMsg.str { type := .up } = "↑".toList ∧ KeyMsg.str { type := .f1 } = "F1".toList ∧
    KeyMsg.str { type := .tab, shift := true } = "shift+tab".toList ∧
    KeyMsg.str { type := .rune, rune := 'x', alt := true, ctrl := true } = "alt+ctrl+x".toList := by
  refine ⟨by decide, by decide, by decide, by decide, fun r a c s => str_ctrlC r a c s, by decide, by decide, by decide,
    by decide⟩

example : press { type := .rune, rune := 'c', ctrl := true } = press { type := .ctrlC } := by decide
example : ¬ press { type := .tab, shift := true } = press { type := .tab } := by decide

end Phoenix.Public
