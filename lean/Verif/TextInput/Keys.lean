import Verif.TextInput.Props
/-
Text input: key table (C133) and configuration calls (C134), added by mutation testing.
-/
set_option linter.unusedVariables false
set_option linter.unusedSimpArgs false
namespace Phoenix.TextInput

/-- Nothing but text, cursor and selection changed. -/
def SameSetup (a b : T) : Prop :=
  a.validator = b.validator ∧ a.width = b.width ∧ a.focused = b.focused ∧ a.showCursor = b.showCursor

/-- C133: what every key does to a focused input without a selection, after any history.  `cl` are the
user-visible characters (grapheme clusters) of the text and `c` the number of those before the cursor. -/
theorem C133_key_table (S : Seg) (w : Int) (ops : List Op) (k : KeyMsg) :
    let t := (new w).run S ops
    let t' := t.apply S (.key k)
    let cl := S.clusters t.content
    let c := t.cursor.toNat
    let before := (cl.take c).flatten
    let after := (cl.drop c).flatten
    t.focused = true → t.hasSelection = false →
    SameSetup t' t ∧
    (k.ctrl = false →
      (k.type = .left → t'.content = t.content ∧ t'.cursor = max 0 (t.cursor - 1)) ∧
      (k.type = .right → t'.content = t.content ∧ t'.cursor = min (cl.length : Int) (t.cursor + 1)) ∧
      (k.type = .home → t'.content = t.content ∧ t'.cursor = 0) ∧
      (k.type = .end → t'.content = t.content ∧ t'.cursor = cl.length) ∧
      (k.type = .backspace → t'.content = (cl.take (c - 1)).flatten ++ after ∧ t'.cursor = max 0 (t.cursor - 1)) ∧
      (k.type = .delete → t'.content = before ++ (cl.drop (c + 1)).flatten ∧ t'.cursor = t.cursor) ∧
      (k.type = .space → t'.content = before ++ ' ' :: after) ∧
      (k.type = .rune → t'.content = before ++ k.rune :: after) ∧
      (k.type ∉ [KeyType.left, .right, .home, .end, .backspace, .delete, .space, .rune] → t' = t)) ∧
    (k.ctrl = true →
      (k.rune ∈ ['a', 'A'] → t'.content = t.content ∧ t'.cursor = cl.length ∧ t'.selection = some ⟨0, cl.length⟩) ∧
      (k.rune ∈ ['e', 'E'] → t'.content = t.content ∧ t'.cursor = cl.length ∧ t'.hasSelection = false) ∧
      (k.rune ∈ ['u', 'U'] → t'.content = [] ∧ t'.cursor = 0 ∧ t'.hasSelection = false)) := by
  intro t t' cl c before after hf hs
  have h : Ok S t := run_ok S ops (new_ok S w)
  obtain ⟨m1, m2, m3, m4, m5, m6, m7, m8, m9⟩ := C65_moves S w ops
  have hb := C65_backspace S w ops hs
  have hd := C65_delete S w ops hs
  have hi := fun r => (C65_insert S w ops r hs).2
  have ht' : t' = t.handleKey S k := by
    show t.update S k = _
    unfold T.update; rw [if_neg (by simp [hf])]
  have hcl : S.count t.content = (cl.length : Int) := rfl
  have hlo := h.lo
  have hhi := h.hi
  rw [hcl] at hhi
  have hcur : t.cursor = (c : Int) := (Int.toNat_of_nonneg hlo).symm
  have hsplit : before ++ after = t.content := (C65_insert S w ops 'x' hs).1.symm
  have hb : (t.cursor = 0 → t.deleteBackward S = t) ∧ (∀ k, t.cursor = (k : Nat) + 1 →
      (t.deleteBackward S).content = (cl.take k).flatten ++ (cl.drop (k + 1)).flatten ∧ (t.deleteBackward S).cursor = k) := hb
  have hd : (t.cursor = cl.length → t.deleteForward S = t) ∧ (t.cursor < cl.length →
      (t.deleteForward S).content = (cl.take c).flatten ++ (cl.drop (c + 1)).flatten ∧
      (t.deleteForward S).cursor = t.cursor) := hd
  have hi : ∀ r, (t.insertRune S r).content = before ++ r :: after := hi
  change (t.moveLeft S).cursor = max 0 (t.cursor - 1) at m6
  change (t.moveRight S).cursor = min (cl.length : Int) (t.cursor + 1) at m7
  change (t.moveEnd S).cursor = (cl.length : Int) at m9
  have setup : SameSetup t' t := by
    rw [ht']
    unfold T.handleKey
    split
    · exact ⟨rfl, rfl, rfl, rfl⟩
    split
    · exact ⟨rfl, rfl, rfl, rfl⟩
    split
    · exact ⟨rfl, rfl, rfl, rfl⟩
    · have hins : ∀ r, SameSetup (t.insertRune S r) t := fun r => by
        unfold T.insertRune; rw [hs]; exact ⟨rfl, rfl, rfl, rfl⟩
      unfold T.handleType
      cases k.type <;> first
        | exact ⟨rfl, rfl, rfl, rfl⟩
        | exact hins _
        | (unfold T.deleteBackward; rw [hs]; simp only [Bool.false_eq_true, if_false]; split <;> exact ⟨rfl, rfl, rfl, rfl⟩)
        | (unfold T.deleteForward; rw [hs]; simp only [Bool.false_eq_true, if_false]; split <;> exact ⟨rfl, rfl, rfl, rfl⟩)
  refine ⟨setup, ?_, ?_⟩
  · intro hc
    have e : t' = t.handleType S k := by rw [ht']; simp [T.handleKey, hc]
    rw [e]
    unfold T.handleType
    refine ⟨fun e => ?_, fun e => ?_, fun e => ?_, fun e => ?_, fun e => ?_, fun e => ?_, fun e => ?_, fun e => ?_, fun e => ?_⟩
    · rw [e]; exact ⟨rfl, m6⟩
    · rw [e]; exact ⟨rfl, m7⟩
    · rw [e]; exact ⟨rfl, rfl⟩
    · rw [e]; exact ⟨rfl, m9⟩
    · rw [e]
      show (t.deleteBackward S).content = _ ∧ (t.deleteBackward S).cursor = _
      by_cases h0 : t.cursor = 0
      · rw [hb.1 h0]
        refine ⟨?_, by omega⟩
        have : c = 0 := by omega
        rw [← hsplit]; simp [before, after, this]
      · have := hb.2 (c - 1) (by omega)
        rw [this.1, this.2, show c - 1 + 1 = c by omega]
        exact ⟨rfl, by omega⟩
    · rw [e]
      show (t.deleteForward S).content = _ ∧ (t.deleteForward S).cursor = _
      by_cases h0 : t.cursor = cl.length
      · rw [hd.1 h0]
        refine ⟨?_, rfl⟩
        have h1 : cl.drop (c + 1) = [] := List.drop_of_length_le (by omega)
        have h2 : cl.drop c = [] := List.drop_of_length_le (by omega)
        rw [← hsplit]; simp only [before, after, h1, h2]
      · exact hd.2 (by omega)
    · rw [e]; exact hi ' '
    · rw [e]; exact hi k.rune
    · revert e; cases k.type <;> simp
  · intro hc
    rw [ht']
    unfold T.handleKey
    refine ⟨fun e => ?_, fun e => ?_, fun e => ?_⟩
    · rw [if_pos ⟨hc, by simpa using e⟩]
      refine ⟨rfl, ?_, ?_⟩
      · show newCursor (S.count t.content) = _
        rw [hcl]; simp only [newCursor]; split <;> omega
      · show some (newSelection 0 (S.count t.content)) = _
        rw [hcl]; simp only [newSelection]
        rw [if_neg (by omega), if_neg (by omega), if_neg (by omega)]
    · have : k.rune = 'e' ∨ k.rune = 'E' := by simpa using e
      rw [if_neg (by rcases this with e | e <;> simp [e]), if_neg (by rcases this with e | e <;> simp [e]), if_pos ⟨hc, this⟩]
      exact ⟨rfl, m9, rfl⟩
    · have : k.rune = 'u' ∨ k.rune = 'U' := by simpa using e
      rw [if_neg (by rcases this with e | e <;> simp [e]), if_pos ⟨hc, this⟩]
      exact ⟨rfl, rfl, rfl⟩

/-- C133, selection: every unmodified cursor key drops the selection and leaves the text alone. -/
theorem C133_moves_drop_selection (S : Seg) (t : T) (k : KeyMsg) (hf : t.focused = true) (hc : k.ctrl = false)
    (hk : k.type ∈ [KeyType.left, .right, .home, .end]) :
    (t.apply S (.key k)).hasSelection = false ∧ (t.apply S (.key k)).content = t.content := by
  have e : t.apply S (.key k) = t.handleType S k := by
    show t.update S k = _
    unfold T.update; rw [if_neg (by simp [hf])]; simp [T.handleKey, hc]
  rw [e]
  unfold T.handleType
  simp only [List.mem_cons, List.not_mem_nil, or_false] at hk
  rcases hk with h | h | h | h <;> rw [h] <;> exact ⟨rfl, rfl⟩

example : let t := (new 10).run accents [.withFocus true, .setContent ['a', 'b', 'c'] 3, .key { type := .left },
    .key { type := .backspace }, .key { type := .rune, rune := 'x' }]
    t.content = ['a', 'x', 'c'] ∧ t.cursor = 2 := by decide

/-! ## C134 configuration -/

/-- C134: setting the text sets exactly the text (clamping the cursor into it); the other configuration calls
change exactly what they name; validity is the configured validator's verdict on the current text. -/
theorem C134_config (S : Seg) (t : T) (s : Str) (p : Int) (n : Int) (v : Option (Str → Option VErr)) (b : Bool) :
    (∀ t' ∈ [t.apply S (.withContent s), t.apply S (.setContent s p)], t'.content = s ∧ SameSetup t' t) ∧
    (0 ≤ p → p ≤ (S.clusters s).length → (t.apply S (.setContent s p)).cursor = p) ∧
    (p > (S.clusters s).length → (t.apply S (.setContent s p)).cursor = (S.clusters s).length) ∧
    (p < 0 → (t.apply S (.setContent s p)).cursor = 0) ∧
    (t.apply S (.setContent s p)).hasSelection = false ∧
    (0 ≤ t.cursor → t.cursor ≤ (S.clusters s).length → (t.apply S (.withContent s)).cursor = t.cursor) ∧
    (t.cursor > (S.clusters s).length → (t.apply S (.withContent s)).cursor = (S.clusters s).length) ∧
    t.apply S (.withWidth n) = { t with width := max 1 n } ∧
    t.apply S (.withFocus b) = { t with focused := b } ∧
    t.apply S (.withShowCursor b) = { t with showCursor := b } ∧
    t.apply S (.withValidator v) = { t with validator := v } ∧
    ((t.apply S (.withValidator v)).isValid = true ↔ ∀ f, v = some f → f t.content = none) := by
  have hcl : S.count s = ((S.clusters s).length : Int) := rfl
  refine ⟨?_, ?_, ?_, ?_, rfl, ?_, ?_, ?_, rfl, rfl, rfl, ?_⟩
  · intro t' ht'
    simp only [List.mem_cons, List.not_mem_nil, or_false] at ht'
    rcases ht' with rfl | rfl <;> exact ⟨rfl, rfl, rfl, rfl, rfl⟩
  · intro h1 h2
    show newCursor (moveTo p (S.count s)) = p
    simp only [newCursor, moveTo, hcl]; (repeat' split) <;> omega
  · intro h
    show newCursor (moveTo p (S.count s)) = _
    simp only [newCursor, moveTo, hcl]; (repeat' split) <;> omega
  · intro h
    show newCursor (moveTo p (S.count s)) = _
    simp only [newCursor, moveTo, hcl]; (repeat' split) <;> omega
  · intro h1 h2
    show moveTo t.cursor (S.count s) = _
    simp only [moveTo, hcl]; (repeat' split) <;> omega
  · intro h
    show moveTo t.cursor (S.count s) = _
    simp only [moveTo, hcl]; (repeat' split) <;> omega
  · show ({ t with width := _ } : T) = _
    congr 1
    split <;> omega
  · show (T.validate { t with validator := v }).isNone = true ↔ _
    cases v <;> simp [T.validate]

example : ((new 5).apply accents (.withValidator (some (minLength 2)))).isValid = false := by decide

end Phoenix.TextInput
