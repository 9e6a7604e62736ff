import Verif.Tea.KeyScreenProps
import Verif.TextInput.Props
import Verif.TextArea.Props
/-
C190, C191: the text components inside a running program, typed into through the terminal.  The program's model is the
component; Update passes every key message on to it.  All models are those of the parts: Tea/TypingModel.lean,
TextInput/Model.lean, TextArea/Model.lean.
-/
set_option linter.unusedVariables false
namespace Phoenix.Editor
open Phoenix.Program

/-- A program around a component: Update passes keys on (components/input/input.go:154-170,
components/input/textarea.go Update); no commands. -/
def around {σ : Type} (init : σ) (upd : σ → KeyMsg → σ) : App KeyMsg σ where
  init := init
  initCmd := none
  update := fun m x => match x with
    | .user k => (upd m k, none)
    | _ => (m, none)

theorem afterKeys_around {σ : Type} (init : σ) (upd : σ → KeyMsg → σ) (ks : List KeyMsg) :
    KeyScreen.afterKeys (around init upd) id ks = ks.foldl upd init := by
  unfold KeyScreen.afterKeys
  rfl

/-- Nobody but the keyboard sends messages: at every moment Update has been called with the first keys of the input, in
order. -/
theorem delivered_keys {α σ : Type} {a : App α σ} {cap : Nat} {key : KeyMsg → α} {chunks : List (List Nat)}
    {s : Typing.St α σ} (h : Typing.Reach a cap key chunks s) (ho : s.others = []) :
    ∃ k, s.p.model = KeyScreen.afterKeys a key ((Input.messages chunks).take k) ∧
      (s.stolen = 0 → s.cancelled = false → s.p.loop = .select → s.p.queue = [] → s.ended = true →
        (Input.messages chunks).length ≤ k) := by
  obtain ⟨hpre, hm, hq, hd, hmod⟩ := Typing.C188_in_order_partial h
  have hacc := KeyScreen.merge_nil hm ho
  have hcons : s.p.consumed <+: s.typed := ⟨s.p.queue, by rw [← hq, hacc]⟩
  obtain ⟨n1, hc⟩ := KeyScreen.prefix_keyMsgs key (hcons.trans hpre)
  have hfil : s.p.consumed.filter Msg.isUser = s.p.consumed := by
    rw [hc]
    apply List.filter_eq_self.2
    intro x hx
    obtain ⟨k, _, rfl⟩ := List.mem_map.1 hx
    rfl
  rw [hfil] at hd
  obtain ⟨k, hk⟩ := KeyScreen.prefix_keyMsgs key (List.IsPrefix.trans ⟨_, hd⟩ (hcons.trans hpre))
  refine ⟨k, ?_, ?_⟩
  · rw [← KeyScreen.modelAfter_keys, ← hk]; exact hmod
  · intro h1 h2 hl hqq he
    have i := Typing.tinv h
    obtain ⟨d1, d2⟩ := i.drained he h1 h2
    have hf := i.flow h1 h2
    rw [d1, Input.keysLeft_none d2] at hf
    have hf' : s.typed = Typing.keyMsgs key (Input.messages chunks) := by
      have : s.typed ++ [] ++ [] = _ := hf
      rwa [List.append_nil, List.append_nil] at this
    have hdl : s.p.delivered = s.typed := by
      have e1 : s.p.delivered ++ [] = s.p.consumed := by rw [← hd, hl]; rfl
      have e2 : s.p.consumed ++ s.p.queue = s.typed := by rw [← hq, hacc]
      rw [hqq, List.append_nil] at e2
      rw [List.append_nil] at e1
      rw [e1, e2]
    have := congrArg List.length (hk.symm.trans (hdl.trans hf'))
    unfold Typing.keyMsgs at this
    rw [List.length_map, List.length_map, List.length_take] at this
    omega

/-! ## Typing text -/

/-- A character one can type as text: printable, or a space. -/
def Typeable (c : Char) : Prop := 32 ≤ c.toNat ∧ c.toNat ≠ 127

/-- The key of a character. -/
def charKey (c : Char) : Input.Key := if c = ' ' then .space else .text c

theorem charKey_supported {c : Char} (h : Typeable c) : (charKey c).Supported := by
  unfold charKey
  split
  · exact ⟨trivial, by intro n h; cases h⟩
  · rename_i hc
    refine ⟨⟨?_, h.2⟩, by intro n h; cases h⟩
    have : c.toNat ≠ 32 := by
      intro e
      apply hc
      have : c.toNat = (' ' : Char).toNat := e
      exact Char.ext (UInt32.toNat_inj.1 this)
    have := h.1
    omega

theorem charKey_bytes (c : Char) : (charKey c).isSeq = false ∧ (charKey c).bytes = Input.utf8 c.toNat := by
  unfold charKey
  split
  · rename_i h; subst h; exact ⟨rfl, by decide⟩
  · exact ⟨rfl, rfl⟩

theorem charKey_types (c : Char) : TextInput.Types (charKey c).msg c := by
  unfold charKey
  split
  · rename_i h; subst h; exact .space _ rfl rfl
  · exact .rune _ rfl rfl

/-- The UTF-8 bytes of a text, in any chunks, are decoded to its keys. -/
theorem messages_text (cs : List Char) (hv : ∀ c ∈ cs, Typeable c) (chunks : List (List Nat))
    (hc : chunks.flatten = cs.flatMap fun c => Input.utf8 c.toNat) :
    Input.messages chunks = cs.map fun c => (charKey c).msg := by
  have h := Input.C25_partial (cs.map charKey) (by
      intro k hk
      simp only [List.mem_map] at hk
      obtain ⟨c, hc, rfl⟩ := hk
      exact charKey_supported (hv c hc))
    (chunks.map (·.map .byte)) (by
      rw [← List.map_flatten, hc, List.flatMap_map, List.map_flatMap]
      congr 1
      funext c
      rw [Input.Key.pieces, (charKey_bytes c).1, (charKey_bytes c).2]
      rfl)
    (by
      intro x hx
      simp only [List.mem_map] at hx
      obtain ⟨y, _, rfl⟩ := hx
      have := Input.EscLast.prepend (l := y) (b := []) (by intro a b h; simp at h)
      simpa using this)
  rw [List.map_map, List.map_map] at h
  have e : chunks.map (Input.bytesOf ∘ fun x => x.map .byte) = chunks := by
    conv => rhs; rw [← List.map_id chunks]
    apply List.map_congr_left
    intro x _
    exact Input.bytesOf_byte x
  rw [e] at h
  rw [h]
  rfl

/-! ## C190: a text input in a running program -/

open TextInput in
/-- A program around a focused, empty text input. -/
def inputApp (S : Seg) (w : Int) : App KeyMsg T := around ((new w).withFocus true) (T.update S)

/-- C190.  The bytes of any text (printable characters and spaces, UTF-8, in chunks of any size) typed at the terminal
of a program around a text input.  In every execution, at every moment: the content of the input is a beginning of the
text, with the cursor behind it; when the input is read and the program is idle it is the whole text. -/
theorem C190_input {S : TextInput.Seg} {w : Int} {cap : Nat} (cs : List Char) (hv : ∀ c ∈ cs, Typeable c)
    (chunks : List (List Nat)) (hc : chunks.flatten = cs.flatMap fun c => Input.utf8 c.toNat)
    {s : Typing.St KeyMsg TextInput.T} (h : Typing.Reach (inputApp S w) cap id chunks s) (ho : s.others = []) :
    s.p.model.content <+: cs ∧
    s.p.model.cursor = (S.clusters s.p.model.content).length ∧
    (s.stolen = 0 → s.cancelled = false → s.p.loop = .select → s.p.queue = [] → s.ended = true →
      s.p.model.content = cs) := by
  obtain ⟨k, hm, hall⟩ := delivered_keys h ho
  rw [messages_text cs hv chunks hc] at hm hall
  have ht := TextInput.C65_typing S w ((cs.take k).map fun c => ((charKey c).msg, c)) (by
    intro p hp
    obtain ⟨c, _, rfl⟩ := List.mem_map.1 hp
    exact charKey_types c)
  have e2 : ((cs.take k).map fun c => ((charKey c).msg, c)).map (·.2) = cs.take k := by
    rw [List.map_map]
    conv => rhs; rw [← List.map_id (cs.take k)]
    rfl
  have e1 : s.p.model = (((TextInput.new w).withFocus true).run S
      (((cs.take k).map fun c => ((charKey c).msg, c)).map fun p => TextInput.Op.key p.1)) := by
    rw [hm, inputApp, afterKeys_around, ← List.map_take]
    unfold TextInput.T.run
    rw [List.map_map, List.foldl_map, List.foldl_map]
    rfl
  simp only [e2] at ht
  rw [← e1] at ht
  refine ⟨by rw [ht.1]; exact List.take_prefix _ _, by rw [ht.1]; exact ht.2, ?_⟩
  intro h1 h2 h3 h4 h5
  have := hall h1 h2 h3 h4 h5
  rw [List.length_map] at this
  rw [ht.1, List.take_of_length_le this]

/-! ## C191: a text area in a running program -/

open TextArea in
/-- A program around a text area with some text in it. -/
def areaApp (text : List Char) (r c : Int) : App KeyMsg TA :=
  around (TA.new.run [.setValue text, .setCursorPosition r c]) (fun t k => (t.step (.key k)).1)

/-- C191.  Any plain keys (characters, Enter, Backspace, Delete, arrows left/right, Home/End, the Emacs moves) typed at
the terminal of a program around a text area that holds any text, the cursor anywhere.  In every execution, at every
moment, Value() and the cursor are those of the ideal editor after some of the first keys; when the input is read and
the program is idle, after all keys. -/
theorem C191_area (text : List Char) (r c : Int) {cap : Nat} (ks : List Input.Key)
    (hs : ∀ k ∈ ks, k.Supported) (hp : ∀ k ∈ ks, (TextArea.keyCmd k.msg).Plain) (chunks : List (List Input.Piece))
    (hc : chunks.flatten = ks.flatMap Input.Key.pieces) (he : ∀ x ∈ chunks, Input.EscLast x)
    {s : Typing.St KeyMsg TextArea.TA} (h : Typing.Reach (areaApp text r c) cap id (chunks.map Input.bytesOf) s)
    (ho : s.others = []) :
    (TextArea.TA.new.run [.setValue text, .setCursorPosition r c]).flat.text = text ∧
    ∃ k, s.p.model.flat = ((ks.take k).map fun k => TextArea.keyCmd k.msg).foldl TextArea.Flat.exec
        (TextArea.TA.new.run [.setValue text, .setCursorPosition r c]).flat ∧
      (s.stolen = 0 → s.cancelled = false → s.p.loop = .select → s.p.queue = [] → s.ended = true → ks.length ≤ k) := by
  obtain ⟨k, hm, hall⟩ := delivered_keys h ho
  rw [Input.C25_partial ks hs chunks hc he] at hm hall
  have ht := TextArea.C02_history_refines text r c ((ks.take k).map Input.Key.msg) (by
    intro x hx
    obtain ⟨y, hy, rfl⟩ := List.mem_map.1 hx
    exact hp y (List.mem_of_mem_take hy))
  refine ⟨ht.1, k, ?_, ?_⟩
  · have e : s.p.model = (TextArea.TA.new.run [.setValue text, .setCursorPosition r c]).run
        (((ks.take k).map Input.Key.msg).map TextArea.Op.key) := by
      rw [hm, areaApp, afterKeys_around, ← List.map_take]
      generalize TextArea.TA.new.run [.setValue text, .setCursorPosition r c] = t0
      generalize (ks.take k).map Input.Key.msg = l
      unfold TextArea.TA.run
      rw [List.foldl_map]
    rw [e, ht.2.1, List.map_map]
    rfl
  · intro h1 h2 h3 h4 h5
    have := hall h1 h2 h3 h4 h5
    rwa [List.length_map] at this

/-! ### Examples -/

/-- "é " typed, the two bytes of é in different chunks, runs to the idle end with the whole text in the input. -/
example : ∃ s : Typing.St KeyMsg TextInput.T,
    Typing.Reach (inputApp TextInput.accents 10) 100 id [[0xC3], [0xA9, 32]] s ∧ s.others = [] ∧ s.stolen = 0 ∧
    s.cancelled = false ∧ s.p.loop = .select ∧ s.p.queue = [] ∧ s.ended = true ∧
    s.p.model.content = ['é', ' '] ∧ s.p.model.cursor = 2 := by
  let a := inputApp TextInput.accents 10
  let chunks : List (List Nat) := [[0xC3], [0xA9, 32]]
  have r : Typing.Reach a 100 id chunks (Typing.start a chunks) := .start
  have r := Typing.Reach.step _ _ r (.read _ (some { type := .rune, rune := 'é' }) ⟨[32], []⟩ rfl rfl rfl)
  have r := Typing.Reach.step _ _ r (.put _ { type := .rune, rune := 'é' } rfl rfl (by decide))
  have r := Typing.Reach.step _ _ r (.read _ (some { type := .space }) ⟨[], []⟩ rfl rfl rfl)
  have r := Typing.Reach.step _ _ r (.prog _ _ (.recv _ _ _ rfl rfl))
  have r := Typing.Reach.step _ _ r (.prog _ _ (.update _ _ rfl))
  have r := Typing.Reach.step _ _ r (.put _ { type := .space } rfl rfl (by decide))
  have r := Typing.Reach.step _ _ r (.eof _ rfl rfl rfl)
  have r := Typing.Reach.step _ _ r (.prog _ _ (.recv _ _ _ rfl rfl))
  have r := Typing.Reach.step _ _ r (.prog _ _ (.update _ _ rfl))
  exact ⟨_, r, rfl, rfl, rfl, rfl, rfl, rfl, by decide +kernel, by decide +kernel⟩

/-- Enter and `x` typed into a text area with "ab", the cursor between them. -/
example : (∀ k ∈ [Input.Key.enter, Input.Key.text 'x'], k.Supported ∧ (TextArea.keyCmd k.msg).Plain) ∧
    ∃ s : Typing.St KeyMsg TextArea.TA,
    Typing.Reach (areaApp ['a', 'b'] 0 1) 100 id [[13, 120]] s ∧ s.others = [] ∧ s.stolen = 0 ∧
    s.cancelled = false ∧ s.p.loop = .select ∧ s.p.queue = [] ∧ s.ended = true ∧
    s.p.model.value = ['a', '\n', 'x', 'b'] := by
  refine ⟨?_, ?_⟩
  · intro k hk
    simp only [List.mem_cons, List.not_mem_nil, or_false] at hk
    rcases hk with rfl | rfl
    · exact ⟨⟨trivial, by intro n h; cases h⟩, trivial⟩
    · exact ⟨⟨⟨by decide, by decide⟩, by intro n h; cases h⟩, show 'x' ≠ '\n' by decide⟩
  let a := areaApp ['a', 'b'] 0 1
  let chunks : List (List Nat) := [[13, 120]]
  have r : Typing.Reach a 100 id chunks (Typing.start a chunks) := .start
  have r := Typing.Reach.step _ _ r (.read _ (some { type := .enter }) ⟨[120], []⟩ rfl rfl rfl)
  have r := Typing.Reach.step _ _ r (.put _ { type := .enter } rfl rfl (by decide))
  have r := Typing.Reach.step _ _ r (.read _ (some { type := .rune, rune := 'x' }) ⟨[], []⟩ rfl rfl rfl)
  have r := Typing.Reach.step _ _ r (.prog _ _ (.recv _ _ _ rfl rfl))
  have r := Typing.Reach.step _ _ r (.put _ { type := .rune, rune := 'x' } rfl rfl (by decide))
  have r := Typing.Reach.step _ _ r (.prog _ _ (.update _ _ rfl))
  have r := Typing.Reach.step _ _ r (.eof _ rfl rfl rfl)
  have r := Typing.Reach.step _ _ r (.prog _ _ (.recv _ _ _ rfl rfl))
  have r := Typing.Reach.step _ _ r (.prog _ _ (.update _ _ rfl))
  exact ⟨_, r, rfl, rfl, rfl, rfl, rfl, rfl, by decide +kernel⟩

end Phoenix.Editor
