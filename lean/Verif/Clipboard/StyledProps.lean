import Verif.Clipboard.StyledModel
import Verif.Clipboard.HistoryProps
import Verif.Clipboard.Osc52Props
import Verif.Clipboard.HtmlProps
import Verif.Clipboard.RtfProps
set_option linter.unusedVariables false
set_option linter.unusedSimpArgs false

/-! C208: styled text through the clipboard. C209: images through the clipboard. -/

namespace Phoenix.Clip

/-- A provider that gives back, as text, what it last accepted as text. -/
def Faithful {σ : Type} (p : Provider σ) : Prop :=
  ∀ (w : σ) (text : Str), text ≠ [] → (p.write w ⟨text, mimePlain⟩).2 = true →
    ∃ c, (p.read (p.write w ⟨text, mimePlain⟩).1).2 = some c ∧ isTextMime c.mime = true ∧ c.data = text

/-- Calls that neither write, nor read, nor let another program act: those about the history. -/
def MOp.quiet {σ : Type} : MOp σ → Prop
  | .enable _ _ => True
  | .disable => True
  | .clear => True
  | .removeExpired _ => True
  | _ => False

theorem quiet_step {σ : Type} (m : Manager σ) (op : MOp σ) (h : op.quiet) :
    (m.step op).providers = m.providers ∧ (m.step op).world = m.world := by
  cases op with
  | enable s a => exact ⟨rfl, rfl⟩
  | disable => exact ⟨rfl, rfl⟩
  | clear =>
    show m.clearHistory.providers = _ ∧ m.clearHistory.world = _
    unfold Manager.clearHistory
    cases m.historyEnabled <;> cases m.history <;> exact ⟨rfl, rfl⟩
  | removeExpired now =>
    show (m.removeExpiredHistory now).1.providers = _ ∧ (m.removeExpiredHistory now).1.world = _
    unfold Manager.removeExpiredHistory
    cases m.historyEnabled <;> cases m.history <;> exact ⟨rfl, rfl⟩
  | _ => exact absurd h id

theorem quiet_run {σ : Type} (ops : List (MOp σ)) : ∀ m : Manager σ, (∀ op ∈ ops, op.quiet) →
    (m.run ops).providers = m.providers ∧ (m.run ops).world = m.world := by
  induction ops with
  | nil => intro m _; exact ⟨rfl, rfl⟩
  | cons op ops ih =>
    intro m h
    have h1 := quiet_step m op (h op (by simp))
    have h2 := ih (m.step op) (fun o ho => h o (by simp [ho]))
    exact ⟨h2.1.trans h1.1, h2.2.trans h1.2⟩

theorem writeAs_providers {σ : Type} (m : Manager σ) (mime text : Str) (now : Int) (id : Nat) :
    (m.writeAs mime text now id).1.providers = m.providers := by
  unfold Manager.writeAs
  simp only []
  split
  · unfold Manager.record
    simp only []
    split
    · split <;> rfl
    · rfl
  · rfl

/-- Whatever was written is what every kind of read gets, until something else writes. -/
theorem write_read {σ : Type} (m : Manager σ) (p : Provider σ) (hf : Faithful p) (mime text : Str) (now : Int) (id : Nat)
    (hp : FirstAvailable m.providers m.world p) (ht : text ≠ [])
    (hs : (m.writeAs mime text now id).2 = true)
    (hp2 : FirstAvailable m.providers (m.writeAs mime text now id).1.world p)
    (ops : List (MOp σ)) (hq : ∀ op ∈ ops, op.quiet) :
    ((m.writeAs mime text now id).1.run ops).read.2 = some text := by
  obtain ⟨e1, e2⟩ := C50_write_first_available m mime text now id p hp ht
  obtain ⟨q1, q2⟩ := quiet_run ops (m.writeAs mime text now id).1 hq
  have hp3 : FirstAvailable ((m.writeAs mime text now id).1.run ops).providers
      ((m.writeAs mime text now id).1.run ops).world p := by
    rw [q1, q2, writeAs_providers]; exact hp2
  rw [(C50_read_first_available _ _ hp3).2.2 text]
  rw [hs] at e1
  rw [q2, e2]
  exact hf m.world text ht e1.symm

theorem encode_ne (text : Str) (st : Styles) (ht : text ≠ []) : encodeHTML text st ≠ [] := by
  intro h0
  rw [encode_shape text st ht] at h0
  have h1 := (List.append_eq_nil_iff.1 (List.append_eq_nil_iff.1 h0).1).2
  exact esc_ne ht h1

/-! ## C208 -/

/-- The full claim: after a successful WriteStyledText, and until another write, ReadStyledText gives the text and the
styles, and the plain readers give the text. -/
def C208_statement : Prop :=
  ∀ (σ : Type) (m : Manager σ) (p : Provider σ) (T : HtmlTables) (text : Str) (st : Styles) (now : Int) (id : Nat)
    (ops : List (MOp σ)), Faithful p → FirstAvailable m.providers m.world p →
    FirstAvailable m.providers (m.writeStyled text st now id).1.world p →
    (m.writeStyled text st now id).2 = true → text ≠ [] → ColorOk st.color → (∀ op ∈ ops, op.quiet) →
    let m' := (m.writeStyled text st now id).1.run ops
    m'.readStyled T = some (text, st) ∧ m'.readHTMLAsPlain T = some text ∧ m'.read.2 = some text

/-- What holds: for every text, every style a constructor lets through, every chain whose first available provider gives
back what it accepted, and any number of history calls in between: ReadStyledText returns the text and exactly its
styles, ReadHTMLAsPlainText the text alone, ReadHTML the document. -/
theorem C208_styled_partial {σ : Type} (m : Manager σ) (p : Provider σ) (T : HtmlTables) (text : Str) (st : Styles)
    (now : Int) (id : Nat) (ops : List (MOp σ)) (hf : Faithful p) (hp : FirstAvailable m.providers m.world p)
    (hp2 : FirstAvailable m.providers (m.writeStyled text st now id).1.world p)
    (hs : (m.writeStyled text st now id).2 = true) (ht : text ≠ []) (hc : ColorOk st.color)
    (hq : ∀ op ∈ ops, op.quiet) :
    ((m.writeStyled text st now id).1.run ops).readStyled T = some (text, st) ∧
    ((m.writeStyled text st now id).1.run ops).readHTMLAsPlain T = some text ∧
    ((m.writeStyled text st now id).1.run ops).read.2 = some (encodeHTML text st) := by
  have h := write_read m p hf mimeHTML (encodeHTML text st) now id hp (encode_ne text st ht) hs hp2 ops hq
  have hd := C47_html_roundtrip T text st ht hc
  have h' : ((m.writeStyled text st now id).1.run ops).read.2 = some (encodeHTML text st) := h
  refine ⟨?_, ?_, h'⟩
  · unfold Manager.readStyled
    rw [h']
    exact hd
  · unfold Manager.readHTMLAsPlain
    rw [h']
    have hst : stripHTMLTags T (encodeHTML text st) = text := by
      unfold decodeHTML at hd
      rw [if_neg (encode_ne text st ht)] at hd
      simp only [] at hd
      split at hd
      · split at hd
        · exact (Prod.mk.inj (Option.some.inj hd)).1
        · cases hd
      · exact (Prod.mk.inj (Option.some.inj hd)).1
    exact congrArg some hst

/-- A register: accepts every text and gives it back. -/
def registerStore : Provider Str where
  name := "Register"
  isAvailable _ := true
  read w := (w, some ⟨w, mimePlain⟩)
  write _ c := (c.data, true)

theorem register_faithful : Faithful registerStore := fun w text _ _ => ⟨_, rfl, by simp [isTextMime], rfl⟩

theorem register_first (w : Str) : FirstAvailable [registerStore] w registerStore := ⟨[], [], rfl, rfl, by simp⟩

-- the hypotheses are met: "a<b" in bold and red
example : ((Manager.mk [registerStore] [] false none).writeStyled [97, 60, 98] ⟨true, false, false, [35, 70, 70, 48, 48, 48, 48]⟩ 0 0).2 = true ∧
    ColorOk [35, 70, 70, 48, 48, 48, 48] := by
  refine ⟨by decide +kernel, Or.inr ⟨70, 70, 48, 48, 48, 48, rfl, ?_, ?_, ?_, ?_, ?_, ?_⟩⟩ <;> decide

/-- Refuted: Read, the call every other program's paste corresponds to, gives the markup. -/
theorem C208_refuted : ¬ C208_statement := by
  intro h
  have := (h Str ⟨[registerStore], [], false, none⟩ registerStore miniTables [97] ⟨true, false, false, []⟩ 0 0 []
    register_faithful (register_first _) (register_first _) (by decide +kernel) (by decide) (Or.inl rfl) (by simp)).2.2
  exact absurd this (by decide +kernel)

/-- Refuted: a text written with Write is not always what ReadStyledText gives back with no style: text that looks like
a tag disappears and comes back as a style. -/
theorem C208_plain_text_refuted : ¬ ∀ (σ : Type) (m : Manager σ) (p : Provider σ) (T : HtmlTables) (text : Str) (now : Int)
    (id : Nat), Faithful p → FirstAvailable m.providers m.world p →
    FirstAvailable m.providers (m.writeAs mimePlain text now id).1.world p →
    (m.writeAs mimePlain text now id).2 = true → text ≠ [] →
    (m.writeAs mimePlain text now id).1.readStyled T = some (text, Styles.none) := by
  intro h
  have := h Str ⟨[registerStore], [], false, none⟩ registerStore miniTables [60, 98, 62] 0 0
    register_faithful (register_first _) (register_first _) (by decide +kernel) (by decide)
  exact absurd this (by decide +kernel)

/-- Refuted: the clipboard does not know which kind of document it holds. ReadRTF after WriteHTML gives the HTML
document. -/
theorem C208_kinds_refuted : ¬ ∀ (m : Manager Str) (html : Str) (now : Int) (id : Nat),
    (m.writeAs mimeHTML html now id).2 = true → (m.writeAs mimeHTML html now id).1.read.2 ≠ some html := by
  intro h
  exact h ⟨[registerStore], [], false, none⟩ [97] 0 0 (by decide +kernel) (by decide +kernel)

/-- On a local machine with a clipboard tool: styled text written by the default clipboard is read back styled. -/
theorem C208_local_partial (w : World) (T : HtmlTables) (text : Str) (st : Styles) (now : Int) (id : Nat)
    (hlocal : (w.ssh && w.tty) = false) (htool : (chooseTool w).isSome = true) (ht : text ≠ []) (hc : ColorOk st.color)
    (hs : ((newClipboard w).writeStyled text st now id).2 = true) :
    ((newClipboard w).writeStyled text st now id).1.readStyled T = some (text, st) ∧
    ((newClipboard w).writeStyled text st now id).1.readHTMLAsPlain T = some text := by
  obtain ⟨t, h1⟩ := Option.isSome_iff_exists.1 htool
  have hch : (newClipboard w).providers = [nativeProvider (some t), osc52Provider 2000] := by
    simp [newClipboard, defaultChain, hlocal, h1]
  have hf : Faithful (nativeProvider (some t)) := by
    intro w' s hs' hw
    have ew : (nativeProvider (some t)).write w' ⟨s, mimePlain⟩ = t.put w' s := by
      simp [nativeProvider, Content.text, isTextMime]
    rw [ew] at hw ⊢
    refine ⟨⟨s, mimePlain⟩, ?_, by simp [isTextMime], rfl⟩
    simp [nativeProvider, native_put_get t w' s hw, newTextContent, hs']
  have hfirst : ∀ w', FirstAvailable (newClipboard w).providers w' (nativeProvider (some t)) := by
    intro w'; rw [hch]; exact ⟨[], [osc52Provider 2000], rfl, rfl, by simp⟩
  have := C208_styled_partial (newClipboard w) (nativeProvider (some t)) T text st now id [] hf (hfirst _) (hfirst _) hs ht hc
    (by simp)
  exact ⟨this.1, this.2.1⟩

example : ((newClipboard localHost).writeStyled [97, 60, 98] ⟨true, false, true, []⟩ 0 0).2 = true := by decide +kernel

/-- Writing styled text records the document, with its own type, in the history. -/
theorem C208_history {σ : Type} (m : Manager σ) (text : Str) (st : Styles) (now : Int) (id : Nat) (h : History)
    (he : m.historyEnabled = true) (hh : m.history = some h) (hs : (m.writeStyled text st now id).2 = true) :
    (m.writeStyled text st now id).1.history = some (h.add (encodeHTML text st) mimeHTML now id).1 := by
  unfold Manager.writeStyled Manager.writeAs at hs ⊢
  simp only [] at hs ⊢
  split at hs
  · rw [if_pos (by assumption)]
    simp [Manager.record, he, hh]
  · cases hs

example : ((Manager.mk [registerStore] [] true (some (History.new 5 0))).writeStyled [97] ⟨true, false, false, []⟩ 3 7).1.history =
    some ⟨[⟨7, encodeHTML [97] ⟨true, false, false, []⟩, mimeHTML, 3⟩], 5, 0⟩ := by decide +kernel

/-! ## C209 -/

/-- The full claim: an image written to the clipboard can be read back. -/
def C209_statement : Prop :=
  ∀ (σ : Type) (m : Manager σ) (data mime : Str), data ≠ [] → (getAvailable m.providers m.world).isSome = true →
    (m.writeImage data mime).2 = true ∧ (m.writeImage data mime).1.readImage = some (data, mime)

/-- Refuted: no image is ever accepted. -/
theorem C209_refuted : ¬ C209_statement := by
  intro h
  exact absurd (h Str ⟨[registerStore], [], false, none⟩ [137] [105] (by decide) rfl).1 (by decide)

/-- What holds: in every state, WriteImage reports its failure and changes nothing, and ReadImage, ReadImagePNG and
ReadImageJPEG report an error. -/
theorem C209_reported_partial {σ : Type} (m : Manager σ) (data mime want : Str) (conv : Str → Option Str) :
    m.writeImage data mime = (m, false) ∧ m.readImage = none ∧ m.readImageAs want conv = none := ⟨rfl, rfl, rfl⟩

end Phoenix.Clip
