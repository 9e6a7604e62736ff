import Verif.Clipboard.Osc52Model
import Verif.Clipboard.RichModel
set_option linter.unusedVariables false

/-! Styled text, markup and images through the clipboard: clipboard/internal/application/clipboard_manager.go:127-242 and
the calls of clipboard/clipboard.go:357-473 above it. -/

namespace Phoenix.Clip

/-- clipboard_manager.go:210-216 `WriteStyledText` (clipboard.go WriteStyledText): EncodeHTML does not fail
(richtext_codec.go:24-52), and WriteHTML is `writeAs` with text/html. -/
def Manager.writeStyled {σ : Type} (m : Manager σ) (text : Str) (st : Styles) (now : Int) (id : Nat) : Manager σ × Bool :=
  m.writeAs mimeHTML (encodeHTML text st) now id

/-- clipboard_manager.go:220-232 `ReadStyledText` (`none`: an error). -/
def Manager.readStyled {σ : Type} (T : HtmlTables) (m : Manager σ) : Option (Str × Styles) :=
  m.read.2.bind (decodeHTML T)

/-- clipboard.go:429-437 `ReadHTMLAsPlainText`. -/
def Manager.readHTMLAsPlain {σ : Type} (T : HtmlTables) (m : Manager σ) : Option Str := m.read.2.map (stripHTMLTags T)

/-- clipboard.go:453-461 `ReadRTFAsPlainText`. -/
def Manager.readRTFAsPlain {σ : Type} (m : Manager σ) : Option Str := m.read.2.map stripRTF

/-- clipboard_manager.go:136-140 `WriteImage` (clipboard.go:365-367, 388-390, 411-413): always an error. -/
def Manager.writeImage {σ : Type} (m : Manager σ) (data mime : Str) : Manager σ × Bool := (m, false)

/-- clipboard_manager.go:127-131 `ReadImage` (clipboard.go:357-359): always an error. -/
def Manager.readImage {σ : Type} (m : Manager σ) : Option (Str × Str) := none

/-- clipboard.go:370-385 `ReadImagePNG` and 393-408 `ReadImageJPEG` for the type `want` and the recoding `conv` of
image_codec.go (decode, encode in the wanted format; `none`: an error). -/
def Manager.readImageAs {σ : Type} (m : Manager σ) (want : Str) (conv : Str → Option Str) : Option Str :=
  match m.readImage with
  | none => none
  | some r => if r.2 ≠ want then conv r.1 else some r.1

end Phoenix.Clip
