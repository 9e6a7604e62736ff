# Formal model of phoenix-tui/phoenix in Lean 4

## Technique and conventions

* One directory per Go package under `lean/Verif/`:
  `X/Model.lean` (transcription of the Go code, every definition cites file:lines),
  `X/Spec.lean` where a separate specification is needed (ideal editor, terminal
  emulator, ...), `X/Lemmas.lean` (helpers) and `X/Props.lean` (the property theorems,
  named `Cnn_...`, each followed by an `example` meeting its hypotheses).
* Go `int` is modelled as `Int` or, where the code guarantees non-negativity, `Nat`
  (no overflow: sizes are far below 2^63; said in the comment). `[]rune` is
  `List Char`, Go strings that are only handled rune-wise are `List Char`, Go strings
  handled byte-wise (`len`, slicing) are `List UInt8`/`List Nat` or an explicit
  byte-length function.
* Immutable "With..." methods become functions returning the new value. Panics are
  modelled explicitly (`Option`/`Except`) where a property speaks about them or
  where reachable.
* External libraries (uniwidth, uniseg, regexp, fmt, sort, base64 of the stdlib) are
  either re-implemented in the model from their documented behaviour (base64,
  stable sort, `%d`) or parameters with explicitly stated assumptions (rune width
  function, grapheme segmentation as an arbitrary left-to-right automaton).
* Where the code violates a property, the full statement is kept, its negation is
  proved on a concrete witness (`Cnn_..._refuted`) and the strongest true part is
  proved under the name `Cnn_..._partial`.

## Plan per property

| id | what is modelled | how it is proved |
|----|------------------|------------------|
| C01 | Buffer, Cursor, EditingService, NavigationService, TextArea, key bindings as a `step` function over all public operations | invariant by induction over operation lists |
| C02 | same; spec: ideal editor on (List Char, Nat) | refinement: `abs (step s op) = ideal (abs s) op` |
| C03 | KillLine/KillWord/Yank, kill ring | equational; cursor part refuted (cursor jumps to (0,0)), `_partial` |
| C04 | key dispatch with readOnly flag | induction over key events |
| C05 | KillRing | refinement to "last maxSize of the kill log" |
| C06 | validator as an arbitrary predicate | case analysis per command |
| C07 | ensureCursorVisible | per-command lemma + induction; operations that skip it refuted |
| C08 | InsertNewline / Yank | induction; Yank refuted |
| C09 | navigation | equational on flat offset |
| C10, C11 | Buffer as function on grid, Diff | extensional equality; order by `List.Pairwise` |
| C12 | optimize passes | effect of op lists on buffers |
| C13, C14 | Renderer + Writer emitting a token list; spec: terminal emulator executing tokens | simulation invariant (terminal = last buffer, cursor/style tracking); style part refuted |
| C15 | Buffer | read-over-write laws |
| C16, C17 | inline renderer; same kind of emulator | simulation invariant; shrink case refuted |
| C18-C22 | Cmd algebra; program event loop as labelled transition system with queue, pending goroutines | invariants over all executions; lost quit / self-deadlock refuted by explicit executions |
| C23, C24 | Suspend/Resume/Run cleanup over a terminal with failure oracle | invariants over operation lists |
| C25 | Reader + ParseKey over byte lists with chunking | decoding theorem on CSI sequences; SS3 refuted |
| C26 | CancelableReader | stream invariant; short-buffer loss refuted |
| C27, C28 | parsers over byte strings, `%d` formatting | round-trip proof |
| C29-C31 | click detector, drag tracker, event processor | state machine invariants; C30 refuted for all histories through the parser |
| C32-C34 | hover tracker, menu positioner, terminal modes | invariants, linear arithmetic |
| C35-C37 | flexbox layout service, Flex.Render | induction over item lists |
| C38-C40 | measure/render/constrain/layout tree | equational; C38 refuted for bordered boxes |
| C41-C43 | colours | digit arithmetic, nearest-point arguments |
| C44, C45 | aligner, spacing, border | list-length reasoning; byte-slice refuted |
| C46 | history | refinement to a log |
| C47 | HTML escape / strip / unescape scanners | round-trip by induction on the text |
| C48 | base64 | round-trip on bytes |
| C49 | RTF codec | refuted + `_partial` |
| C50 | provider list | induction on providers |
| C51-C59 | list, multiselect, viewport, select models | invariants over operation lists |
| C60-C63 | table | stable sort characterised (permutation, sorted, stable) |
| C64, C65 | TextInput over an abstract segmentation automaton | invariant + equations |
| C66-C72 | progress, modal, confirm, form | arithmetic, state machines, heap model of slices for C72 |
| C73, C74 | capability detector, ANSI terminal flags with failure oracle | case analysis, invariants |
| C75 | Render: wide cells as glyph + blank continuation cell on the emulator | refuted on a two-cell buffer |
| C76, C123, C124 | Viewport: wheel, drag, key table, content setters | step equations for every state, fold over histories |
| C77, C125, C126 | List: cyclic navigation, key table, filter typing | modular arithmetic on the focus, case analysis over keys; typing refuted |
| C78, C79, C127-C129 | Select / MultiSelect: filter typing, disabled options, key tables, re-configuration | byte-wise backspace and the rebuilt model refuted; ASCII part proved |
| C80, C81, C130-C132 | Table: view height, marker, key table, cell text, row content | exact row/line equations; off-by-one height refuted |
| C82-C84, C133, C134 | TextInput: chords, view window, validators, key table, setters | byte-level window model; ASCII parts proved, rest refuted |
| C85 | inline renderer with failing writer | history simulation; partial write refuted |
| C86 | input-reader goroutine life cycle as LTS with close-of-channel panics | invariant over `Careful` executions; panics refuted elsewhere |
| C87, C88 | mouse button/scroll decoding, bounding boxes | bit arithmetic for all codes; membership characterisation |
| C89 | Flex.Render | every item with room appears, from the cell characterisation of C37 |
| C90-C96 | SGR colour sequences, borders, style pipeline, constraints, themes | parser of SGR as specification; equations; algebra of Merge; history of the manager |
| C97-C100 | clipboard manager, providers, history, image sniffing | case analysis over providers, refinement to a log, unstable sort as arbitrary sorted permutation |
| C101, C102 | spinner frames, tick subscriptions | modular arithmetic; growth law of ticks by induction |
| C103-C105 | modal rows, panics, centring | byte/row equations; refuted outside the stated ranges |
| C106, C107 | confirm affirmative / shortcut keys | case analysis over labels |
| C108-C110 | form delegation, validity mark, Value | type-assertion modelled as a flag of the field; lookup laws |
| C111, C112, C118, C119 | capability detector, core value objects, width with configuration | case analysis over the environment; algebraic laws |
| C113-C117, C120, C121 | ANSI / Windows / mock terminals | VT screen as specification; simulation; failure oracle |
| C122 | TextArea key table | case analysis over all key messages |
| C135-C138 | commands of Init/Update; several Runs; Stop time-out; Start | invariants over executions; refuted parts by explicit executions |
| C139 | inline renderer: visible widths of the frames it writes | exact count per line over an arbitrary width function |
| C140, C141 | conversion between internal and public messages, key names (tea/tea.go, model/key.go) | case analysis over all messages; injectivity of names on the named keys |
| C142 | ExecProcessWithTTY options over a terminal / process-group state with failing calls | case analysis over all option and failure combinations |
| C143-C145 | Windows clipboard provider: UTF-16, over-long copy, failing calls | UTF-16 as specification, round trip by induction; all failure combinations |
| C146 | HTML <-> RTF conversion | composition of C47 and C49 |
| C147 | layout box builder: last setting of each kind wins, boxes independent | induction over arbitrary programs of builder calls |
| C148 | flex container keeps a snapshot of each box | induction over arbitrary programs over boxes and containers |
| C149 | node trees: walk, depth, count, edits | mutual induction over trees |
| C150 | rendered box, cell by cell | per-cell case analysis over the drawn regions, unbounded sizes |
| C151 | grammar of accepted mouse reports | integer texts as specification, split lemma |
| C152 | mouse Reset | state equality with a new processor after any history |
| C153 | form flags as history predicates | induction from the end of the history |
| C154, C155 | form keys and view | case analysis; line-by-line specification of the view |
| C156 | text validators | regular expression against a decomposition |
| C157 | colour depth detection | table against announcements |
| C158 | style setters | projection-wise last-writer law by induction over the chain; refuted for border sides |
| C159 | CancelableReader with program counters, both modes, WaitForShutdown, environment parameters | rank of the loop and the waiter decreases, one of them always enabled; fallback mode refuted |
| C160 | same system with a ghost of the bytes taken after WaitForShutdown | invariant; surviving relay refuted |
| C161 | TextArea renderer over the TextArea model; a two-sequence terminal picture as specification | picture lemma per row, window and scroll invariants; width, empty cursor, negative height refuted |
| C162 | ContentParts | cursor invariant |
| C163 | MaxChars | refuted; the limit is never read |
| C164 | ANSI ColorDepth over arbitrary environments | case analysis; documented rule refuted |
| C165 | ColorDepth against AutoDetect | refuted; agreement proved for TERM/COLORTERM only |
| C166, C167 | Select/MultiSelect View text, default and custom render functions | lines of the text related to the window theorem C55/C59 by induction over the rows |
| C168 | default filters of Select and MultiSelect, typing | induction over the typed text; ToLower a parameter |
| C169 | List.View text and default item renderer | as C166; mark clause refuted |
| C170 | Tea/InlineTermModel: terminal as a character machine (scrollback, pending wrap, wide and zero-width characters, pen, escape parser) fed with the renderer's bytes; simulation `On` of a line on the terminal by the line on an empty row; invariant over histories |
| C171 | same; refuted by a literal, exact content of the row proved for all plain lines and for all paintable lines |
| C172 | same; refuted by a literal, proved when no line is wider than the terminal |
| C173 | Builder as a fold of setters (SelectProps) | last-setter lemma; custom providers arbitrary |
| C174 | New(): environment, LookPath, stdout kind and display servers as a `World` | case analysis over the whole choice; frame condition per place |
| C175 | same; fallback statement refuted by a literal and by a family of hosts, exact success condition proved | |
| C176 | OSC 52 write, fsync and timeout as separate outcomes; refuted for terminals that cannot be synced | case analysis |
| C177 | package-level functions with the global clipboard as state | induction over calls |
| C178 | the renderer model run on a terminal found with any screen and cursor | refutation by a one-cell frame; simulation after the first cursor move |
| C179 | byte encoder of the writer, bufio, and an independent UTF-8/ECMA-48 byte terminal (Render/Vt.lean) | per-token parsing lemmas, then C13/C14 |
| C180 | same, with control characters in cells | refutation by a line feed; exact characterisation of printed characters |
| C181 | renderer and writer with error paths over a bufio.Writer model and a scripted device | refinement of the failure-free model, induction over calls |
| C182 | same | refutation by a failed Resize; sticky-error invariant |
| C183 | buffer pool as a heap with nondeterministic Get | invariant over all schedules; refutations of the size clause |
| C184 | same, with owners | ownership invariant; refutation by a double Release |
| C185 | Tea/ScreenModel: product of the event loop LTS (ProgramModel), the inline renderer and the character terminal; invariant: the terminal has received the frames of exactly the delivered messages; then `screen_general` (C170/C171) and C20. Fixed-height views need no safety hypothesis. |
| C186 | Same product with the raw write of alternate-screen mode; refuted by two concrete executions, partial: what the terminal has received, and the one-row case. |
| C187 | Terminal state at the end of an inline program (cursor of `Displayed`); refuted by a concrete execution, partial: where the next character goes. |
| C188 | Tea/TypingModel: product of the decoder (ReaderModel), the input goroutine and the event loop LTS; invariant `tinv` (keys in the queue, in the hand and still to be read are all keys); refuted for every capacity by filling the queue, partial: order, no loss without a stolen Quit. |
| C189 | Tea/KeyScreenModel: TypingModel together with the renderer and terminal of ScreenModel; C188 composed with the frame invariant of C185. |
| C190 | C188 and C65_typing composed, with UTF-8 decoding of the text (C25). |
| C191 | C188 and the refinement of the text area to the flat editor (C02) composed. |
| C192 | Tea/ResumeModel: ScreenModel with Suspend and Resume steps, the screen replaced by an arbitrary one in between; `resume_inv` re-establishes the frame invariant of C185 after Repaint and Render. |
| C193 | As C192; the rows above the frame are those left by the command; refuted by a two-line view. |
| C194 | As C192; refuted by a message handled while suspended; partial: only Update draws. |
| C195 | On Tea/TypingModel: relation Later from a state whose loop is done; invariant on the queue and on what was typed. |
| C196 | On Tea/ReaderModel: what escTail takes of a control sequence, for all parameter lists; composed with the remaining input by keysLeft. |
| C197 | On TextInput/BindModel: handlers are arbitrary functions of the input and the key; first that changes text or cursor wins; refuted for handlers that change only the selection. |
| C198 | Tea/EditorScreen over Tea/PictureProps: C189 (bytes to frames) composed with the text input model (C64, C133) and its View; `paint_mark` computes the cells of a line with one styled stretch; `keys_screen` carries it through every schedule. |
| C199 | Tea/AreaScreen, Tea/AreaTyped: as C198 with the View of the text area (C161); refuted when the frame shrinks and keeps its last line (C16), proved otherwise (`safe_kept`); typing a text by an invariant on the state of the text area. |
| C200 | Tea/DialogModel (a program around an answering component, keys as bytes): an invariant on the results commands still owe (`CInv`) over Tea/TypingModel; the dialog's own Update gives at most one answer (C69). |
| C201 | As C200 with Select and MultiSelect; refuted: two Enters race, the second command's message may arrive first; proved: every answer is that of some Enter, with one Enter it is exact. |
| C202 | Lines of the views (C166-C168) through `keys_screen`/`displayed_along`: the inline renderer with a view whose lines are printable; a shrinking list never ends in a line that stood there before, so its rest is erased. |
| C203 | `Confirm/ViewModel` (View, buttons) and the same composition as C202. |
| C204 | `Tea/ListScreen`: the List component inside the program of C189, View by C169, keys folded over the component. |
| C205 | `Tea/ListScreen`: the Viewport inside the same program, window by C56-C58. |
| C206 | `Modal/ViewModel`: the whole string of View; induction over the rows of the background, then the renderer's `frame` (last rows that fit). Refuted in a program. |
| C207 | `Style/PaintProps`: an SGR pen as specification; per-sequence lemmas composed along the pipeline. Refuted when text and border both have colours (the reset of the border ends those of the text). |
| C208 | `Clipboard/StyledProps`: C47's round trip composed with C50's provider selection, for any chain whose first available provider is faithful. Refuted for plain Read. |
| C209 | Same file. Refuted: image calls are stubs; proved that they report it and change nothing. |
| C210 | `Terminal/ReadbackProps`: ReadConsoleOutput as environment, row-major index arithmetic, induction over the printed text. Refuted in the alternate screen. |
| C211 | `Tea/ReadErrorProps` on the transition system of C159/C160: inductive invariants (an announced end is a real end; who closes the pipe; conserved data). |
| C212 | `Tea/TableScreen`: the Table inside the same program; its view's bytes read as UTF-8 (injectivity from Lean's `String`), lines and cells by C131/C132, the window by C62 and an invariant "no row left out while there is room". |
| C213 | `Tea/SpinProps`: a spinner inside the event loop of `ProgramModel` with any number of Runs; a token count (ticks sleeping, waiting, queued, being unpacked, being handled) is invariant; the frame by folding the delivered messages (`invN`, C101). |
| C214 | `Tea/FormProps`: the form of `Form/Model` as a component of the dialog program of C200 (`Typing.Reach`); which Enter a SubmitMsg stands for by C70; refuted by an explicit schedule. |
| C215 | `Mouse/ModeProps`: the mode functions of `Mouse/Model` and the terminal of C34; success, failure and IsEnabled against the terminal's modes. |
| C216 | The form of C214 in a program running inline (Tea/FormScreen.lean): the view's lines by C155, the screen by the generic theorem behind C202-C205. The form gets shorter when an error vanishes; that the old rows are cleared follows because the last line of the shorter picture (the help line) is never what stood in its row before. |
| C217 | A modal in a running program (Tea/ModalProps.lean): C200's generic dialog theorem instantiated with the modal's Update; which key presses which button is a specification by counting keys (`Presses`), proved equal to the model's by induction over the keys. That the first press is heard first is refuted, as for C201. |
| C218 | A modal on the screen (Tea/ModalScreen.lean): the terminal of C170 extended by cursor positioning (`stepH`); the string of the box as positioned lines (`spell`, tied to `renderModalBox` by decoding its UTF-8); one line, then all lines by induction (last line in a row wins), then the first frame of the renderer and the empty frame after Hide. Refuted as stated; what is erased and which lines stay is proved exactly for every modal that fits. Not modelled: boxes that reach the last row, wide characters in the box, dimmed background (C206) |
| C219 | The modal repainted (Tea/ModalRepaint.lean): what the renderer sends between two frames with their lines in the same places (`emit_again`, by induction over the lines: skipped or written), an invariant of renderer and terminal between frames (`BoxInv`), induction over the frames; that keys change only the focus and the focus only the text of the button line, from Modal.update and renderModalBox. Partial: lines that cover each other or end in the last column, resizes |

Not expressible in the model: real time (time-outs are explicit time stamps or "may happen at any time" steps),
OS scheduling fairness, floating-point rounding, terminal emulators other than the one specified, performance,
memory use.

## What is modelled, package by package

| Lean directory | Go code transcribed | left out |
|---|---|---|
| `TextArea` | components/input/internal/textarea: Buffer, Cursor, KillRing, TextArea, editing and navigation services, emacs key bindings, Update | selection (never set by the public API), undo (does not exist in the code) |
| `Render` | render: Buffer, Cell, Position, Diff service, optimizer, ANSI writer and its byte encoding, Renderer with its error paths, bufio.Writer, the buffer pool | the concurrency of Renderer (methods atomic), data races on a shared Buffer, `WriteString`/`SetPosition` of the writer (not called by the renderer) |
| `Viewport` | components/viewport (model, scroll and wrap services, Update, View) | - |
| `ListC` | components/list (model, filter, navigation, selection, Update) | item renderer styling |
| `Choice` | components/select and components/multiselect (model, filter, Update, View lines) | styling |
| `Table` | components/table (model, sorting, cell rendering, Update, View) | theme (the code ignores it) |
| `TextInput` | components/input (model, key bindings, validators, View) | clipboard commands (absent in the code); uniseg is an arbitrary left-to-right segmenter |
| `Tea/Inline*` | tea/.../renderer/inline.go | invalid UTF-8 |
| `Tea/Typing*` | input goroutine, decoder and event loop together | restart of the goroutine by Resume |
| `Tea/KeyScreen*`, `Tea/EditorProps` | keyboard, event loop, renderer and terminal together; components inside a program | as above |
| `Tea/PictureProps`, `Tea/EditorScreen`, `Tea/AreaScreen`, `Tea/AreaTyped` | text input and text area inside a program, down to the cells of the terminal | characters wider than one column |
| `Tea/DialogModel`, `Tea/DialogInst`, `Tea/DialogScreen`, `Confirm/ViewModel` | Confirm, Select, MultiSelect inside a program that stores the answer and quits | messages from other senders; a component that answers one key with two messages |
| `Tea/ListScreen` | List and Viewport inside a program, down to the cells of the terminal | mouse and resize messages; wrapped lines; the filter line of the List |
| `Modal/ViewModel` | the string of a modal's View with the dimmed background, and the rows of it the inline renderer keeps | how the terminal executes the absolute cursor positions inside the rows |
| `Tea/Resume*` | Suspend, Resume, ExecProcess around the screen of an inline program | terminal modes (Tea/LifeModel), failing mode changes |
| `Tea/AfterProps`, `Tea/ReportProps` | the input goroutine after Run; control sequences that are not keys | — |
| `Tea/Screen*` | event loop, inline renderer and terminal together; renderView in both modes | Suspend/Resume drawing |
| `Tea/Program*`, `Tea/More*` | tea/.../program/program.go (event loop, Send, Quit, Stop, Run, Start), tea/.../model/cmd.go | panics in user code; real time |
| `Tea/Suspend*` | Suspend, Resume, ExecProcess, Run set-up and clean-up | - |
| `Tea/Tty*` | ExecProcessWithTTY, tty_control_unix.go, tty_control_windows.go | the system calls (oracles) |
| `Tea/Public*` | tea/tea.go message conversion, model/key.go names | - |
| `Tea/Life*` | startInputReader / stopInputReader / restartInputReader | - |
| `Tea/Reader*`, `Tea/Key` | input/reader.go, ansi/parser.go | - |
| `Tea/Cancel*` | input/cancelable_reader.go, data flow in pipe mode | - |
| `Tea/Shutdown*` | input/cancelable_reader.go, Cancel and WaitForShutdown in both modes | the pipe's capacity, times |
| `Mouse` | mouse: SGR/X10/URxvt parsers, click, drag, hover, scroll, menu, terminal modes, event processor | - |
| `Layout` | layout: flexbox, measure, render, constraints, node trees, builder API (box.go, flex.go) | position/spacing algebra |
| `Style` | style: colours, ANSI codes, alignment, padding, margin, border, style pipeline, themes, theme manager | - |
| `Clipboard` | clipboard: manager, providers, history, OSC 52, HTML and RTF codecs and conversions, image sniffing, the Windows provider (UTF-16, memory, call failures) | the OS calls themselves (oracles) |
| `Progress`, `Modal`, `Confirm`, `Form` | components/progress, modal, confirm, form | colours |
| `Core` | core: capability detector, value objects, Unicode width with configuration | the uniwidth tables |
| `Terminal` | terminal: ANSI and Windows implementations, mock terminal, mode protocol | real system calls (oracles) |

The header comment of each `*Model.lean` lists that file's simplifications; every definition cites the lines it
transcribes.

## Where the code and the property disagree

Statements that are false of the code are kept in full (`Cnn_statement` or spelled out in the theorem), refuted
by a kernel-checked witness (`Cnn_*_refuted`), and what remains true is proved. `MANIFEST.json` says for each
property which part that is. These are, in the reading of the model, defects of the pinned commit; the most serious:

* tea, inline renderer: a line as wide as the terminal loses its last column (C171); truncation drops the style
  reset, so the style leaks into the following lines (C172); on the alternate screen every frame is written behind the
  one before, without carriage returns (C186); the shell prompt overwrites the last line of an inline program (C187);
* tea: a Quit while the queue is full is taken by the input goroutine: the program runs on without keyboard (C188);
  Quit/Stop lost while the loop is busy (C21); a Batch of more than 100 results deadlocks the loop (C22);
  a second Run panics with "close of closed channel" (C86); a Stop that times out allows two event loops (C136);
  messages left from one Run quit the next (C137); Resume leaves the cursor hidden (C24); Start draws on the
  normal screen when raw mode fails (C138); F1-F4 are unreachable (C25); arrow keys are named by glyphs, not by the
  documented words (C141); TransferForeground without a process group, or a group without the transfer, leaves the
  child in the background, and on Windows the VT-input bit is lost (C142); without a pipe WaitForShutdown waits for a
  key (C159), and with one a relay that outlives its 50 ms takes a key of the next reader (C160).
* Select and MultiSelect: Enter, a cursor key and Enter typed quickly start two commands whose messages race: the program
  may end with the second choice (C201);
* tea: Resume draws the view over the last lines of the external command's output (C193); the event loop draws while
  suspended (C194); after Run the input goroutine goes on taking keys (C195); mouse reports longer than 11 bytes type
  text (C196), e.g. in columns from 100 on. (Also: the option WithMouseAllMotion sets a field nobody reads; nothing in
  the program produces MouseMsg or WindowSizeMsg; PrintlnMsg is not printed by the event loop.)
* render / inline: the first frame is drawn wherever the cursor happens to be (C178); control
  characters in a cell desynchronise the cursor or reset the terminal (C180); one failed write kills the renderer for good, and a Render may
  return nil without having drawn (C182); pooled buffers keep the size they had before Resize (C183), a double Release
  makes two users share cells (C184); style attributes leak between cells (C14); a wide glyph's continuation cell overwrites it (C75);
  shrinking a frame that keeps its last line erases that line (C16), so joining lines in a text area can blank its last row
  (C199).
* components: KillLine/KillWord send the cursor to (0,0) (C03, C07); TextArea's Width, Wrap and MaxChars have no effect
  (C161, C163); Filter with an active query leaves a stale
  focus (C51); list filter keeps only the last typed character (C126); SetOptions forgets height and filter
  (C129); disabled options can be chosen (C79); table View panics in small windows (C62) and cuts bytes (C63, C81);
  Ctrl chords type text (C82); a custom key binding that changes only the selection, or swallows a key, is overridden by
  the default (C197); Form ignores its fields' own Update (C108), and a key typed right after Enter changes the data that SubmitMsg announces as valid (C214).
* progress: every further Run of a Program makes its spinners turn faster, and a Quit() taken by a tick's goroutine freezes them (C213).
* mouse: no byte sequence yields a drag (C30); X10 beyond column 223 wraps (C28); partial writes leave modes on (C34); IsEnabled stays true after a re-enabling that failed half-way (C215).
* clipboard: images never work (C209), plain Read after WriteStyledText returns markup (C208)
* style / layout: byte-wise cutting (C44), border colour differs from text colour (C91), a coloured border cancels the colours of the text (C207), width alone ignored (C92),
  maximum size returns unstyled content (C94), measured size of bordered boxes wrong (C38).
* clipboard: RTF loses braces, backslashes and non-ASCII (C49); OSC 52 provider takes writes it cannot read (C97);
  no fallback to the next provider when the first available one fails (C175); OSC 52 Write reports an error after a
  successful write because fsync of a terminal fails on Linux (C176);
  the Windows provider copies memory behind the text into the clipboard for non-ASCII text (C144), leaks the block and
  loses the old content when a call fails late (C145). Layout's AlignMiddle resets the horizontal alignment (C147);
  TotalSize is two columns short of the picture drawn when there is a border (C150).
* terminal: Windows alternate screen is written to the original buffer (C117); NO_COLOR is ignored by the terminal
  package (C165), and most 256-colour terminals are reported with 16 colours (C164).

## Testing the theorems

`seeded/LOG.jsonl` records every wrong program tried: the definition edited, the edit, the claim it breaks, the
theorems that stopped proving and the theorems added or tightened afterwards. Survivors led to the natural-order
theorem for tables (C60), the key tables (C122, C123, C125, C127, C128, C130, C133) and the
content/configuration properties (C124, C129, C131, C132, C134, C135).

## Trusted base

* Lean 4.33.0 kernel; axioms at most `propext`, `Classical.choice`, `Quot.sound`.
* The reading of the Go code (the code is not run), incl. Go semantics of slices,
  maps, channels as described in the comments.
* The specification-side definitions (terminal emulators in `Render/Spec.lean`, `Tea/InlineModel.lean`,
  `Terminal/AnsiModel.lean`; xterm's mouse encodings; SGR parser; ideal editor) are the trusted reading of the
  respective standards.
* `decide +kernel` is used for closed finite facts (tables of literals, refutation witnesses); it is checked by the
  kernel and adds no axiom. No `native_decide`, no `bv_decide`, no axioms of our own.
