{"id": "C01", "title": "TextArea cursor always inside the text", "statement": "Starting from a new TextArea and applying any sequence of public edits, movements, SetValue/SetCursorPosition calls and key events, the buffer always has at least one line and the reported cursor (row,col) satisfies 0<=row<LineCount and 0<=col<=length(line row).", "quantifier": "all finite histories of TextArea operations with all arguments (any runes, any ints, any validator)", "why_tests_cant": "the invariant ranges over unbounded operation histories and text sizes", "anchors": ["components/input/internal/textarea/domain/model/textarea.go", "components/input/internal/textarea/domain/model/buffer.go", "components/input/internal/textarea/domain/service/editing.go", "components/input/internal/textarea/domain/service/navigation.go"]}
{"id": "C02", "title": "TextArea editing refines a flat text editor", "statement": "Typing a non-newline rune, Enter, Backspace and Delete change (Value(), flat cursor offset) exactly as the ideal one-string editor does: insert at the offset and advance, insert '\\n' and advance, remove the rune before the offset and step back, remove the rune at the offset; nothing happens at the ends of the text.", "quantifier": "all buffers, all in-bounds cursors, all runes", "why_tests_cant": "equality with a specification for every text, cursor and rune cannot be enumerated", "anchors": ["components/input/internal/textarea/domain/service/editing.go", "components/input/internal/textarea/domain/model/buffer.go", "components/input/textarea.go"]}
{"id": "C03", "title": "Kill then yank restores the text", "statement": "KillLine removes exactly the rest of the current line (or the line break at end of line), KillWord removes exactly the text up to the next word boundary, both push the removed text on the kill ring, leave the cursor where the kill happened, and an immediate Yank restores Value().", "quantifier": "all buffers, cursors and kill rings", "why_tests_cant": "quantifies over all texts and cursor positions", "anchors": ["components/input/internal/textarea/domain/service/editing.go: KillLine, KillWord, Yank", "components/input/internal/textarea/domain/model/killring.go"]}
{"id": "C04", "title": "Read-only TextArea never changes its text", "statement": "While ReadOnly is set, no key event (of any kind, in any order) changes Value() or LineCount().", "quantifier": "all texts and all sequences of key events", "why_tests_cant": "unbounded sequences of arbitrary events", "anchors": ["components/input/internal/textarea/infrastructure/keybindings/emacs.go", "components/input/textarea.go: Update"]}
{"id": "C05", "title": "Kill ring is bounded and LIFO at its head", "statement": "The kill ring never holds more than its capacity (>=1), keeps exactly the most recent kills in order, ignores empty kills, and Yank returns the most recent kill still in it.", "quantifier": "all sequences of Kill/Yank/YankPop and all capacities", "why_tests_cant": "unbounded histories", "anchors": ["components/input/internal/textarea/domain/model/killring.go"]}
{"id": "C06", "title": "Cursor movement validator is respected", "statement": "With a movement validator installed, a navigation command or Backspace/Delete that moves the cursor only ever moves it to a position for which the validator returned true; otherwise state is unchanged.", "quantifier": "all validators (arbitrary predicates), all buffers, cursors and navigation commands", "why_tests_cant": "quantifies over arbitrary predicates", "anchors": ["components/input/internal/textarea/domain/service/navigation.go", "components/input/internal/textarea/domain/service/editing.go", "components/input/internal/textarea/domain/model/textarea.go: CanMoveCursor"]}
{"id": "C07", "title": "Cursor stays in the visible window", "statement": "With height>0, after every navigation or editing command the cursor row lies in [scrollRow, scrollRow+height), so VisibleLines contains the cursor line.", "quantifier": "all histories of navigation and editing commands", "why_tests_cant": "depends on the whole history of scroll offsets", "anchors": ["components/input/internal/textarea/domain/model/textarea.go: ensureCursorVisible, VisibleLines", "components/input/internal/textarea/domain/service/navigation.go", "components/input/internal/textarea/domain/service/editing.go"]}
{"id": "C08", "title": "MaxLines limit is never exceeded by editing", "statement": "With MaxLines(n)>0 set and a text of at most n lines, no sequence of editing commands yields a text with more than n lines.", "quantifier": "all histories of editing commands", "why_tests_cant": "unbounded histories", "anchors": ["components/input/internal/textarea/domain/service/editing.go: InsertNewline, Yank", "components/input/internal/textarea/domain/model/textarea.go: maxLines"]}
{"id": "C09", "title": "TextArea cursor moves are inverse and traverse the text", "statement": "Without a validator MoveRight followed by MoveLeft (and vice versa) returns to the same position unless at the end (start) of the text, and MoveRight advances the flat offset by exactly one, so every offset is reachable; line start/end and buffer start/end moves go exactly there; forward/backward word moves never leave the text and never move in the wrong direction.", "quantifier": "all buffers and in-bounds cursors", "why_tests_cant": "all texts and positions", "anchors": ["components/input/internal/textarea/domain/service/navigation.go"]}
{"id": "C10", "title": "Buffer diff is sound and complete", "statement": "For two buffers of equal size, writing the cells listed by Diff(old,new) over old yields exactly new.", "quantifier": "all pairs of buffers of every size, all cell contents", "why_tests_cant": "all sizes and contents", "anchors": ["render/internal/domain/service/diff.go: Diff", "render/internal/domain/model/buffer.go"]}
{"id": "C11", "title": "Buffer diff is minimal", "statement": "For equal-size buffers Diff lists each position at most once, in row-major order, lists only positions whose cells differ; it is empty iff the buffers are equal, and HasChanges/CountChanges agree with it.", "quantifier": "all pairs of buffers", "why_tests_cant": "all sizes and contents", "anchors": ["render/internal/domain/service/diff.go: Diff, HasChanges, CountChanges"]}
{"id": "C12", "title": "Optimizer passes do not change the picture", "statement": "OptimizeService's passes (grouping, merging adjacent ops, removing redundant ops) applied to any operation list produce a list with the same effect on every buffer.", "quantifier": "all lists of draw operations and all buffers", "why_tests_cant": "arbitrary operation lists", "anchors": ["render/internal/domain/service/optimize.go"]}
{"id": "C13", "title": "Renderer keeps the terminal glyph-exact", "statement": "After any history of Render, Resize and Clear calls with buffers of single-column cells of the renderer's size, the text shown by a terminal that executes the emitted bytes equals the last rendered buffer, cell by cell.", "quantifier": "all histories of renderer calls, all buffer sizes and contents (single-column cells)", "why_tests_cant": "depends on the whole history: diffs are relative to what was drawn before, and on cursor-tracking shortcuts", "anchors": ["render/internal/application/renderer.go", "render/internal/infrastructure/ansi/writer.go", "render/internal/infrastructure/ansi/codes.go", "render/internal/domain/service/diff.go"]}
{"id": "C14", "title": "Renderer keeps the terminal style-exact", "statement": "After any history of Render calls, every cell on the terminal shows the colours and attributes of the last rendered buffer.", "quantifier": "all histories of Render calls, all styles", "why_tests_cant": "terminal style is cumulative state across calls", "anchors": ["render/internal/infrastructure/ansi/writer.go: SetStyle", "render/internal/domain/value/style.go"]}
{"id": "C15", "title": "Buffer read-over-write laws", "statement": "Set then Get returns the written cell inside the bounds and is a no-op outside; other positions are untouched; Clone is independent; Resize keeps the overlapping rectangle and blanks the rest; Fill/Clear set every cell.", "quantifier": "all buffers, positions (including negative and out of range) and cells", "why_tests_cant": "all sizes and indices", "anchors": ["render/internal/domain/model/buffer.go"]}
{"id": "C16", "title": "Inline renderer shows exactly the last view", "statement": "After any sequence of Render(view) calls on a wide and tall enough terminal, the screen shows exactly the lines of the last view and nothing of earlier views.", "quantifier": "all sequences of views", "why_tests_cant": "each frame is a delta against previous frames; history dependent", "anchors": ["tea/internal/infrastructure/renderer/inline.go"]}
{"id": "C17", "title": "Line truncation respects the terminal width and keeps escapes intact", "statement": "truncateLine returns a prefix-like subsequence of its input whose visible width is at most the given width, never splits an escape sequence or a rune, and returns the input unchanged when it fits.", "quantifier": "all lines and widths", "why_tests_cant": "all strings", "anchors": ["tea/internal/infrastructure/renderer/inline.go: truncateLine, stripANSI"]}
{"id": "C18", "title": "Batch delivers every command result exactly once", "statement": "Batch ignores nil commands, is nil when none is left, is the command itself when one is left, and otherwise yields a message holding one result per command; after the program unpacks it every result is delivered to Update exactly once (any completion order), none is invented.", "quantifier": "all lists of commands and all completion orders", "why_tests_cant": "all schedules of the concurrently run commands", "anchors": ["tea/internal/domain/service/builtin_cmds.go: Batch", "tea/internal/application/program/program.go: eventLoop"]}
{"id": "C19", "title": "Sequence runs commands in order and delivers their results in order", "statement": "Sequence runs the non-nil commands strictly one after the other, and the results reach Update in that order, even when other messages are interleaved.", "quantifier": "all command lists and all interleavings with other senders", "why_tests_cant": "schedules", "anchors": ["tea/internal/domain/service/builtin_cmds.go: Sequence", "tea/internal/application/program/program.go: eventLoop"]}
{"id": "C20", "title": "Event loop delivers each accepted message to Update exactly once, in order", "statement": "Every message accepted by the program's queue before it quits is handed to Update exactly once, in queue order, Update always receives the model returned by the previous call, and the view rendered last is the view of the latest model.", "quantifier": "all interleavings of senders, command completions and the loop", "why_tests_cant": "all schedules", "anchors": ["tea/internal/application/program/program.go: eventLoop, Send"]}
{"id": "C21", "title": "Quit always stops the program", "statement": "After Quit() is called on a running program, Run returns; the request cannot be lost.", "quantifier": "all schedules of Quit against the event loop, command goroutines and the input reader", "why_tests_cant": "a race; only some schedules lose the request", "anchors": ["tea/internal/application/program/program.go: Quit, eventLoop, executeCommand"]}
{"id": "C22", "title": "The event loop cannot block on its own queue", "statement": "Handling a batch or sequence result never blocks the event loop forever, whatever the number of results.", "quantifier": "all batch sizes and queue contents", "why_tests_cant": "needs queue-full states", "anchors": ["tea/internal/application/program/program.go: eventLoop (BatchMsg/SequenceMsg)"]}
{"id": "C23", "title": "Suspend and Resume restore the terminal modes", "statement": "Suspend leaves raw mode and the alternate screen and shows the cursor; the matching Resume re-enters exactly the modes that were active before Suspend; both are idempotent; with failing terminal operations the recorded state never claims a mode that is not active.", "quantifier": "all initial modes, all sequences of Suspend/Resume and all failure patterns of terminal calls", "why_tests_cant": "all failure patterns and histories", "anchors": ["tea/internal/application/program/program.go: Suspend, Resume"]}
{"id": "C24", "title": "The terminal is restored when the program ends", "statement": "However Run ends (quit message, error, cancelled), afterwards the terminal is not in raw mode, not in the alternate screen and the cursor is visible.", "quantifier": "all histories of the program and its terminal calls", "why_tests_cant": "all exit paths", "anchors": ["tea/internal/application/program/program.go: Run"]}
{"id": "C25", "title": "Keyboard input decodes every documented escape sequence", "statement": "Each key's terminal byte sequence, arriving in the input stream, is decoded to exactly one key message of that key, and consecutive keys do not leak bytes into each other.", "quantifier": "all concatenations of key sequences and all read chunkings", "why_tests_cant": "chunking and concatenation are unbounded", "anchors": ["tea/internal/infrastructure/input/reader.go", "tea/internal/infrastructure/ansi/parser.go"]}
{"id": "C26", "title": "Cancelable reader loses no input", "statement": "The concatenation of the bytes returned by successive Reads is a prefix of the bytes of the underlying stream (all of it if never cancelled), and after Cancel no further byte is returned.", "quantifier": "all streams, chunkings, read sizes and cancel points", "why_tests_cant": "all schedules and sizes", "anchors": ["tea/internal/infrastructure/input/cancelable_reader.go"]}
{"id": "C27", "title": "SGR mouse reports round-trip", "statement": "Parsing the SGR (1006) encoding of any press, release or wheel event with any modifiers at any coordinates yields that event.", "quantifier": "all buttons, modifier sets and coordinates", "why_tests_cant": "unbounded coordinates", "anchors": ["mouse/internal/infrastructure/parser/sgr_parser.go"]}
{"id": "C28", "title": "X10 mouse reports round-trip", "statement": "Parsing the X10 encoding of any press event with modifiers at any coordinates yields that event.", "quantifier": "all buttons, modifiers and coordinates", "why_tests_cant": "coordinate range incl. byte wrap", "anchors": ["mouse/internal/infrastructure/parser/x10_parser.go"]}
{"id": "C29", "title": "Click counting", "statement": "The detector reports click counts only in {1,2,3}; a click counts as the continuation of a multi-click iff it is the same button, within the time limit and within the distance tolerance of the previous click; counts cycle 1,2,3,1.", "quantifier": "all timed sequences of press events", "why_tests_cant": "unbounded timed histories", "anchors": ["mouse/internal/domain/service/click_detector.go"]}
{"id": "C30", "title": "Dragging is reported", "statement": "Pressing a button, moving the pointer past the drag threshold and releasing, as reported by the terminal in SGR mode, yields drag events and no click.", "quantifier": "all press/motion/release sequences and coordinates", "why_tests_cant": "all histories through parser and processor", "anchors": ["mouse/internal/application/event_processor.go", "mouse/internal/application/mouse_handler.go", "mouse/internal/infrastructure/parser/sgr_parser.go", "mouse/internal/domain/service/drag_tracker.go"]}
{"id": "C31", "title": "Drag tracker protocol", "statement": "At the event-processor level: motion with the button held beyond the threshold produces exactly drag events, release ends the drag, a click is reported only for a release that ends no drag, and no drag event is produced without a preceding press.", "quantifier": "all event sequences", "why_tests_cant": "unbounded histories", "anchors": ["mouse/internal/domain/service/drag_tracker.go", "mouse/internal/application/event_processor.go"]}
{"id": "C32", "title": "Hover enter/leave alternate", "statement": "For the hover tracker, at every time the tracked component is the first area containing the pointer; Enter is emitted exactly when it changes to a component and Leave exactly when it changes to none; with a single area Enter and Leave strictly alternate.", "quantifier": "all sequences of pointer positions and area lists", "why_tests_cant": "unbounded histories", "anchors": ["mouse/internal/domain/service/hover_tracker.go"]}
{"id": "C33", "title": "Context menu stays on screen", "statement": "The computed menu position keeps the whole menu inside the screen whenever it fits, and otherwise pins it to the origin of that axis.", "quantifier": "all cursor positions on screen, menu and screen sizes", "why_tests_cant": "all integers", "anchors": ["mouse/internal/domain/service/menu_positioner.go"]}
{"id": "C34", "title": "Disabling the mouse leaves no mouse mode on", "statement": "After enabling any mouse tracking modes in any order and then disabling, the terminal has no mouse tracking or extended-coordinate mode enabled.", "quantifier": "all sequences of Enable/Disable calls", "why_tests_cant": "histories", "anchors": ["mouse/internal/infrastructure/platform/terminal_mode.go", "mouse/internal/infrastructure/ansi/mouse_ansi.go"]}
{"id": "C35", "title": "Flexbox main axis placement", "statement": "Items are laid out in order without overlapping, separated by at least the gap; if they fit, they lie within the container; Start begins at 0, End ends flush, Center leaves free space differing by at most one, SpaceBetween puts first and last at the edges.", "quantifier": "all lists of item sizes, gaps, container sizes and justifications", "why_tests_cant": "all integers and lists", "anchors": ["layout/internal/domain/service/flexbox_layout_service.go", "layout/internal/domain/model/flexbox.go"]}
{"id": "C36", "title": "Flexbox cross axis placement", "statement": "Cross-axis positions are non-negative, and in bounds for items that fit; Start/Center/End are at 0 / middle / flush, Stretch fills.", "quantifier": "all item sizes and container sizes", "why_tests_cant": "all integers", "anchors": ["layout/internal/domain/service/flexbox_layout_service.go"]}
{"id": "C37", "title": "Flex.Render has the requested dimensions", "statement": "Flex.Render(w,h) returns exactly h lines, each of exactly w runes, for all content.", "quantifier": "all contents and sizes", "why_tests_cant": "all contents", "anchors": ["layout/layout.go: Flex.Render"]}
{"id": "C38", "title": "Measured size equals rendered size", "statement": "For single-column text the size reported by Measure is the number of columns and rows that Render produces.", "quantifier": "all boxes (content, padding, margin, border, size)", "why_tests_cant": "all contents", "anchors": ["layout/internal/domain/service/measure_service.go", "layout/internal/domain/service/render_service.go"]}
{"id": "C39", "title": "Size constraints", "statement": "Constrain returns a size within [min,max] on each axis, equal to the input when it already is, and is idempotent and monotone.", "quantifier": "all sizes and constraints", "why_tests_cant": "all integers", "anchors": ["layout/internal/domain/value/size.go"]}
{"id": "C40", "title": "Layout of node trees", "statement": "LayoutNode keeps the tree shape (node count, content, order), places every child at a position inside its parent's coordinates and stacks siblings without overlap.", "quantifier": "all trees", "why_tests_cant": "unbounded trees", "anchors": ["layout/internal/domain/service/layout_service.go", "layout/internal/domain/model/node.go"]}
{"id": "C41", "title": "Hex colours round-trip", "statement": "Hex(c.Hex()) = c for every RGB colour, short #RGB expands by digit doubling, and everything else is rejected.", "quantifier": "all 2^24 colours; all strings", "why_tests_cant": "all strings", "anchors": ["style/internal/domain/value/color.go"]}
{"id": "C42", "title": "256-colour conversion", "statement": "Conversion of an RGB colour to the 256-colour palette yields an index in 16..255; each channel goes to the nearest cube level for non-grey colours.", "quantifier": "all RGB colours", "why_tests_cant": "2^24 inputs", "anchors": ["style/internal/domain/service/color_adapter.go"]}
{"id": "C43", "title": "16-colour conversion picks the nearest palette entry", "statement": "Conversion to 16 colours returns a palette index whose squared distance to the colour is minimal.", "quantifier": "all RGB colours", "why_tests_cant": "2^24 inputs and tie handling", "anchors": ["style/internal/domain/service/color_adapter.go"]}
{"id": "C44", "title": "Text alignment dimensions", "statement": "AlignHorizontal(text,width) is exactly width columns wide; AlignVertical(lines,height) has exactly height lines; the original text appears unmodified when it fits.", "quantifier": "all texts, widths and alignments", "why_tests_cant": "all strings", "anchors": ["style/internal/domain/service/text_aligner.go"]}
{"id": "C45", "title": "Padding, margin and border geometry", "statement": "ApplyPadding/ApplyMargin add exactly top+bottom lines and left/right spaces; a bordered block is rectangular: all its rows have equal width.", "quantifier": "all contents, paddings and margins", "why_tests_cant": "all contents", "anchors": ["style/internal/domain/service/spacing_calculator.go", "style/internal/application/command/border_renderer.go"]}
{"id": "C46", "title": "Clipboard history is bounded and newest-first", "statement": "After any sequence of Add/SetMaxSize/SetMaxAge/RemoveExpired/Clear the history holds at most maxSize entries (when maxSize>0), precisely the most recent ones not given up (evicted by younger ones, expired at a sweep, cleared), unchanged and in order of addition; GetAll and GetRecent list them by time, newest first.", "quantifier": "all histories of operations", "why_tests_cant": "unbounded histories", "anchors": ["clipboard/internal/domain/service/clipboard_history.go"]}
{"id": "C47", "title": "HTML rich text round-trips", "statement": "DecodeHTML(EncodeHTML(text,styles)) returns the same text and styles for every non-empty text, including text full of markup characters, and all styles whose colour is empty or #RRGGBB; the tags in the output are exactly those of the styles, whatever the text.", "quantifier": "all texts and styles", "why_tests_cant": "all strings, injection", "anchors": ["clipboard/internal/domain/service/richtext_codec.go"]}
{"id": "C48", "title": "OSC 52 payload is faithful", "statement": "The OSC 52 sequence written for a text is ESC ] 52 ; c ; B64 terminator where B64 decodes to exactly the text's bytes and contains no byte that could end the sequence early.", "quantifier": "all byte strings", "why_tests_cant": "all strings", "anchors": ["clipboard/internal/infrastructure/osc52/osc52_provider.go"]}
{"id": "C49", "title": "RTF rich text round-trips", "statement": "DecodeRTF(EncodeRTF(text,styles)) returns the same text and styles.", "quantifier": "all texts and styles", "why_tests_cant": "all strings", "anchors": ["clipboard/internal/domain/service/richtext_codec.go"]}
{"id": "C50", "title": "Clipboard uses the first available provider and records only successful writes", "statement": "Read/Write go to the first available provider in order, fail when there is none, and history grows only by successful writes.", "quantifier": "all provider lists and failure patterns", "why_tests_cant": "all failure patterns", "anchors": ["clipboard/internal/domain/service/clipboard_service.go", "clipboard/internal/application/clipboard_manager.go"]}
{"id": "C51", "title": "List focus stays valid", "statement": "After any history of list operations the focused index is a valid index of the filtered items (0 when empty) and the focused item is inside the visible window.", "quantifier": "all histories of operations and item lists", "why_tests_cant": "unbounded histories", "anchors": ["components/list/internal/domain/model/list.go", "components/list/internal/domain/service/navigation.go"]}
{"id": "C52", "title": "List filtering", "statement": "The filtered items are exactly the items matching the query, in original order; the empty query shows all items.", "quantifier": "all item lists, queries and filter functions", "why_tests_cant": "all predicates", "anchors": ["components/list/internal/domain/service/filter.go", "components/list/internal/domain/model/list.go"]}
{"id": "C53", "title": "List selection", "statement": "Selected indices are valid indices of the displayed items; in single mode at most one item is selected; toggling twice is the identity in multi mode.", "quantifier": "all histories", "why_tests_cant": "unbounded histories", "anchors": ["components/list/internal/domain/model/list.go"]}
{"id": "C54", "title": "MultiSelect respects its limits", "statement": "The number of selected options never exceeds the maximum when one is set, confirmation is possible iff the count lies within [min,max], and selected values are the values of the selected options.", "quantifier": "all histories of operations", "why_tests_cant": "unbounded histories", "anchors": ["components/multiselect/internal/domain/model/multiselect.go", "components/multiselect/internal/domain/value/selection.go"]}
{"id": "C55", "title": "MultiSelect selections survive filtering", "statement": "Changing or clearing the filter never changes the set of selected options, the cursor remains valid, and the focused option is visible.", "quantifier": "all histories", "why_tests_cant": "unbounded histories", "anchors": ["components/multiselect/internal/domain/model/multiselect.go"]}
{"id": "C56", "title": "Viewport offset is always in range", "statement": "After any history of content changes, resizes and scrolls the scroll offset lies in [0, max(0, lines-height)].", "quantifier": "all histories of operations", "why_tests_cant": "unbounded histories", "anchors": ["components/viewport/internal/domain/model/viewport.go", "components/viewport/internal/domain/service/scroll.go"]}
{"id": "C57", "title": "Viewport shows a faithful window", "statement": "VisibleLines shows at most height lines; without wrapping they are the lines offset..offset+height-1, each cut to at most width columns; wrapping loses no characters and every piece is at most width columns wide.", "quantifier": "all contents and sizes", "why_tests_cant": "all contents", "anchors": ["components/viewport/internal/domain/model/viewport.go"]}
{"id": "C58", "title": "Viewport follow mode", "statement": "In follow mode, whenever content is set or lines are appended the last line is visible; scrolling up leaves follow mode and scrolling to the bottom re-enters it.", "quantifier": "all histories", "why_tests_cant": "unbounded histories", "anchors": ["components/viewport/internal/domain/model/viewport.go"]}
{"id": "C59", "title": "Select cursor and selection", "statement": "The select's cursor is a valid index of the filtered options (0 when empty), the focused option is always rendered, Select() selects exactly the focused option, and filtering keeps the selected value.", "quantifier": "all histories", "why_tests_cant": "unbounded histories", "anchors": ["components/select/internal/domain/model/select.go"]}
{"id": "C60", "title": "Table sorting", "statement": "SortByColumn shows a permutation of the rows that is ordered by the column in the chosen direction, equal keys keep their original order, and ClearSort restores the original order.", "quantifier": "all row lists and cell values", "why_tests_cant": "all lists", "anchors": ["components/table/internal/domain/service/sort.go", "components/table/table.go: SortByColumn", "components/table/internal/domain/model/table.go"]}
{"id": "C61", "title": "Table cell comparison is a total preorder", "statement": "Compare is antisymmetric, transitive and total on every pair of cell values, so sorting is well defined.", "quantifier": "all triples of cell values of every supported type", "why_tests_cant": "all values, mixed types", "anchors": ["components/table/internal/domain/service/sort.go: Compare"]}
{"id": "C62", "title": "Table keeps the selected row visible", "statement": "After any history of navigation the selected index is valid and the selected row is among VisibleRows (height at least header+1).", "quantifier": "all histories", "why_tests_cant": "unbounded histories", "anchors": ["components/table/internal/domain/model/table.go", "components/table/table.go"]}
{"id": "C63", "title": "Table cells have the column's width", "statement": "Every rendered cell is exactly as wide as its column, so the columns of a table line up in every row.", "quantifier": "all cell texts, widths and alignments", "why_tests_cant": "all strings", "anchors": ["components/table/table.go: formatCell, View"]}
{"id": "C64", "title": "TextInput cursor always inside the text", "statement": "After any history of single-line input operations the cursor and selection lie in [0, number of grapheme clusters].", "quantifier": "all histories, all texts, any grapheme segmentation", "why_tests_cant": "unbounded histories, all Unicode text", "anchors": ["components/input/internal/input/domain/model/input.go", "components/input/internal/input/domain/service/cursor_movement.go"]}
{"id": "C65", "title": "TextInput edits are exact", "statement": "Inserting a rune puts it exactly at the cursor; Backspace/Delete remove exactly one grapheme cluster before/at the cursor, or exactly the selection; nothing else changes.", "quantifier": "all texts, cursors, selections, runes", "why_tests_cant": "all Unicode text", "anchors": ["components/input/internal/input/domain/model/input.go"]}
{"id": "C66", "title": "Progress bar geometry", "statement": "The percentage is always in 0..100; the rendered bar is exactly width cells, filled cells are monotone in the percentage, none at 0, all at 100 and only at 100.", "quantifier": "all widths and percentages", "why_tests_cant": "all integers", "anchors": ["components/progress/internal/domain/model/bar.go", "components/progress/internal/domain/service/render.go", "components/progress/internal/domain/value/percentage.go"]}
{"id": "C67", "title": "Modal box shows its content", "statement": "The rendered modal occupies exactly height rows and every content line that is drawn stays visible (is not overwritten by the frame or the buttons).", "quantifier": "all contents, sizes, titles and button lists", "why_tests_cant": "all contents and sizes", "anchors": ["components/modal/modal.go: renderModalBox"]}
{"id": "C68", "title": "Modal focus", "statement": "The focused button index is valid whenever there are buttons; Next/Previous cycle through all buttons and are inverse; an invisible modal ignores all messages.", "quantifier": "all histories", "why_tests_cant": "unbounded histories", "anchors": ["components/modal/internal/domain/model/modal.go", "components/modal/modal.go: Update"]}
{"id": "C69", "title": "Confirm dialog result is final and matches the pressed button", "statement": "Once done, no further message changes the result; Enter yields the result of the focused button, a shortcut key that of the first matching button, Esc yields Canceled; focus is always valid and starts on No.", "quantifier": "all sequences of messages and button sets", "why_tests_cant": "unbounded histories", "anchors": ["components/confirm/internal/domain/model/confirm.go", "components/confirm/confirm.go"]}
{"id": "C70", "title": "Form submits only valid data", "statement": "A form emits the submit message only if every validator of every field accepts that field's current value; otherwise errors are exactly the validators' failures.", "quantifier": "all forms, validators and values", "why_tests_cant": "arbitrary predicates and histories", "anchors": ["components/form/form.go: handleKey, extractFieldValues", "components/form/internal/domain/model/form.go: ValidateAll"]}
{"id": "C71", "title": "Form focus cycles", "statement": "The focused field index is always valid (0 when there are no fields), Tab visits all fields cyclically, and the field left is marked touched.", "quantifier": "all histories", "why_tests_cant": "unbounded histories", "anchors": ["components/form/internal/domain/model/form.go"]}
{"id": "C72", "title": "Builder methods never modify earlier values", "statement": "Deriving a new form with Field(...) leaves every previously obtained form unchanged.", "quantifier": "all derivation trees of forms", "why_tests_cant": "aliasing only shows for particular slice capacities", "anchors": ["components/form/form.go: Field"]}
{"id": "C73", "title": "Capability detection", "statement": "NO_COLOR disables everything; FORCE_COLOR overrides detection; a terminal reported without ANSI support never claims mouse, alternate screen or cursor control; reported depth is one of the four legal values.", "quantifier": "all environments and platforms", "why_tests_cant": "all environment maps", "anchors": ["core/internal/domain/service/capabilities_detector.go", "core/internal/domain/value/capabilities.go"]}
{"id": "C74", "title": "Terminal mode protocol", "statement": "EnterAltScreen/ExitAltScreen and EnterRawMode/ExitRawMode alternate: a second Enter or an unmatched Exit is an error without effect, the flags equal the terminal's real state after any history even when the underlying calls fail, and ExitRawMode restores the state saved by the matching EnterRawMode.", "quantifier": "all histories of calls and failure patterns", "why_tests_cant": "histories and failures", "anchors": ["terminal/internal/infrastructure/unix/ansi.go", "testing/mock_terminal.go"]}
{"id": "C75", "title": "Wide characters survive differential updates", "statement": "After any history of Render calls with buffers written by SetString that contain double-width characters, the terminal shows every character of the last buffer.", "quantifier": "all histories of Render calls, all texts mixing single- and double-width characters", "why_tests_cant": "depends on which cells differ between consecutive frames", "anchors": ["render/internal/application/renderer.go", "render/internal/domain/model/buffer.go: SetString", "render/internal/infrastructure/ansi/writer.go"]}
{"id": "C76", "title": "Viewport dragging and wheel scroll by exact amounts", "statement": "After a left press, any pointer motions set the scroll offset to the offset at press time minus the dragged distance, clamped to the valid range; each wheel step moves by exactly the configured number of lines, clamped.", "quantifier": "all viewports, all sequences of motion events, all coordinates", "why_tests_cant": "all event sequences and positions", "anchors": ["components/viewport/viewport.go: handleMouseMsg"]}
{"id": "C77", "title": "List navigation is cyclic and reaches every item", "statement": "MoveUp and MoveDown wrap around and undo each other; k steps down from item i reach item (i+k) mod n; paging stops at the ends.", "quantifier": "all lists, positions and step counts", "why_tests_cant": "all sizes and positions", "anchors": ["components/list/internal/domain/service/navigation.go", "components/list/internal/domain/model/list.go"]}
{"id": "C78", "title": "Filter typing is rune-exact", "statement": "In a filterable Select or MultiSelect, typing runes and Backspace edits the filter query rune by rune: every typed rune is appended, Backspace removes the last one.", "quantifier": "all sequences of typed runes and Backspaces", "why_tests_cant": "arbitrarily long inputs over all of Unicode", "anchors": ["components/multiselect/multiselect.go:handleFilterInput", "components/select/select.go:handleFilterInput"]}
{"id": "C79", "title": "Disabled options cannot be chosen", "statement": "An option whose Disabled() is true ('cannot be selected') is never selected by Enter (Select) or Space/SelectAll (MultiSelect).", "quantifier": "all option lists and histories", "why_tests_cant": "quantifies over all histories", "anchors": ["components/select/internal/domain/value/option.go:Disabled", "components/select/internal/domain/model/select.go:Select", "components/multiselect/internal/domain/model/multiselect.go:Toggle"]}
{"id": "C80", "title": "Table view fits its height", "statement": "View never prints more lines than the configured Height (when at least one row fits).", "quantifier": "all tables, heights, histories", "why_tests_cant": "all sizes and histories", "anchors": ["components/table/table.go:View", "components/table/internal/domain/model/table.go:VisibleRows"]}
{"id": "C81", "title": "Selecting a row leaves its data readable", "statement": "The selected row shows the same cell texts as when it is not selected (plus a marker).", "quantifier": "all rows, columns, widths", "why_tests_cant": "all cell contents", "anchors": ["components/table/table.go:View"]}
{"id": "C82", "title": "Control chords never type text into an input", "statement": "A key pressed together with Ctrl never adds a character to a single-line input.", "quantifier": "all input states, all key messages with Ctrl", "why_tests_cant": "all histories and keys", "anchors": ["components/input/internal/input/infrastructure/keybindings.go", "tea/internal/infrastructure/ansi/parser.go"]}
{"id": "C83", "title": "Input view is a window of the text around the cursor", "statement": "View of a single-line input never panics, shows consecutive characters of the text with the cursor drawn on the character at the cursor position, and never needs more cells than the width.", "quantifier": "all texts, widths, histories", "why_tests_cant": "all Unicode text and histories", "anchors": ["components/input/input.go:View", "components/input/input.go:renderContent"]}
{"id": "C84", "title": "Input validators decide exactly", "statement": "Chain accepts exactly the texts all validators accept and reports the first error; MinLength/MaxLength/Range bound the number of characters; IsValid follows.", "quantifier": "all validators, all texts", "why_tests_cant": "arbitrary validator lists and texts", "anchors": ["components/input/internal/input/domain/service/validation.go"]}
{"id": "C85", "title": "A failed inline render can be retried", "statement": "If a Render call fails after part of its output was written, calling Render again with the same view puts that view on the screen.", "quantifier": "all histories, views, and points at which the writer fails", "why_tests_cant": "every failure point of every frame", "anchors": ["tea/internal/infrastructure/renderer/inline.go:Render"]}
{"id": "C86", "title": "The input reader goroutine starts and stops without a crash", "statement": "Starting, stopping, suspending and restarting the input reader never panics, and at most one goroutine reads the program's input at a time.", "quantifier": "all interleavings of runs, suspends and goroutine exits", "why_tests_cant": "schedules of several goroutines and repeated runs", "anchors": ["tea/internal/application/program/program.go: startInputReader, stopInputReader, restartInputReader"]}
{"id": "C87", "title": "Reports name the right button and scroll amount", "statement": "A mouse report that is not a motion report is decoded to the button its code names, with the modifiers its code carries; a wheel notch scrolls by the configured number of lines, up negative, down positive.", "quantifier": "all button codes, modifiers, coordinates", "why_tests_cant": "unbounded coordinates; whole code space", "anchors": ["mouse/internal/infrastructure/parser/sgr_parser.go", "mouse/internal/domain/service/scroll_calculator.go"]}
{"id": "C88", "title": "Bounding boxes overlap iff they share a cell", "statement": "BoundingBox.Overlaps is true exactly when some position is contained in both boxes; Contains is exactly cell membership.", "quantifier": "all integer boxes and positions", "why_tests_cant": "infinite integer domain", "anchors": ["mouse/internal/domain/value/bounding_box.go"]}
{"id": "C89", "title": "A flex container shows every item it has room for", "statement": "When a row or column container of w by h cells is rendered and its items (plain text, no explicit size; any padding, margin and border) fit along the main axis together with the gaps, and each fits along the cross axis, every character of every item's own rendering appears in the output at the position the layout assigned to the item, whatever the justification and alignment.", "quantifier": "all item lists, gaps, directions, justifications, alignments and container sizes", "why_tests_cant": "The item list, the sizes and the 5x4 combinations of justification and alignment are unbounded; overlap of later items over earlier ones shows only for particular sizes.", "anchors": ["layout/layout.go", "layout/internal/domain/service/flexbox_layout_service.go", "layout/internal/domain/service/render_service.go"]}
{"id": "C90", "title": "Colour escape sequences mean the requested colour", "statement": "For every colour and every terminal capability, the sequence emitted for a foreground or background colour is a well-formed SGR sequence that a terminal reads back as that colour (true colour) or as the palette entry the conversion selected (256, 16 colours); nothing is emitted without colour support.", "quantifier": "all 2^24 colours, four capabilities", "why_tests_cant": "2^24 colours times capabilities times two planes; the decimal formatting and the bright/normal split matter for particular indices only", "anchors": ["style/internal/domain/service/color_adapter.go", "style/internal/infrastructure/ansi/code_generator.go"]}
{"id": "C91", "title": "Borders and text of one colour look alike", "statement": "A border and a text of the same colour are displayed in the same colour, at every colour depth.", "quantifier": "all colours and capabilities", "why_tests_cant": "border colours are converted by a second, different algorithm; the disagreement depends on the colour", "anchors": ["style/internal/application/command/border_renderer.go", "style/internal/domain/service/color_adapter.go"]}
{"id": "C92", "title": "A rendered style has the size it asks for", "statement": "Rendering a text with Width(w), Height(h) and an alignment yields a rectangle of exactly w by h cells plus padding, border and margin, with every line of the text unbroken at its aligned place; Width alone makes every line at least w wide.", "quantifier": "all styles, texts and widths", "why_tests_cant": "all combinations of sizes, paddings, borders, margins, alignments and texts", "anchors": ["style/internal/application/command/render.go", "style/internal/domain/service/text_aligner.go"]}
{"id": "C93", "title": "Colours and decorations never change the text", "statement": "What a terminal shows of a styled text, ignoring escape sequences, equals the rendering of the same style without colours and decorations.", "quantifier": "all styles and texts without escape characters", "why_tests_cant": "all texts and styles; the interaction of border colour and margin is easily missed", "anchors": ["style/internal/application/command/render.go", "style/internal/application/command/border_renderer.go"]}
{"id": "C94", "title": "Size constraints of a style", "statement": "MinWidth/MaxWidth/MinHeight/MaxHeight bound the size of the output; a value within the limits is left unchanged.", "quantifier": "all constraints and contents", "why_tests_cant": "all combinations of limits and contents", "anchors": ["style/internal/application/command/render.go", "style/internal/domain/value/size.go"]}
{"id": "C95", "title": "Merging themes", "statement": "Merging a theme with an override takes every value the override sets and keeps the base's value otherwise; merging is associative and idempotent.", "quantifier": "all pairs and triples of themes", "why_tests_cant": "27 fields with independent values", "anchors": ["style/internal/domain/model/theme.go"]}
{"id": "C96", "title": "Theme manager history", "statement": "After any sequence of SetTheme, SetPreset, MergeTheme and Reset the current theme is the last one set with the later merges applied in order; SetTheme returns the theme it replaces; nil and unknown presets are ignored; preset names are case-insensitive.", "quantifier": "all histories of operations", "why_tests_cant": "unbounded histories", "anchors": ["style/internal/application/theme_manager.go", "style/internal/domain/model/theme_presets.go"]}
{"id": "C97", "title": "A text written to the clipboard can be read back", "statement": "After a successful Write(text), Read returns text (nobody else touching the clipboard).", "quantifier": "all texts and environments (SSH, terminal, tools present)", "why_tests_cant": "depends on the environment the chain is built in", "anchors": ["clipboard/internal/application/clipboard_manager.go", "clipboard/clipboard.go", "clipboard/internal/infrastructure/osc52/osc52_provider.go"]}
{"id": "C98", "title": "RestoreFromHistory restores exactly the recorded bytes", "statement": "Restoring an entry hands exactly the recorded bytes to the first available provider and records them again with the entry's text type; an unknown id or disabled history writes nothing.", "quantifier": "all histories, entries and provider states", "why_tests_cant": "unbounded histories and arbitrary providers", "anchors": ["clipboard/clipboard.go"]}
{"id": "C99", "title": "Image format detection", "statement": "DetectFormat recognises PNG, JPEG, GIF and BMP exactly by their magic numbers, which exclude one another, and never claims data that is too short.", "quantifier": "all byte strings", "why_tests_cant": "all inputs", "anchors": ["clipboard/internal/domain/service/image_codec.go"]}
{"id": "C100", "title": "History entries with equal timestamps are listed newest first", "statement": "GetAll lists the entries from the last added to the first, also when several were added at the same clock reading.", "quantifier": "all histories", "why_tests_cant": "depends on clock resolution and on an unstable sort", "anchors": ["clipboard/internal/domain/service/clipboard_history.go"]}
{"id": "C101", "title": "Spinner animation", "statement": "A spinner shows the frame (ticks mod frame count) of the frames it was created with, for built-in and custom spinners alike; every tick schedules exactly one further tick.", "quantifier": "all frame lists, rates and numbers of ticks", "why_tests_cant": "unbounded histories; custom frame lists", "anchors": ["components/progress/spinner.go: NewSpinnerCustom, Update", "components/progress/internal/domain/model/spinner.go", "components/progress/internal/domain/value/spinner_style.go"]}
{"id": "C102", "title": "Spinners do not disturb each other", "statement": "With any number of spinners embedded in one application, each spinner keeps exactly one tick outstanding, so animation speed does not depend on the other spinners.", "quantifier": "all numbers of spinners and rounds of ticks", "why_tests_cant": "the growth of pending ticks shows over unbounded time", "anchors": ["components/progress/spinner.go: Update, tick"]}
{"id": "C103", "title": "Modal rows have the declared width", "statement": "Every row of a rendered modal is exactly its width in terminal cells.", "quantifier": "all titles, contents, labels and widths of at least 4", "why_tests_cant": "all Unicode texts", "anchors": ["components/modal/modal.go: renderModalBox, padOrTruncate"]}
{"id": "C104", "title": "Modal rendering never panics", "statement": "View of a modal returns for every size, content, title and button list.", "quantifier": "all modals", "why_tests_cant": "all integers and strings", "anchors": ["components/modal/modal.go: View, renderModalBox, padOrTruncate"]}
{"id": "C105", "title": "A centred modal is centred in the current terminal", "statement": "After the application forwards a window size, showing a centred modal places it in the middle of that size.", "quantifier": "all histories of sizes, shows and hides", "why_tests_cant": "histories", "anchors": ["components/modal/modal.go: Update, View", "components/modal/internal/domain/service/layout.go"]}
{"id": "C106", "title": "Affirmative means yes", "statement": "The first button of a confirm dialog answers yes and the second no, whatever their labels.", "quantifier": "all labels", "why_tests_cant": "all strings", "anchors": ["components/confirm/confirm.go: Affirmative, Negative", "components/confirm/internal/domain/model/confirm.go: labelToResult"]}
{"id": "C107", "title": "Button shortcut is the first character of its label", "statement": "Typing the first character of a button's label selects it.", "quantifier": "all labels and characters", "why_tests_cant": "all Unicode strings", "anchors": ["components/confirm/internal/domain/value/button.go"]}
{"id": "C108", "title": "Keys reach the focused form field", "statement": "A key that is not one of the form's own keys is handed to the component in the focused field, and to no other.", "quantifier": "all components of the library, keys and histories", "why_tests_cant": "a test with a mock component cannot see the type assertion fail for real ones", "anchors": ["components/form/form.go: delegateToFocusedField"]}
{"id": "C109", "title": "The check mark means valid", "statement": "A form field displayed as valid satisfies all its validators.", "quantifier": "all forms, validators and histories", "why_tests_cant": "histories and arbitrary validators", "anchors": ["components/form/form.go: renderField", "components/form/internal/domain/model/form.go: MoveFocusNext"]}
{"id": "C110", "title": "Value(name) is that field's model", "statement": "Value(name) returns the current model of the field registered under that name, and nothing for unknown names.", "quantifier": "all histories with distinct field names", "why_tests_cant": "histories", "anchors": ["components/form/form.go: Field, Value"]}
{"id": "C111", "title": "Dumb terminals claim nothing", "statement": "Without FORCE_COLOR, on every platform but Windows a terminal whose TERM is dumb (or unset) is reported without ANSI, colour, mouse, alternate screen and cursor control.", "quantifier": "all environments, detector and AutoDetect", "why_tests_cant": "all environment maps", "anchors": ["core/internal/domain/service/capabilities_detector.go: Detect, detectMacOS, detectUnix", "core/core.go: AutoDetect"]}
{"id": "C112", "title": "Apple Terminal is not reported as 24-bit", "statement": "With TERM_PROGRAM=Apple_Terminal and no FORCE_COLOR, detection on macOS never reports 24-bit colour, whatever COLORTERM says.", "quantifier": "all environments, detector and AutoDetect", "why_tests_cant": "all environment maps", "anchors": ["core/internal/domain/service/capabilities_detector.go: detectMacOS", "core/internal/infrastructure/platform/platform_unix.go"]}
{"id": "C113", "title": "Alternate-screen flag under misleading failures", "statement": "IsInAltScreen equals what the terminal shows even if a write reports an error after its bytes were delivered.", "quantifier": "all histories and failure patterns", "why_tests_cant": "histories and failures", "anchors": ["terminal/internal/infrastructure/unix/ansi.go: EnterAltScreen, ExitAltScreen"]}
{"id": "C114", "title": "ANSI calls mean what they say", "statement": "On a VT terminal, SetCursorPosition, the relative moves, Clear, ClearLine, ClearFromCursor, ClearLines, hide/show, save/restore, style and WriteAt have exactly their documented effect on cursor and screen content, for every argument and every screen.", "quantifier": "all screens, cursor positions and arguments", "why_tests_cant": "unbounded screens and arguments; tests compare bytes, not effects", "anchors": ["terminal/internal/infrastructure/unix/ansi.go"]}
{"id": "C115", "title": "Windows and ANSI implementations agree", "statement": "Any sequence of on-screen positioning, relative moves, save/restore, hide/show, Clear, ClearLine and ClearFromCursor leaves the same screen, cursor and visibility on a VT terminal (ANSI implementation) and a Windows console (Win32 implementation).", "quantifier": "all call sequences, sizes and screens", "why_tests_cant": "histories; the two implementations never run on the same machine", "anchors": ["terminal/internal/infrastructure/unix/ansi.go", "terminal/internal/infrastructure/windows/console.go"]}
{"id": "C116", "title": "Documented details of the Terminal interface", "statement": "ClearLines(n) clears n lines and nothing below; ClearLine leaves the cursor unchanged; Save/Restore behave like a stack; an out-of-range SetCursorPosition is reported.", "quantifier": "all screens and arguments", "why_tests_cant": "all screens and arguments", "anchors": ["terminal/terminal.go", "terminal/internal/infrastructure/unix/ansi.go", "terminal/internal/infrastructure/windows/console.go"]}
{"id": "C117", "title": "Alternate screen preserves the user's screen", "statement": "Whatever is drawn between EnterAltScreen and ExitAltScreen, the original screen content and cursor are back after ExitAltScreen.", "quantifier": "all drawing histories", "why_tests_cant": "histories", "anchors": ["terminal/internal/infrastructure/unix/ansi.go: EnterAltScreen, ExitAltScreen", "terminal/internal/infrastructure/windows/console.go: Write"]}
{"id": "C118", "title": "Core value objects", "statement": "Positions stay non-negative under any sequence of moves; sizes are at least 1x1 and Contains is exactly being in range; cells keep content and have non-negative width; a terminal value after any chain of With calls has the last size and raw mode given and its original capabilities; raw-mode values never lose the saved state.", "quantifier": "all arguments and call chains", "why_tests_cant": "all integers and chains", "anchors": ["core/core.go", "core/internal/domain/value", "core/internal/domain/model"]}
{"id": "C119", "title": "Width with configuration", "statement": "StringWidthWithConfig is StringWidth in narrow mode, and StringWidth plus the ambiguous runes' extra columns in wide mode; never smaller than StringWidth; additive where StringWidth is.", "quantifier": "all strings and width tables", "why_tests_cant": "all strings", "anchors": ["core/internal/domain/service/unicode_service.go"]}
{"id": "C120", "title": "Mock terminal is faithful", "statement": "CallCount(m) is the number of calls of m since the last Reset, for every history and arguments; the mock's mode flags and errors are those of a real terminal with working system calls.", "quantifier": "all histories of calls", "why_tests_cant": "histories, prefix-related method names", "anchors": ["testing/mock_terminal.go"]}
{"id": "C121", "title": "Windows console mode protocol", "statement": "After any history of mode switches with any system call failing, the library draws on the buffer being shown, IsInAltScreen and IsInRawMode tell the real state, ExitRawMode restores the input mode, and no screen buffer leaks when closing works.", "quantifier": "all histories and failure patterns", "why_tests_cant": "histories and failures", "anchors": ["terminal/internal/infrastructure/windows/console.go: EnterAltScreen, ExitAltScreen, EnterRawMode, ExitRawMode"]}
{"id": "C122", "title": "The editor's key table", "statement": "In the multi-line editor every documented key (Ctrl+A/E/P/N/F/B/K/U/W/Y/D/H/M in either case, Alt+F/B/</>/D/Backspace, arrows, Home, End, Backspace, Delete, Enter, Space) runs exactly its documented command in every state; a character typed without Ctrl and Alt inserts exactly that character; any other key (with at most one of the two modifiers) changes nothing at all and calls no handler.", "quantifier": "every state of the editor and every key message", "why_tests_cant": "The table has to hold for every state and the 'nothing else' part ranges over all key messages with all characters.", "anchors": ["components/input/internal/textarea/infrastructure/keybindings/emacs.go:28-150", "EmacsKeybindings.Handle", "components/input/textarea.go:Update"]}
{"id": "C123", "title": "Viewport key table", "statement": "In any reachable state of a viewport: up/k and down/j scroll one line, PgUp/b/Ctrl+B and PgDn/f/Ctrl+F/Space one page, Ctrl+U/Ctrl+D half a page, Home/g and End/G to the first and last page, all clamped to the valid range; any other key leaves the viewport completely unchanged.", "quantifier": "every reachable state and key message", "why_tests_cant": "All contents, sizes and offsets, and all key messages.", "anchors": ["components/viewport/viewport.go:180-216", "handleKeyMsg", "components/viewport/internal/infrastructure/keybindings.go"]}
{"id": "C124", "title": "Viewport content is exactly what was set and appended", "statement": "After any history the viewport's content is the text of the last SetContent/SetLines followed by everything appended since, in order: scrolling, keys, mouse, resizing and mode switches never lose, reorder or alter lines.", "quantifier": "every history of public operations", "why_tests_cant": "Histories are unbounded.", "anchors": ["components/viewport/viewport.go:57-177", "components/viewport/internal/domain/model/viewport.go:45-61", "WithContent"]}
{"id": "C125", "title": "List key table", "statement": "With the default key bindings a list reacts to up/k, down/j, PgUp/Ctrl+U, PgDn/Ctrl+D, Home/g, End/G by moving the focus (wrapping for single steps, clamped for pages) without touching the selection; Space toggles the focused item, Ctrl+A selects all (multi-selection only), Esc clears the selection, Enter, q and Ctrl+C change nothing; with the filter shown any other character sets the query and Backspace clears it; every other key changes nothing.", "quantifier": "every state satisfying the list invariant, every key message", "why_tests_cant": "All lists, focus positions, selections and key messages.", "anchors": ["components/list/list.go:206-249", "handleKey", "components/list/internal/infrastructure/keybindings.go:15-75"]}
{"id": "C126", "title": "Typing into the list filter filters by the typed text", "statement": "With the filter shown, after typing a sequence of characters that are not bound to commands, the list shows exactly the items matching that whole text (as the code's comment 'add character to filter query' says).", "quantifier": "every list and every typed text", "why_tests_cant": "All texts; every prefix is an intermediate state.", "anchors": ["components/list/list.go:236-246", "handleKey"]}
{"id": "C127", "title": "MultiSelect key table", "statement": "With the default key bindings a multi-select reacts to up/k, down/j, Home/g, End/G with clamped cursor moves that leave selection, filter and options alone; 'a' selects all displayed options as far as the maximum allows and drops nothing; 'n' deselects everything; Esc clears the filter and nothing else; Ctrl+C only quits; unbound keys do nothing while filtering is off.", "quantifier": "every history of public calls and keys, every key message", "why_tests_cant": "All option lists, limits, histories and keys.", "anchors": ["components/multiselect/multiselect.go:207-280", "components/multiselect/internal/infrastructure/keyboard.go:33-71", "handleKey", "SelectAll"]}
{"id": "C128", "title": "Select key table", "statement": "With the default key bindings a select reacts to up/k, down/j, Home/g, End/G with clamped cursor moves that leave the chosen value, filter and options alone; Esc clears the filter; Ctrl+C only quits; with filtering on an unbound character is appended to the query, Backspace removes one byte, and exactly the matching options are displayed; with filtering off unbound keys do nothing.", "quantifier": "every history of public calls and keys, every key message", "why_tests_cant": "All option lists, filters, histories and keys.", "anchors": ["components/select/select.go:144-200", "components/select/internal/infrastructure/keyboard.go:30-65", "handleKey"]}
{"id": "C129", "title": "Replacing the options keeps the configured height and filter", "statement": "Setting the options of a multi-select or select keeps the height and the filter function that were configured before.", "quantifier": "every configuration and option list", "why_tests_cant": "All orders of builder calls.", "anchors": ["components/multiselect/multiselect.go:75-90", "components/select/select.go:64-80", "WithOptions"]}
{"id": "C130", "title": "Table key table", "statement": "With the default key bindings a table reacts to up/k, down/j, Home/g, End/G, PgUp, PgDn with clamped moves of the selection that leave rows, order and layout alone; 'c' restores the original row order; every other key changes nothing; new rows reset sort and selection; height and header switch change only that.", "quantifier": "every history whose resizes keep the selection on screen, every key message", "why_tests_cant": "All tables, histories, and keys.", "anchors": ["components/table/table.go:155-219", "components/table/internal/infrastructure/keybindings.go:19-30", "components/table/internal/domain/model/table.go:131-232", "Update"]}
{"id": "C131", "title": "Table cells show their text, padded or truncated as configured", "statement": "A text that fits its column is shown unchanged with blanks on the side the alignment says; a longer text keeps its beginning and, in columns wider than 3, ends in '...'.", "quantifier": "every text, width and alignment", "why_tests_cant": "All texts and widths.", "anchors": ["components/table/table.go:311-339", "formatCell"]}
{"id": "C132", "title": "The table view shows the visible rows, cell by cell", "statement": "The view consists of the titles (with the sort direction on the sorted column only) and a rule if the header is shown, then one line per visible row in order, with one cell per column in column order; exactly the first cell of the selected row carries the marker.", "quantifier": "every table state that can be rendered", "why_tests_cant": "All tables.", "anchors": ["components/table/table.go:224-308", "View"]}
{"id": "C133", "title": "Text input key table", "statement": "In a focused input, Left/Right move the cursor by one visible character (stopping at the ends), Home/End to the ends, Backspace/Delete remove the character before/at the cursor, printable keys and Space insert at the cursor, Ctrl+A selects everything, Ctrl+E moves to the end, Ctrl+U empties the input, all other keys without Ctrl do nothing; cursor keys drop a selection; no key changes width, focus, cursor visibility or validator.", "quantifier": "every history, every key message, every grapheme segmentation", "why_tests_cant": "All texts, cursor positions and keys.", "anchors": ["components/input/internal/input/infrastructure/keybindings.go:26-76", "components/input/input.go:154-170", "Update"]}
{"id": "C134", "title": "Text input configuration calls do what they say", "statement": "Content and SetContent set exactly the text and clamp the cursor into it; Width, Focused, ShowCursor and Validator change exactly what they name; IsValid is the configured validator's verdict on the current text.", "quantifier": "every state and every argument", "why_tests_cant": "All texts, positions and validators.", "anchors": ["components/input/internal/input/domain/model/input.go:102-191", "components/input/input.go:63-140"]}
{"id": "C135", "title": "Every command is run once", "statement": "Each command returned by Init or by a call of Update is started exactly once; the multiset of commands started equals the multiset of commands that Init and the Updates issued, and every result that reaches the queue was returned by one of those commands, each of which contributes at most one result.", "quantifier": "every model, every command, every interleaving of sends, commands, quits and the event loop", "why_tests_cant": "command goroutines finish in any order relative to further Updates", "anchors": ["tea/internal/application/program/program.go:Run,eventLoop", "tea/internal/domain/service/cmd.go"]}
{"id": "C136", "title": "One event loop per program", "statement": "At any moment at most one event loop of a Program is executing, IsRunning tells whether one is, Run/Start is refused exactly while one is, and Stop returns only after it has ended.", "quantifier": "every interleaving of Run, Start, Stop, IsRunning and the end of the loop, for every duration of Update", "why_tests_cant": "needs a Stop that races with a slow Update", "anchors": ["tea/internal/application/program/program.go:Run,Start,Stop,IsRunning"]}
{"id": "C137", "title": "A Run starts with an empty queue", "statement": "The event loop of a Run handles only messages sent after that Run began; over any number of Runs of a Program messages are handled in the order in which they were accepted and the model carries over.", "quantifier": "every history of Runs and sends", "why_tests_cant": "needs messages left over at the end of a previous Run", "anchors": ["tea/internal/application/program/program.go:New,Run,eventLoop"]}
{"id": "C138", "title": "Alternate-screen programs never draw on the normal screen", "statement": "A program created with the alternate-screen option that begins its event loop, through Run or Start, is on the alternate screen, whatever terminal operations fail; when the loop ends no mode is left behind.", "quantifier": "every pattern of failing terminal operations, every option", "why_tests_cant": "needs each terminal operation to fail at each point", "anchors": ["tea/internal/application/program/program.go:Run,Start"]}
{"id": "C139", "title": "Styled text is measured by its visible characters", "statement": "The inline renderer's width of a line is the number of terminal columns of its visible characters, wherever CSI and OSC escape sequences occur in it: control characters and marks take no column, East Asian wide characters and emoji two, everything else one.", "quantifier": "every sequence of characters and well-formed escape sequences, every character", "why_tests_cant": "tests use a few colour codes; any parameter, payload or terminator may occur", "anchors": ["tea/internal/infrastructure/renderer/inline.go:stripANSI,visualWidth,runeDisplayWidth"]}
{"id": "C140", "title": "Messages cross the public API unchanged", "statement": "A message handed to Send, or returned by a command or Init, is what Update is called with, however deeply batches and sequences are nested; keys, mouse events and window sizes reported by the terminal arrive under the public constants of the same name with the same rune, position and modifiers.", "quantifier": "all messages (any nesting), all applications, all key types, buttons, actions", "why_tests_cant": "messages nest without bound and the two enumerations must agree constant by constant", "anchors": ["tea/tea.go:convertMsgToPublic", "tea/tea.go:convertMsgToInternal", "tea/tea.go:convertCmdToInternal", "tea/internal/domain/model/msg.go:KeyType"]}
{"id": "C141", "title": "Key names identify keys", "statement": "KeyMsg.String() of two key messages is equal exactly when they are the same key press (Ctrl+C counted as ctrl and c; Shift is part of a rune).", "quantifier": "all pairs of key messages", "why_tests_cant": "pairs of keys with every rune and modifier", "anchors": ["tea/internal/domain/model/msg.go:KeyMsg.String", "tea/internal/domain/model/msg.go:keyTypeName"]}
{"id": "C142", "title": "Commands run with terminal ownership", "statement": "ExecProcessWithTTY: while the command runs, its process group owns the terminal (its own group with CreateProcessGroup, the program's otherwise); afterwards the terminal belongs to the group it belonged to before, the program is resumed in its former modes whatever happened to the command, SIGTTOU is not left ignored; on Windows the console's input mode is back when the program ends.", "quantifier": "all options, all failures of system calls, all behaviours of the command, all initial modes", "why_tests_cant": "depends on process groups, signals and failing system calls", "anchors": ["tea/internal/application/program/tty_control_linux.go:execWithTTYControl", "tea/internal/application/program/tty_control_windows.go:execWithTTYControl"]}
{"id": "C143", "title": "The Windows clipboard gives back the text put into it", "statement": "On Windows, after a successful Write(text) the clipboard holds the standard UTF-16 form of the text followed by a zero, and Read returns exactly text, for every text without a NUL character, including characters outside the Basic Multilingual Plane; well-formed UTF-16 stored by any other program is read as its text.", "quantifier": "all texts of any length, all earlier clipboard contents, all contents of the memory behind the buffers", "why_tests_cant": "all Unicode texts; surrogate arithmetic; garbage in memory", "anchors": ["clipboard/internal/infrastructure/native/clipboard_windows.go:stringToUTF16Ptr", "clipboard/internal/infrastructure/native/clipboard_windows.go:utf16UintptrToString"]}
{"id": "C144", "title": "A clipboard write reads only the text's own memory", "statement": "On Windows, Write copies into the system clipboard exactly the UTF-16 units of the text and the terminator, never memory lying behind them.", "quantifier": "all texts", "why_tests_cant": "an out-of-bounds read shows no symptom in a test", "anchors": ["clipboard/internal/infrastructure/native/clipboard_windows.go:Write", "clipboard/internal/infrastructure/native/clipboard_windows.go:copyMemoryFromUintptr"]}
{"id": "C145", "title": "A failing clipboard call leaves everything released", "statement": "Whatever combination of Windows clipboard and memory calls fails, Read and Write return with the clipboard closed and no memory locked, Write reports success exactly when all its calls succeeded, and a failed Write frees its memory and leaves the former clipboard content.", "quantifier": "all combinations of failing system calls, all contents", "why_tests_cant": "system calls do not fail on demand", "anchors": ["clipboard/internal/infrastructure/native/clipboard_windows.go:Read", "clipboard/internal/infrastructure/native/clipboard_windows.go:Write"]}
{"id": "C146", "title": "Rich text survives conversion between HTML and RTF", "statement": "HTMLToRTF of EncodeHTML(text,styles) is EncodeRTF(text,styles), RTFToHTML of EncodeRTF(text,styles) is EncodeHTML(text,styles) up to the case of colour digits; conversion fails exactly when reading the source or writing the target fails; the empty document converts to the empty document.", "quantifier": "all texts and styles", "why_tests_cant": "all strings", "anchors": ["clipboard/internal/domain/service/richtext_codec.go:HTMLToRTF", "clipboard/internal/domain/service/richtext_codec.go:RTFToHTML"]}
{"id": "C147", "title": "The box builder does what its calls name", "statement": "After any chain of Box builder calls, each attribute (width, height, min/max sizes, padding, margin, border, alignment) has the value given by the last call naming it, and other attributes are untouched; a call panics exactly when it makes a set minimum exceed a set maximum (NewBox: for empty content); horizontal and vertical alignment are independent.", "quantifier": "all chains of builder calls with all arguments", "why_tests_cant": "unbounded chains of 21 calls with interacting effects", "anchors": ["layout/layout.go:Box", "layout/internal/domain/model/box.go", "layout/internal/domain/value/size.go", "layout/internal/domain/value/spacing.go"]}
{"id": "C148", "title": "A flex container keeps each box as it was when added", "statement": "Flex.Add takes the box's configuration at that moment: whatever the program later does with the same box variable (reconfigure, render), with other boxes or with the container's settings, the container's items are exactly the boxes added, in order, with the configuration they had when added; Gap panics exactly for negative values; RemoveItem/ClearItems remove exactly what they name.", "quantifier": "all programs over any number of boxes and containers", "why_tests_cant": "aliasing shows only in particular interleavings", "anchors": ["layout/layout.go:Flex", "layout/internal/domain/model/flexbox.go"]}
{"id": "C149", "title": "Node trees: walks, counts and edits agree", "statement": "Walk and WalkWithDepth visit every node once in pre-order, with the node's true depth; NodeCount is the number of visits, Depth the largest depth; AddChild/AddChildren/RemoveChild/ClearChildren change exactly the children they name, RemoveChild panics exactly out of range; layout changes neither count nor depth.", "quantifier": "all trees", "why_tests_cant": "unbounded trees", "anchors": ["layout/internal/domain/model/node.go"]}
{"id": "C150", "title": "A rendered box is exactly the drawn frame around its text", "statement": "Rendering a box of single-byte text draws the text at margin+border+padding from the top left, the frame with its corners around it and blanks elsewhere, on exactly as many lines as these need; TotalSize is the size drawn.", "quantifier": "all texts, paddings, margins, with and without border, all cells", "why_tests_cant": "every cell of unbounded pictures", "anchors": ["layout/internal/domain/service/render_service.go", "layout/internal/domain/model/box.go:TotalSize"]}
{"id": "C151", "title": "Exactly well-formed mouse reports are accepted", "statement": "ParseSequence accepts an SGR or URxvt report exactly when its body is three decimal integers separated by semicolons and then yields the event they stand for (coordinates one less); an X10 report exactly when three bytes follow; anything else is an error and changes no state.", "quantifier": "all byte strings, all processor states and later inputs", "why_tests_cant": "the grammar and its complement are infinite", "anchors": ["mouse/internal/application/mouse_handler.go", "mouse/internal/infrastructure/parser/sgr_parser.go"]}
{"id": "C152", "title": "Mouse Reset forgets the past", "statement": "After Reset the mouse answers every further sequence of events as a newly created one with the same configuration, no drag is in progress and nothing is hovered; unusable configuration values are replaced by the defaults, usable ones kept.", "quantifier": "all event histories before and after the reset, all configurations", "why_tests_cant": "histories are unbounded", "anchors": ["mouse/internal/application/event_processor.go:Reset", "mouse/internal/domain/service/click_detector.go", "mouse/internal/domain/model/drag_state.go"]}
{"id": "C153", "title": "Form flags record exactly what happened", "statement": "A field is touched iff Tab or Shift+Tab was pressed while it was focused, dirty iff a message was delivered to it; the form is dirty iff some field is and submitted iff Enter once produced the submit message; errors change only on Enter; Init runs every field's Init command once, in order.", "quantifier": "all histories of adding fields and sending messages, all field models", "why_tests_cant": "histories are unbounded", "anchors": ["components/form/form.go", "components/form/internal/domain/model/form.go", "components/form/internal/domain/value/field.go"]}
{"id": "C154", "title": "The form's keys", "statement": "Ctrl+C and Esc (and nothing else) quit, leaving the form as it is; only Enter submits; only Tab and Shift+Tab move the focus; every other message changes at most the focused field.", "quantifier": "all reachable forms, all messages", "why_tests_cant": "all keys in all states", "anchors": ["components/form/internal/infrastructure/keyboard.go", "components/form/form.go:handleKey"]}
{"id": "C155", "title": "A form's view shows exactly its state", "statement": "View is the title with an underline as long as the title, then for every field its label (marked iff focused), its component's view and its errors or check mark, separated by blank lines, then the foot; exactly one field is marked as focused.", "quantifier": "all forms, titles, labels, views and errors", "why_tests_cant": "output for unbounded inputs", "anchors": ["components/form/form.go:View"]}
{"id": "C156", "title": "Text validators accept exactly what they promise", "statement": "Email accepts exactly local@domain.tld over its alphabets (one @, no blanks or control bytes, two-letter tld at least); Pattern exactly what its expression matches; non-text is rejected; MinLength/MaxLength count characters.", "quantifier": "all texts and values", "why_tests_cant": "all strings", "anchors": ["components/form/internal/domain/value/validator.go"]}
{"id": "C157", "title": "Colour depth follows what the environment announces", "statement": "With colour neither forced nor forbidden, AutoDetect reports 24-bit colour iff COLORTERM or a known terminal program announces it, else 256 colours iff TERM or Apple Terminal announces them, else eight; on Windows 24-bit and mouse iff Windows Terminal or VS Code.", "quantifier": "all environments", "why_tests_cant": "all environment contents", "anchors": ["core/internal/domain/service/capabilities_detector.go", "core/core.go:AutoDetect"]}
{"id": "C158", "title": "A style keeps exactly what its setters said", "statement": "A style built by any chain of setters holds, for every aspect, what the last setter of that aspect said (sides and axes separately, negative sizes as 0, unset when never called), independently of the order of calls about different aspects; it is rejected only if a border side is on and no border was chosen.", "quantifier": "all chains of setter calls with all arguments", "why_tests_cant": "all chains", "anchors": ["style/internal/domain/model/style.go:Style", "style/internal/domain/value/padding.go:NewPadding", "style/internal/domain/value/size.go:Size"]}
{"id": "C159", "title": "Stopping the input reader always ends", "statement": "After Cancel has been called on a cancelable reader, its background read loop ends and WaitForShutdown returns after a bounded number of steps of its own, whether or not anybody types, whatever the stream is and whatever the other goroutines do.", "quantifier": "every interleaving of the relay, the read loop, clients, Cancel and WaitForShutdown, every stream and platform, with or without a pipe", "why_tests_cant": "a test can only wait for some time on one schedule; a hang depends on where each goroutine stood when Cancel was called", "anchors": ["tea/internal/infrastructure/input/cancelable_reader.go:Cancel", "tea/internal/infrastructure/input/cancelable_reader.go:WaitForShutdown", "tea/internal/infrastructure/input/cancelable_reader.go:readLoopPipe", "tea/internal/infrastructure/input/cancelable_reader.go:readLoop", "tea/internal/infrastructure/input/cancelable_reader.go:unblockRelay"]}
{"id": "C160", "title": "A stopped reader takes no more input", "statement": "After WaitForShutdown has returned, the reader takes no further byte from its stream, so an external command or the next reader receives every key typed from then on.", "quantifier": "every interleaving of the goroutines, the user's typing, Cancel and WaitForShutdown", "why_tests_cant": "the stolen key depends on a goroutine that outlives the call; tests with in-memory streams end the goroutine", "anchors": ["tea/internal/infrastructure/input/cancelable_reader.go:WaitForShutdown", "tea/internal/infrastructure/input/cancelable_reader.go:relayLoop", "tea/internal/infrastructure/input/cancelable_reader.go:unblockRelay"]}
{"id": "C161", "title": "A TextArea shows exactly its visible lines and its cursor", "statement": "View shows, row by row, the lines of the text inside the window, unchanged, with a right-aligned line number when numbers are on, and exactly one character in reverse video: the one under the cursor (a blank at the end of a line); nothing is reversed when the cursor is off or outside the window. View does not panic, has at most Height rows and fits Width; display options change nothing else.", "quantifier": "every history of public operations and every text without control characters", "why_tests_cant": "the view depends on scroll position, cursor, options and text together; the interesting cases are combinations", "anchors": ["components/input/internal/textarea/infrastructure/renderer/textarea_renderer.go:Render", "components/input/internal/textarea/infrastructure/renderer/textarea_renderer.go:renderContent", "components/input/internal/textarea/infrastructure/renderer/textarea_renderer.go:renderLineWithCursor", "components/input/textarea.go:View"]}
{"id": "C162", "title": "ContentParts cuts the current line at the cursor", "statement": "ContentParts returns the current line split at the cursor: what is before it, the one character under it and the rest; at the end of the line the middle part is a blank.", "quantifier": "every history of public operations", "why_tests_cant": "must hold for every reachable cursor position and text", "anchors": ["components/input/internal/textarea/domain/model/textarea.go:ContentParts"]}
{"id": "C163", "title": "MaxChars limits the text", "statement": "With MaxChars(n), n > 0, no sequence of keys makes a text of at most n characters longer than n.", "quantifier": "every history and key sequence", "why_tests_cant": "a limit must hold for all ways of inserting text", "anchors": ["components/input/textarea.go:MaxChars", "components/input/internal/textarea/domain/model/textarea.go:WithMaxChars"]}
{"id": "C164", "title": "Reported colour depth follows the documented rules", "statement": "ColorDepth of the ANSI terminal is 16777216 for COLORTERM=truecolor, 256 for every TERM containing 256color, and 16 otherwise.", "quantifier": "every environment", "why_tests_cant": "environments cannot be enumerated", "anchors": ["terminal/internal/infrastructure/unix/ansi.go:ColorDepth"]}
{"id": "C165", "title": "Both colour detections agree", "statement": "In every environment the ANSI terminal's ColorDepth and core.AutoDetect agree on whether 24-bit colour is available, and the terminal claims no colours when AutoDetect (e.g. because of NO_COLOR) claims none.", "quantifier": "every environment", "why_tests_cant": "two independent detections over arbitrary environments", "anchors": ["terminal/internal/infrastructure/unix/ansi.go:ColorDepth", "core/internal/domain/service/capabilities_detector.go:Detect"]}
{"id": "C166", "title": "Select's screen", "statement": "The lines of Select.View are the title and a blank line (if there is a title), one line per visible option in order - min(height, n) consecutive displayed options including the focused one, drawn with the right number and focus flag by the render function in force, the default one marking the focused option and no other - or a note that there are none, then the filter prompt with the query if filtering is on. View never panics.", "quantifier": "all titles, option lists and histories of calls and keys", "why_tests_cant": "all histories and option lists", "anchors": ["components/select/select.go:View", "components/select/internal/domain/model/defaults.go:defaultRender", "components/select/internal/domain/model/select.go:RenderVisibleOptions"]}
{"id": "C167", "title": "MultiSelect's screen", "statement": "The lines of MultiSelect.View are the title with a '(n of m selected)' counter, one line per visible option in order with the focus mark on the focused option only and a check mark on exactly the selected ones, the filter prompt if filtering is on, and the help line; n is the number of checked options.", "quantifier": "all titles, option lists and histories of calls and keys", "why_tests_cant": "all histories and option lists", "anchors": ["components/multiselect/multiselect.go:View", "components/multiselect/internal/domain/model/defaults.go:defaultRender"]}
{"id": "C168", "title": "Typing filters by case-insensitive substring", "statement": "Typing a text into a filterable Select or MultiSelect with the default filter displays exactly the options whose label contains the text up to case, in the original order, keeps the selection, and typing more only removes options.", "quantifier": "all option lists, texts and case mappings", "why_tests_cant": "all texts and labels", "anchors": ["components/select/internal/domain/model/defaults.go:defaultFilter", "components/multiselect/internal/domain/model/defaults.go:defaultFilter", "components/multiselect/multiselect.go:handleFilterInput"]}
{"id": "C169", "title": "List's screen", "statement": "The lines of List.View are min(height, n) consecutive displayed items including the focused one, each drawn with its right number, selected and focused flags, or a note that there are none, and a note if a filter is active; with the default renderer the screen shows which items are selected and which is focused.", "quantifier": "all item lists and histories", "why_tests_cant": "all histories", "anchors": ["components/list/list.go:View", "components/list/internal/domain/model/list.go:defaultItemRenderer"]}
{"id": "C170", "title": "Inline rendering leaves the rest of the terminal alone", "statement": "On a terminal of any size, with the cursor at the start of any row and any text above it, every history of Render, Repaint, Resize and failed Render calls outside the two defects of C16, with lines of text, SGR and OSC that are narrower than the terminal and close their styles, leaves: the rows from the start row on showing exactly the lines of the last frame as each looks on its own (styles, wide and combining characters), all rows above unchanged apart from scrolling, all rows below empty, the whole frame on the screen and the cursor at the start of its last row; nothing scrolls while every frame fits below the start row.", "quantifier": "all terminal sizes, width tables and pen semantics, all start rows and contents above, all histories", "why_tests_cant": "delta rendering against a scrolling terminal with wide characters, pending wrap and styles; unbounded histories", "anchors": ["tea/internal/infrastructure/renderer/inline.go:InlineRenderer.Render"]}
{"id": "C171", "title": "A line as wide as the terminal is shown completely", "statement": "A line that is as wide as the terminal, or wider and therefore truncated, fills all columns of its row.", "quantifier": "all lines and terminal sizes", "why_tests_cant": "needs the pending-wrap state of the terminal; string comparison of the output cannot see it", "anchors": ["tea/internal/infrastructure/renderer/inline.go:truncateLine", "tea/internal/infrastructure/renderer/inline.go:InlineRenderer.Render"]}
{"id": "C172", "title": "Styles do not leak between lines", "statement": "If every line of a view closes the styles it opens, a line without styling is drawn in the default style, whatever the widths of the other lines.", "quantifier": "all views whose lines close their styles, all terminals", "why_tests_cant": "depends on where truncation cuts each line relative to its escape sequences", "anchors": ["tea/internal/infrastructure/renderer/inline.go:truncateLine"]}
{"id": "C173", "title": "A built clipboard asks the configured providers in order", "statement": "Whatever calls are made on a Builder, the built clipboard asks the custom providers first in the order they were added, then OSC 52 if the last WithOSC52 enabled it (default on, with the last timeout), then the native clipboard if the last WithNative enabled it; Build fails exactly when nothing is enabled.", "quantifier": "all sequences of builder calls, all custom providers and all environments", "why_tests_cant": "sequences of calls of any length and arbitrary providers", "anchors": ["clipboard/clipboard.go:Builder", "clipboard/internal/application/clipboard_manager.go:NewClipboardManagerWithProviders"]}
{"id": "C174", "title": "The automatic provider is the documented one, and its name tells where the text goes", "statement": "New() uses OSC 52 in an SSH session with a terminal, else wl-clipboard, xclip or xsel (first installed), else OSC 52 on a known terminal, else nothing; GetProviderName, IsAvailable and IsSSH say so, and a Write changes nothing but the place that name stands for.", "quantifier": "all environments, installed tools, displays, texts", "why_tests_cant": "every combination of environment variables, tools and outputs", "anchors": ["clipboard/internal/application/clipboard_manager.go:buildProviderChain", "clipboard/internal/infrastructure/native/clipboard_linux.go:NewProvider", "clipboard/internal/infrastructure/platform/detector.go:IsSSH"]}
{"id": "C175", "title": "The clipboard falls back to the next provider", "statement": "If the preferred provider cannot take the text but another available provider of the chain can, Write uses it (documented as automatic fallback).", "quantifier": "all environments and texts", "why_tests_cant": "every combination of failing tools", "anchors": ["clipboard/internal/domain/service/clipboard_service.go:Write", "clipboard/internal/infrastructure/native/clipboard_linux.go:NewProvider"]}
{"id": "C176", "title": "Write reports success exactly when the text was delivered", "statement": "A Write that returns nil has delivered the text, and one that returns an error has changed nothing.", "quantifier": "all environments, outcomes of the system calls and texts", "why_tests_cant": "every combination of failing system calls", "anchors": ["clipboard/internal/infrastructure/osc52/osc52_provider.go:Write", "clipboard/internal/infrastructure/native/clipboard_linux.go:Write"]}
{"id": "C177", "title": "The package functions act on one clipboard", "statement": "clipboard.Read, Write, IsAvailable and GetProviderName behave like the methods of one Clipboard created by New() when the program started.", "quantifier": "all sequences of calls and all behaviours of the outside world", "why_tests_cant": "sequences of any length", "anchors": ["clipboard/clipboard.go:Read", "clipboard/clipboard.go:Write", "clipboard/clipboard.go:init"]}
{"id": "C178", "title": "After Clear, rendering is right wherever the cursor was", "statement": "A program that starts a renderer on a terminal whose cursor is anywhere and whose screen shows anything, calls Clear and then renders, sees the rendered picture: every screen position shows the character of the last rendered buffer.", "quantifier": "all terminal sizes, initial screens, cursor positions and histories of calls after Clear", "why_tests_cant": "The tests write to a bytes.Buffer and never execute the output on a terminal with a cursor away from the top left corner.", "anchors": ["render/internal/application/renderer.go:Clear", "render/internal/infrastructure/ansi/writer.go:MoveCursor", "render/internal/infrastructure/ansi/writer.go:NewWriter"]}
{"id": "C179", "title": "The bytes the renderer writes show the picture", "statement": "If every renderer call so far returned nil, a terminal that interprets exactly the bytes the output device accepted (UTF-8 text and ECMA-48 control sequences) shows at every position the character of the last rendered buffer, with its style if all cells use the same set of attributes, and is not left in the middle of a sequence; this holds for every output buffer size and every kind of device.", "quantifier": "all terminal sizes, buffer sizes, devices (any pattern of write outcomes) and histories of Render/Clear/Resize/HideCursor/ShowCursor calls with buffers that fit and contain printing single-column characters", "why_tests_cant": "Tests compare the output of a few frames with literal strings; they do not interpret the byte stream on a terminal, nor vary the buffer size.", "anchors": ["render/internal/infrastructure/ansi/codes.go:MoveCursor", "render/internal/domain/value/style.go:ToANSI", "render/internal/infrastructure/ansi/writer.go:WriteCell", "render/internal/application/renderer.go:Render"]}
{"id": "C180", "title": "A cell can only print its character", "statement": "Whatever characters a buffer holds, writing it to the terminal prints them; control characters in a cell cannot move the cursor, reset the terminal or disturb other cells: every position whose cell holds a printing character shows it.", "quantifier": "all histories of buffers whose cells have the width the terminal gives their character", "why_tests_cant": "Needs every control character in every cell position and the following frames, executed on a terminal.", "anchors": ["render/internal/infrastructure/ansi/writer.go:WriteCell", "render/internal/domain/model/cell.go:NewCell", "render/internal/domain/model/buffer.go:SetString"]}
{"id": "C181", "title": "Rendered output is delivered, completely and in order", "statement": "On a device that reports no write error every renderer call returns nil and on return the device has received everything, independent of the output buffer size; on any device, if every call returned nil everything was received, and in all cases what was received is a prefix of the failure-free output; Close returns nil only if the show-cursor sequence was delivered as well.", "quantifier": "all buffer sizes, all sequences of write outcomes (full, short, failing) and all histories of calls", "why_tests_cant": "Write failures at every byte position and every buffer size cannot be enumerated by tests.", "anchors": ["render/internal/infrastructure/ansi/writer.go:Flush", "render/internal/infrastructure/ansi/writer.go:NewWriterWithBuffer", "render/internal/application/renderer.go:renderFullScreen", "render/internal/application/renderer.go:Close"]}
{"id": "C182", "title": "A renderer recovers from a failed write", "statement": "After a write error, a Render that returns nil has its buffer on the screen, and once the device works again rendering gets through.", "quantifier": "all histories of calls and write outcomes", "why_tests_cant": "Needs a failure at an arbitrary write followed by arbitrary calls.", "anchors": ["render/internal/application/renderer.go:Resize", "render/internal/application/renderer.go:Render", "render/internal/infrastructure/ansi/writer.go:Flush"]}
{"id": "C183", "title": "Buffer() returns a blank buffer of the renderer's size", "statement": "After any history of Buffer, Release, edits, Render and Resize calls, Buffer() returns a buffer whose cells are all blank and whose size is the renderer's current Width() x Height().", "quantifier": "all histories, all choices of the pool (reuse of any released buffer, a new one, garbage collection of idle ones)", "why_tests_cant": "sync.Pool decides per processor and garbage collection what Get returns.", "anchors": ["render/renderer.go:Buffer", "render/renderer.go:Release", "render/internal/application/renderer.go:GetBuffer", "render/internal/application/renderer.go:PutBuffer", "render/internal/application/renderer.go:Resize"]}
{"id": "C184", "title": "A buffer belongs to the one who got it", "statement": "Buffer() never returns a buffer that somebody still holds, whatever callers do with Release, and handing a buffer out does not change any buffer in use.", "quantifier": "all histories and all choices of the pool", "why_tests_cant": "Sharing depends on pool scheduling.", "anchors": ["render/renderer.go:Release", "render/internal/application/renderer.go:PutBuffer", "render/internal/application/renderer.go:GetBuffer"]}
{"id": "C185", "title": "An inline program shows the view of its current model", "statement": "In every execution of an inline program, at every moment, the terminal shows exactly the view of the current model - Update folded over the messages delivered so far, in the order they were accepted - from the row on where the program was started, with everything above as it was and nothing below; for applications whose view has a constant number of lines that fit in the window, without further conditions, and in general outside the two defects of C16.", "quantifier": "all applications, all executions of event loop, commands, Send and Quit, all terminals and start positions", "why_tests_cant": "The screen is the result of the whole history of messages, window sizes and diffs against earlier frames.", "anchors": ["tea/internal/application/program/program.go:Run", "tea/internal/application/program/program.go:renderView", "tea/internal/infrastructure/renderer/inline.go:Render"]}
{"id": "C186", "title": "An alternate-screen program shows the view of its current model", "statement": "A program created with the alternate-screen option shows, at every moment, the lines of the view of its current model from the top left of the screen on, and nothing of earlier views.", "quantifier": "all applications and executions", "why_tests_cant": "It depends on everything drawn before.", "anchors": ["tea/internal/application/program/program.go:renderView"]}
{"id": "C187", "title": "The last view of an inline program survives the program", "statement": "After an inline program has ended, what is printed next (such as the shell prompt) starts on a row of its own and leaves the program's last view as it was.", "quantifier": "all applications, executions and terminals", "why_tests_cant": "Needs the state of the terminal after arbitrary histories.", "anchors": ["tea/internal/application/program/program.go:Run", "tea/internal/infrastructure/renderer/inline.go:Render"]}
{"id": "C188", "title": "Every key typed reaches Update, in order", "statement": "While a program runs, the keys typed at the terminal reach Update once each and in order, interleaved with other messages but never lost.", "quantifier": "all applications, key sequences, byte chunkings, schedules and interleavings with other messages and calls", "why_tests_cant": "Needs all interleavings of the input goroutine, the event loop, commands and callers.", "anchors": ["tea/internal/application/program/program.go:startInputReader", "tea/internal/infrastructure/input/reader.go:Read"]}
{"id": "C189", "title": "What you type is what you see", "statement": "In a program driven only by the keyboard, the terminal at every moment shows exactly the View of the model after some of the first keys typed, and when the program is idle after all of them.", "quantifier": "all applications with views of a fixed number of lines, key sequences, chunkings, schedules, window sizes", "why_tests_cant": "Composes the decoder, the goroutines, the renderer and the terminal over all executions.", "anchors": ["tea/internal/application/program/program.go:renderView", "tea/internal/infrastructure/renderer/inline.go:Render", "tea/internal/infrastructure/input/reader.go:Read"]}
{"id": "C190", "title": "A text input in a running program holds the text typed", "statement": "Typing any text at the terminal of a program around a focused text input: the content is at every moment a beginning of that text with the cursor at its end, and the whole text when the program is idle.", "quantifier": "all texts of printable characters, UTF-8 chunkings, grapheme segmentations, schedules", "why_tests_cant": "Unbounded texts and all schedules.", "anchors": ["components/input/input.go:Update", "tea/internal/application/program/program.go:startInputReader"]}
{"id": "C191", "title": "A text area in a running program is the ideal editor", "statement": "Typing editing keys at the terminal of a program around a text area: Value and cursor are at every moment those of an ideal flat-text editor after some of the first keys, and after all keys when the program is idle.", "quantifier": "all initial texts and cursors, plain editing key sequences, chunkings, schedules", "why_tests_cant": "Unbounded histories and all schedules.", "anchors": ["components/input/textarea.go:Update", "tea/internal/application/program/program.go:startInputReader"]}
{"id": "C192", "title": "After Resume the screen shows the current view", "statement": "Whatever an external command has left on the screen and wherever it left the cursor, after Resume (ExecProcess) the terminal of an inline program shows exactly the view of the current model, and so it does at every later moment outside a suspension.", "quantifier": "all programs, schedules, moments of Suspend and Resume, any number of suspensions, all terminals as well-behaved commands leave them", "why_tests_cant": "Every schedule, every state of the screen left by another program.", "anchors": ["tea/internal/application/program/program.go:Suspend", "tea/internal/application/program/program.go:Resume", "tea/internal/application/program/program.go:ExecProcess", "tea/internal/infrastructure/renderer/inline.go:Repaint"]}
{"id": "C193", "title": "The output of an external command stays on the screen", "statement": "Resume changes no row above the one the external command left the cursor in: its output can still be read above the view.", "quantifier": "all programs, schedules, screens left by commands", "why_tests_cant": "Every screen content and every frame height.", "anchors": ["tea/internal/application/program/program.go:Resume", "tea/internal/infrastructure/renderer/inline.go:Repaint"]}
{"id": "C194", "title": "A suspended program leaves the terminal alone", "statement": "Between Suspend and Resume nothing the program does changes the terminal, which belongs to the external command.", "quantifier": "all programs and schedules", "why_tests_cant": "Every interleaving of messages with the suspension.", "anchors": ["tea/internal/application/program/program.go:Suspend", "tea/internal/application/program/program.go:renderView"]}
{"id": "C195", "title": "After Run has ended the program takes no more input", "statement": "Once Run has returned, no byte typed at the terminal is taken by the program any more.", "quantifier": "all programs, inputs, schedules after the end of Run", "why_tests_cant": "Every schedule of the input goroutine, which outlives Run.", "anchors": ["tea/internal/application/program/program.go:Run", "tea/internal/application/program/program.go:startInputReader"]}
{"id": "C196", "title": "Terminal reports never type text", "statement": "A control sequence ESC [ parameters final that is not a key (mouse report, focus report, cursor position, modified key), received in one piece, changes nothing in the messages the program gets.", "quantifier": "all parameter bytes of any length, final bytes, following input", "why_tests_cant": "Unbounded sequences; every following input.", "anchors": ["tea/internal/infrastructure/input/reader.go:Read", "tea/internal/infrastructure/ansi/parser.go:ParseKey"]}
{"id": "C197", "title": "Custom key bindings of a text input: first handler that acts decides, otherwise the default", "statement": "With CustomKeyBindings(h1, ..., hn) a key press on a focused input is offered to the handlers in order; the first one that acts on it decides the result and the later ones and the default binding are not applied; if none acts the key does what it does without custom bindings; an unfocused input ignores keys; the cursor and selection stay inside the text.", "quantifier": "every list of handlers (pure functions), every input, every key, every history of calls", "why_tests_cant": "handlers are arbitrary functions and the histories unbounded; tests try a few handlers on a few keys", "anchors": ["components/input/internal/input/infrastructure/keybindings.go:CustomKeyBindings.Handle", "components/input/internal/input/infrastructure/keybindings.go:AddHandler", "components/input/input.go:CustomKeyBindings", "components/input/input.go:Update"]}
{"id": "C198", "title": "What is typed into a text input is what the terminal shows", "statement": "In a program around a text input, at every moment the terminal row where the program started shows, cell by cell, a window of the text that results from some number of the first keys typed, with the cursor colours on exactly the character at the cursor; the window is the whole text if it fits the width; rows above stay as they were, rows below are empty; when all input is read and the program is idle all keys are taken into account.", "quantifier": "every sequence of keys (printable ASCII and all other keys but F1-F4), every division of the bytes into reads, every schedule of reader, queue and event loop, every terminal width", "why_tests_cant": "Composition of keyboard decoder, input goroutine, event loop, component, style, renderer and terminal under every schedule; tests see one component at a time on a few inputs.", "anchors": ["tea/internal/application/program/program.go:eventLoop", "tea/internal/infrastructure/renderer/inline.go:Render", "components/input/input.go:View", "tea/internal/infrastructure/input/reader.go:Read"]}
{"id": "C199", "title": "What a text area holds is what the terminal shows", "statement": "In a program around a text area that fits the terminal, at every moment the rows from the start row on show, cell by cell, the lines in the text area's window after some number of the first keys typed, line numbers included, reverse video on exactly the character at the cursor; rows above are as they were, rows below are empty; when all input is read and the program is idle all keys are taken into account.", "quantifier": "every configuration and initial text, every sequence of keys, every division of the bytes into reads, every schedule", "why_tests_cant": "Composition of decoder, goroutine, event loop, component, renderer and terminal under every schedule.", "anchors": ["components/input/textarea.go:View", "tea/internal/application/program/program.go:eventLoop", "tea/internal/infrastructure/renderer/inline.go:Render"]}
{"id": "C200", "title": "A confirmation dialog answers a running program once, with what was typed", "statement": "In a program that shows a Confirm dialog, stores the ConfirmResultMsg and quits: the program never gets more than one answer and never another one than the keys typed give; if it has ended without a Quit call it has got it; when the input is read, nothing more can happen and the keys decide the dialog, it has ended with that answer.", "quantifier": "every configuration of the dialog, every sequence of input bytes and division into reads, every schedule of input goroutine, queue, event loop and command goroutines, every queue capacity >= 1", "why_tests_cant": "The answer travels key -> queue -> Update -> command goroutine -> queue -> Update -> Quit command; a test runs one schedule.", "anchors": ["components/confirm/confirm.go:Update", "components/confirm/confirm.go:ConfirmResultCmd", "tea/internal/application/program/program.go:eventLoop", "tea/internal/application/program/program.go:executeCommand"]}
{"id": "C201", "title": "A selection list answers a running program with the option that was chosen", "statement": "In a program that shows a Select (MultiSelect) list, stores the ConfirmSelectionMsg and quits: every answer is the value of the option under the cursor (the selected values) at some Enter, computed from the keys typed before it; the first answer is that of the first Enter; a program that ended by itself has an answer or got Ctrl+C; with Enter or Ctrl+C typed it ends.", "quantifier": "every history of configuration calls, every sequence of input bytes and division into reads, every schedule", "why_tests_cant": "Two commands run concurrently; which message arrives first depends on the schedule.", "anchors": ["components/select/select.go:handleKey", "components/multiselect/multiselect.go:handleKey", "tea/internal/application/program/program.go:executeCommand"]}
{"id": "C202", "title": "The terminal shows the selection list as it is after the keys typed so far", "statement": "In a program around a Select or MultiSelect list with the default rendering (any history of public calls before the start) running inline in a terminal the list fits, at every moment the rows from the start row on show exactly title (with the selection counter for MultiSelect), the visible options of the list after the first k keys with the mark in front of the one under the cursor only (and [x] in front of exactly the selected ones), the filter prompt with the query typed so far if the filter is on, and the help line for MultiSelect; no rest of an earlier longer list remains; rows above are untouched; once everything is read and handled k is all keys. (Select: filter on, or a filter function that accepts everything for the empty query.)", "quantifier": "every list history, every byte sequence in every division into reads, every schedule of reader, loop and commands, every terminal", "why_tests_cant": "Needs every key sequence, list and schedule; the rows pass through decoder, queue, component, view and renderer", "anchors": ["components/select/select.go:View,handleKey", "components/multiselect/multiselect.go:View,handleKey", "tea/program.go:eventLoop,renderView", "tea/internal/infrastructure/renderer/inline.go:Render"]}
{"id": "C203", "title": "The confirmation dialog shows its texts and its focus, also in a running program", "statement": "View of a confirmation dialog returns the title, the last description if not empty, a blank line and the buttons in their order two blanks apart, square brackets around exactly the focused one, round ones around the others, after any history of calls and keys; in a program around it running inline the terminal shows at every moment exactly these lines for the dialog after the first k keys, k being all keys once everything is read and handled", "quantifier": "every history of calls and keys, every byte sequence and schedule, every terminal the dialog fits", "why_tests_cant": "Needs all histories, key sequences and schedules", "anchors": ["components/confirm/confirm.go:View,renderButtons,renderButton,Description", "components/confirm/internal/domain/model/confirm.go", "tea/internal/infrastructure/renderer/inline.go:Render"]}
{"id": "C204", "title": "The terminal shows the list as it is after the keys typed so far", "statement": "In a program around a List component (any renderer whose lines fit, any history of public calls before the start; filter input hidden, no key bound to clearing the filter, at least one item) running inline in a terminal the list fits, at every moment the rows from the start row on show exactly the items start, start+1, ... of the list after the first k keys, each drawn once by the last given renderer with its index, its selected flag and its focused flag; the focused item is always among the shown ones; once everything is read and handled k is all keys", "quantifier": "every item list, history of calls, renderer, terminal, split of the input into reads and schedule of the goroutines", "why_tests_cant": "depends on every interleaving of reader, loop and renderer and on the whole key history", "anchors": ["components/list/list.go:List.Update", "components/list/list.go:List.View", "tea/internal/infrastructure/renderer/inline.go:Render", "tea/internal/application/program/program.go:eventLoop"]}
{"id": "C205", "title": "The terminal shows the viewport's window as it is after the keys typed so far", "statement": "In a program around a Viewport (any content of narrow characters, any history of public calls before the start, no wrapping) running inline in a terminal the viewport fits, at every moment the rows from the start row on show exactly the content lines off, off+1, ... cut to the width, off being the scroll offset after the first k keys, as many lines as the height or the content allows; once everything is read and handled k is all keys", "quantifier": "every content, history of calls, terminal, split of the input into reads and schedule of the goroutines", "why_tests_cant": "depends on every interleaving of reader, loop and renderer and on the whole key history", "anchors": ["components/viewport/viewport.go:handleKeyMsg", "components/viewport/viewport.go:View", "tea/internal/infrastructure/renderer/inline.go:Render", "tea/internal/application/program/program.go:eventLoop"]}
{"id": "C206", "title": "A dimmed modal leaves exactly its own rectangle of the background free", "statement": "With dimming on, View of a visible modal starts with a background of the terminal's size, '░' everywhere except blanks exactly where the box is placed, followed by exactly what View returns with dimming off; in a running program, with the renderer and the modal told the same terminal size, the rows printed begin with this background, so the blank rectangle and the box coincide on the screen", "quantifier": "every modal (size, position, content, buttons) and every terminal size", "why_tests_cant": "a test looks at one size and one position; that the hole and the box coincide has to hold for all of them and through the renderer", "anchors": ["components/modal/modal.go:View", "components/modal/modal.go:renderDimmedBackground", "tea/internal/infrastructure/renderer/inline.go:Render"]}
{"id": "C207", "title": "Colours and decorations land where the style put them", "statement": "A styled text is written with exactly the foreground, background and decorations of the style (as far as the terminal's colours allow), its border characters with the border colour, and nothing outside is affected.", "quantifier": "all styles, texts without escape characters, and colour capabilities", "why_tests_cant": "All combinations of colours, decorations, borders, sizes and texts; the interplay of resets is invisible in tests that compare escape strings piecewise.", "anchors": ["style/internal/application/command/render.go", "style/internal/application/command/border_renderer.go", "style/internal/infrastructure/ansi/code_generator.go"]}
{"id": "C208", "title": "Styled text survives the clipboard", "statement": "After a successful WriteStyledText(text, styles), and until something else writes to the clipboard, ReadStyledText returns the same text with the same styles, ReadHTMLAsPlainText and Read return the text.", "quantifier": "every non-empty text, every style the constructors let through, every provider chain whose first available provider gives back what it accepted, every sequence of history calls in between", "why_tests_cant": "The round trip goes through encoder, provider chain and decoder; no test list covers all texts, styles and chains.", "anchors": ["clipboard/internal/application/clipboard_manager.go:WriteStyledText", "clipboard/internal/application/clipboard_manager.go:ReadStyledText", "clipboard/clipboard.go:ReadHTMLAsPlainText"]}
{"id": "C209", "title": "An image written to the clipboard can be read back", "statement": "When a provider is available, WriteImage(data, type) succeeds and ReadImage then returns the same bytes and type; ReadImagePNG and ReadImageJPEG return them in the wanted format.", "quantifier": "every clipboard state, provider chain, image data and type", "why_tests_cant": "Tests would need every provider and every state; the claim is about all of them.", "anchors": ["clipboard/clipboard.go:ReadImage", "clipboard/clipboard.go:WriteImage", "clipboard/clipboard.go:ReadImagePNG", "clipboard/internal/application/clipboard_manager.go:WriteImage"]}
{"id": "C210", "title": "The screen read back is the screen written", "statement": "On the Windows console, after a successful WriteAt(x, y, s) of text that stays on the line, ReadScreenBuffer returns the previous screen with exactly the cells of s replaced; so a difference computed against it (the documented use) repaints correctly.", "quantifier": "every buffer size the console can have, every screen content, position and text, in the primary and in the alternate screen", "why_tests_cant": "Tests on one screen cannot cover all contents and sizes, and do not run on a real console.", "anchors": ["terminal/internal/infrastructure/windows/console.go:ReadScreenBuffer", "terminal/internal/infrastructure/windows/console.go:WriteAt", "terminal/internal/infrastructure/windows/syscalls_windows.go:ReadConsoleOutput"]}
{"id": "C211", "title": "The cancelable reader delivers everything and invents no error", "statement": "Until Cancel is called, the bytes received through a cancelable reader followed by those on their way are exactly the bytes that arrived, in order; and Read reports an error only after the stream has ended or Cancel was called.", "quantifier": "every interleaving of the relay goroutine, the read loop, clients, Cancel and WaitForShutdown, with and without a pipe, every input and every moment the stream may end", "why_tests_cant": "The data passes through two goroutines, a pipe and a channel; only finitely many schedules can be tried.", "anchors": ["tea/internal/infrastructure/input/cancelable_reader.go:NewCancelableReader", "tea/internal/infrastructure/input/cancelable_reader.go:Read", "tea/internal/infrastructure/input/cancelable_reader.go:Cancel"]}
{"id": "C212", "title": "Table in a running program shows the selected row", "statement": "A program around a Table of printable ASCII texts, running inline in a terminal in which its lines fit, shows after the keys typed the header and rule (if the header is on), then as many consecutive displayed rows as fit, the selected one among them and alone marked, each cell the formatted text of its value; nothing else; and whatever way the keys' bytes are cut and the goroutines interleave.", "quantifier": "every column and row set of printable ASCII texts, every history of configuration and sorting before the program starts, every key binding, every byte sequence of keys in every cut, every schedule of the program's goroutines", "why_tests_cant": "The bytes on the terminal depend on input cuts, goroutine schedules and the renderer's line diff; tests compare single View strings.", "anchors": ["components/table/table.go:View", "components/table/table.go:Update", "components/table/internal/domain/model/table.go:VisibleRows", "tea/internal/infrastructure/renderer/inline.go:Render"]}
{"id": "C213", "title": "A spinner turns at its own rate in every Run", "statement": "A program that passes TickMsg to a spinner, whose other commands and senders produce no ticks, has exactly one tick of that spinner under way at every moment of every Run (so the animation neither stops nor speeds up), and the frame on the screen is always number k, counted cyclically, where k is the number of ticks handled.", "quantifier": "every application around a spinner, every number of Runs of one Program, every schedule of event loop, command goroutines and callers of Send and Quit, every queue capacity", "why_tests_cant": "How many ticks circulate depends on the schedule and on the history of earlier Runs; a test sees one schedule.", "anchors": ["components/progress/spinner.go:Init", "components/progress/spinner.go:Update", "components/progress/spinner.go:tick", "tea/tea.go:Tick", "tea/internal/application/program/program.go:executeCommand"]}
{"id": "C214", "title": "When SubmitMsg arrives, the form's data is valid", "statement": "A program around a form whose Update is called with SubmitMsg finds valid data in the form: every validator of every field accepts the field's current value; and SubmitMsg comes at most once per Enter, and the program ends.", "quantifier": "every form (distinct names, fields with a value), all field models and validators, every byte sequence of keys in every cut, every schedule of event loop, input and command goroutines", "why_tests_cant": "SubmitMsg travels through a goroutine and the queue; whether other keys overtake it depends on the schedule, which a test does not control.", "anchors": ["components/form/form.go:handleKey", "components/form/form.go:SubmitCmd", "components/form/form.go:Value", "tea/internal/application/program/program.go:executeCommand"]}
{"id": "C215", "title": "Mouse Enable, Disable and IsEnabled tell the truth", "statement": "A call of Enable or Disable that reports success has put the terminal into the state it names (button-motion tracking in the extended format, or no mode); it reports an error only if one of its writes failed; and IsEnabled says whether the terminal reports the mouse.", "quantifier": "every history of Enable and Disable calls, every failure of any of their writes that delivers nothing", "why_tests_cant": "Write failures at every position of an unbounded history; the state of the terminal is not visible to a test.", "anchors": ["mouse/mouse.go:Enable", "mouse/mouse.go:Disable", "mouse/mouse.go:IsEnabled", "mouse/internal/infrastructure/platform/terminal_mode.go:EnableAll", "mouse/internal/infrastructure/platform/terminal_mode.go:DisableAll"]}
{"id": "C216", "title": "The terminal shows the form as it is after the keys typed so far", "statement": "In a program around a form (any fields, validators and values) running inline in a terminal the form fits, at every moment the rows from the start row on show exactly the form's lines - title and underline, each field's label with the focus mark on the focused one, its value, its errors or its check mark, blank lines between fields, rule and help line - for the form after the first k keys, nothing of earlier, longer pictures remaining below; once everything is read and handled k is all keys", "quantifier": "every form with an ASCII title whose values are not the help text, every byte sequence, split of the input into reads and schedule of the goroutines, every terminal", "why_tests_cant": "The form gets shorter when an error disappears, so what stands on the terminal depends on the whole history of frames; needs all schedules", "anchors": ["components/form/form.go:View,renderField,Update", "tea/internal/infrastructure/renderer/inline.go:Render", "tea/internal/application/program/program.go:eventLoop"]}
{"id": "C217", "title": "A modal in a running program: the button whose action arrives", "statement": "In a program around a visible modal with the default keys, every ButtonPressedMsg the application gets carries the action of the button that a typed key pressed, before Esc closed the modal: with Enter the button standing, counted cyclically, as many places from the initially focused one as Tab and the right arrow were typed more often than Shift+Tab and the left arrow; with any other key the first button with that shortcut. A program that quits on ButtonPressedMsg ends if and only if such a key was typed; the first action to arrive is that of the first such key", "quantifier": "every modal reachable by public calls, every byte sequence, split of the input into reads and schedule of reader, loop and commands", "why_tests_cant": "Focus, closing and the delivery of the command's message depend on the whole key history and on the schedule of the command goroutines", "anchors": ["components/modal/modal.go:Update,handleKeyPress", "components/modal/internal/infrastructure/keybindings.go", "tea/internal/application/program/program.go:eventLoop,executeCmd"]}
{"id": "C218", "title": "An open modal lies over the screen, a hidden one is gone", "statement": "A visible modal's View, rendered by the inline renderer on a terminal that obeys cursor positioning, puts every line of the box at the row and column it names, whatever the screen showed before, and touches nothing outside the box; when the modal is hidden (its View is then empty) and the next frame is rendered, nothing of the box remains on the screen", "quantifier": "every terminal size and width function, every screen content and cursor position before, every visible modal without dimmed background whose lines fit (visible one-column characters, within the columns, above the last row), every renderer size large enough for them", "why_tests_cant": "what the bytes look like depends on the interplay of absolute positions, erase sequences and the relative movements of the next frame, for every geometry and every earlier screen; a test sees strings, not a terminal", "anchors": ["components/modal/modal.go:283-388 Modal.View, renderModalBox", "tea/internal/infrastructure/renderer/inline.go:77-151 InlineRenderer.Render"]}
{"id": "C219", "title": "The box on the screen follows the focus", "statement": "While a visible modal is open and the program draws its View after every key, none of which closes it, the screen shows after each frame every line of the modal as it is then, in its place, the focus mark on the focused button; the window does not scroll", "quantifier": "every modal without dimmed background whose lines lie one below the other inside the last column and fit the screen, every finite sequence of keys none of which is bound to close, every terminal size, screen content and cursor position before the first frame", "why_tests_cant": "the renderer skips unchanged lines by relative movements and rewrites changed ones by absolute positions; that the two never drift apart holds over every sequence of frames, not for the few a test renders", "anchors": ["components/modal/modal.go:201-224 Modal.Update", "components/modal/modal.go:283-414 Modal.View, renderModalBox, renderButtons", "tea/internal/infrastructure/renderer/inline.go:77-151 InlineRenderer.Render"]}
