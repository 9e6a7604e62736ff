{
 "C02": {
  "status": "proved",
  "note": "Refinement proved for every history of plain keys (raw newline runes excluded by the statement's 'non-newline rune'); the extra claim Lines()=split(Value()) fails for raw newline runes (C02_raw_newline_refuted)."
 },
 "C03": {
  "status": "partial",
  "note": "KillLine/KillWord reset the cursor to (0,0), so cursor and immediate-yank claims are false of the code (refuted). Proved: exactly what is removed and pushed; yank after returning restores; KillWordBackward fully correct."
 },
 "C06": {
  "status": "proved",
  "note": "Delete never moves the cursor. Kills/typing/yank do not consult the validator (C06_all_commands_refuted shows the stronger claim fails)."
 },
 "C07": {
  "status": "partial",
  "note": "False for KillLine/KillWord (cursor jumps to (0,0) without rescrolling), refuted; proved for all other commands."
 },
 "C08": {
  "status": "partial",
  "note": "Yank ignores MaxLines (refuted); proved for all other commands."
 },
 "C13": {
  "status": "proved",
  "note": "Single-column cells (as the statement says); terminal emulator in Render/Spec.lean is the trusted reading of the escape codes."
 },
 "C14": {
  "status": "partial",
  "note": "False of the code: no SGR reset between styles (C14_style_exact_refuted). Proved when all cells use the same attribute set."
 },
 "C75": {
  "status": "partial",
  "note": "False of the code (C75_wide_glyph_refuted): the blank continuation cell is written over the glyph."
 },
 "C57": {
  "status": "partial",
  "note": "Window and cut proved; wrapping is lossless and within the width when no single cluster is wider than the viewport; 'at most height lines' is false in wrap mode (C57_wrap_height_refuted)."
 },
 "C58": {
  "status": "proved",
  "note": "As stated (content set/appended). A stronger claim for resizes is false of the code (C58_resize_refuted)."
 },
 "C51": {
  "status": "partial",
  "note": "False in general: Filter() while a query is active keeps a stale focus index (C51_filter_refuted); a negative height breaks paging (C51_negative_height_refuted). Proved for all other histories, including visibility of the focused row."
 },
 "C53": {
  "status": "partial",
  "note": "Fails after the stale focus of C51 (C53_selection_refuted); proved for all other histories; toggle laws proved in general."
 },
 "C54": {
  "status": "partial",
  "note": "max bound, confirm condition, values in option order and exact toggling proved for all histories; the count/values agreement is refuted for Selected() with positions that do not exist and proved for in-range histories"
 },
 "C55": {
  "status": "partial",
  "note": "selection preserved by filter editing, cursor validity, window containing the focused option proved for all histories; 'displayed = accepted by the filter' refuted for a late WithFilterFunc and proved otherwise"
 },
 "C59": {
  "status": "partial",
  "note": "cursor, window, Enter, filtering proved for all histories; WithDefault refuted; displayed options partial as in C55"
 },
 "C78": {
  "status": "partial",
  "note": "refuted (shortcut letters are not typed; Backspace drops one byte); proved for ASCII without shortcut letters"
 },
 "C79": {
  "status": "partial",
  "note": "refuted for both components"
 },
 "C60": {
  "status": "partial",
  "note": "permutation proved for all histories and values; ordering, stability and uniqueness of the stable sort proved for columns of one kind (nil allowed, no NaN); mixed columns have no order (C61)"
 },
 "C61": {
  "status": "partial",
  "note": "refuted for mixed types and NaN; proved for columns of one kind"
 },
 "C62": {
  "status": "partial",
  "note": "refuted when Height/ShowHeader shrinks the window (and View panics when no row fits); proved for all other histories; paging exact"
 },
 "C63": {
  "status": "partial",
  "note": "byte width exact for all; column width refuted for non-ASCII cells, sorted headers; all lines aligned proved for ASCII tables"
 },
 "C80": {
  "status": "partial",
  "note": "refuted with header (one line too many); bound proved otherwise"
 },
 "C81": {
  "status": "partial",
  "note": "refuted: the marker overwrites the first byte; nothing else changes"
 },
 "C64": {
  "status": "proved",
  "note": "Cursor and non-empty selection stay in range for every history of the whole domain API and key presses, any left-to-right grapheme segmenter; ContentParts splits exactly there. (An empty selection may be left stale; it is not observable through HasSelection.)"
 },
 "C65": {
  "status": "partial",
  "note": "Text effects of insert, Backspace, Delete, selection deletion, movement, typing are exact for all texts and segmenters. Refuted: cursor after inserting a combining mark mid-text (C65_cursor_follows_refuted) and typing over a selection between two flag letters (C65_replace_refuted); both hold when no clusters fuse."
 },
 "C82": {
  "status": "partial",
  "note": "Refuted: Ctrl+K types k; only the bound chords A/E/U are safe."
 },
 "C83": {
  "status": "partial",
  "note": "Never panics (all texts). Window/cursor exact for plain ASCII texts. Refuted: width when text length = width and cursor at end; byte slicing splits non-ASCII characters."
 },
 "C84": {
  "status": "partial",
  "note": "Chain and IsValid exact; length validators count UTF-8 bytes, so the character claim is refuted and proved for ASCII."
 },
 "C16": {
  "status": "partial",
  "note": "Proved for every history of Render/failed Render/Repaint/Resize that never (1) shrinks the frame while keeping its last line or (2) renders the empty view while a repaint is due; both excluded cases are refuted with concrete histories. One-cell characters, unbounded grid."
 },
 "C17": {
  "status": "proved",
  "note": "Prefix, width bound, maximality, no split escape sequence, unchanged when it fits: all texts, widths and character-width functions."
 },
 "C85": {
  "status": "partial",
  "note": "Refuted for partial writes; holds when nothing was written."
 },
 "C18": {
  "status": "proved",
  "note": "All completion orders of the commands; every interleaving of loop, commands, Send and Quit. A result held by a goroutine that consumed a quit signal is dropped (explicit in C18_results)."
 },
 "C19": {
  "status": "proved",
  "note": "Trace semantics of running commands plus order of the deliveries."
 },
 "C20": {
  "status": "proved",
  "note": "Invariant over every execution of the transition system."
 },
 "C21": {
  "status": "partial",
  "note": "Refuted: Quit (and Stop, which uses the same non-blocking send) is lost when the loop is busy, e.g. when called from Update as its documentation suggests; with a full queue the input goroutine takes the signal (every capacity). Proved: a Quit while the loop waits for messages always ends the program, whatever commands and the input goroutine do (C21_quit_partial, C21_with_input_partial); a program at rest has ended, is deadlocked (C22) or is ended by the next Quit (C21_at_rest_partial); an accepted QuitMsg ends the program."
 },
 "C22": {
  "status": "partial",
  "note": "Refuted: a Batch of 101 commands blocks the loop on its own queue of capacity 100, for ever (C22_stuck_forever). Proved when the results fit."
 },
 "C23": {
  "status": "partial",
  "note": "Every initial mode and failure pattern. Refuted: a Resume that failed after re-entering the alternate screen can never succeed later; a program that ended while suspended makes Suspend of its next Run a no-op."
 },
 "C24": {
  "status": "partial",
  "note": "Raw mode and alternate screen proved for every history and failure pattern; refuted for the cursor (Resume hides it for good) and for a Resume after the end of Run."
 },
 "C25": {
  "status": "partial",
  "note": "Refuted for F1-F4, for Esc followed by a key in one chunk, and for chunk boundaries inside escape sequences; proved for everything else (text in any chunking)."
 },
 "C26": {
  "status": "partial",
  "note": "Refuted for Read buffers smaller than a chunk (the rest is dropped) and for a second Read after the end of the stream (blocks); proved for buffers of 256 bytes or more, as the program uses."
 },
 "C86": {
  "status": "partial",
  "note": "Refuted: a second Run, or a timed-out stop, makes a goroutine close a closed or nil channel. Proved for executions that start a reader only when none is alive and stop without timeout."
 },
 "C27": {
  "status": "proved",
  "note": "SGR parse of the xterm encoding, for all buttons, modifiers, coordinates; formatter equals that encoding; URxvt likewise for press and wheel."
 },
 "C28": {
  "status": "partial",
  "note": "Proved for coordinates 0..222; refuted beyond (byte wrap) and for releases (reported as a press of no button)."
 },
 "C29": {
  "status": "proved",
  "note": "Any history of releases; the answer is determined by the length of the run of continued clicks modulo three."
 },
 "C30": {
  "status": "partial",
  "note": "Refuted: no byte sequence ever yields a drag or motion event, the gesture ends in a click."
 },
 "C31": {
  "status": "partial",
  "note": "The processor refines a history specification; the informal 'drag excludes click' is refuted (drag out and back)."
 },
 "C32": {
  "status": "partial",
  "note": "Step law for all histories, alternation for one area; alternation with several areas refuted (Enter without Leave)."
 },
 "C34": {
  "status": "partial",
  "note": "Public API proved for all sequences of calls with all-or-nothing write failures; refuted for partial writes and for the internal Enable(mode)."
 },
 "C87": {
  "status": "partial",
  "note": "Proved for codes below 128; refuted for the extra buttons (codes 128..)."
 },
 "C88": {
  "status": "partial",
  "note": "Proved for boxes with a cell; refuted for empty boxes."
 },
 "C35": {
  "status": "partial",
  "note": "Order, non-overlap and containment on the main axis proved; 'space-between puts the last item flush with the end' is refuted (remainder of the integer division is lost)."
 },
 "C36": {
  "status": "partial",
  "note": "Cross positions proved; stretch never resizes the item: refuted."
 },
 "C37": {
  "status": "proved",
  "note": "Exact output dimensions and every cell characterised for all containers."
 },
 "C38": {
  "status": "partial",
  "note": "Proved for boxes without explicit size; refuted for bordered boxes (measured size exceeds the rendering) and for Width/Height/alignment, which Render ignores."
 },
 "C39": {
  "status": "partial",
  "note": "Constraint resolution proved; an exact width below the minimum wins: refuted as stated."
 },
 "C40": {
  "status": "partial",
  "note": "Vertical join proved; bottom-aligned siblings may overlap: refuted."
 },
 "C89": {
  "status": "proved",
  "note": "All combinations of direction, justification, alignment."
 },
 "C91": {
  "status": "partial",
  "note": "Sequences are valid and ranges right; equality with the text colour is refuted (Color256(67), dark red)."
 },
 "C92": {
  "status": "partial",
  "note": "Proved for styles with width, height and alignment (and for unaligned rectangular content); 'Width alone' is refuted: ignored without alignment, and applied to the whole text instead of each line without a height."
 },
 "C93": {
  "status": "partial",
  "note": "Proved except for border colour together with a vertical margin, where the claim is refuted (blank margin lines count the colour codes)."
 },
 "C94": {
  "status": "partial",
  "note": "Exact characterisation proved; as stated refuted: content beyond the maximum is returned whole and unstyled."
 },
 "C95": {
  "status": "partial",
  "note": "Associativity, idempotence and field-wise rule proved; 'every override value wins' refuted (black means unset: light + high contrast = white on white)."
 },
 "C44": {
  "status": "partial",
  "note": "Proved for texts that fit; cutting works on bytes: refuted for wide or multi-byte text."
 },
 "C45": {
  "status": "partial",
  "note": "Proved for non-empty texts and thin borders; the empty text gets no padding: refuted."
 },
 "C97": {
  "status": "partial",
  "note": "Proved for a local session with a native tool; refuted in SSH sessions (OSC 52 takes the write and cannot read) and for the default Builder in any known terminal."
 },
 "C100": {
  "status": "partial",
  "note": "Proved when clock readings strictly increase; refuted in general (sort.Slice is unstable and compares only timestamps)."
 },
 "C49": {
  "status": "partial",
  "note": "Refuted in general (braces, backslashes, newlines, non-ASCII, outer spaces are lost); proved for printable ASCII text without those, all styles, colours up to case."
 },
 "C66": {
  "status": "proved",
  "note": "Width, percentage, filled-cell count, monotonicity, extremes and text; 64-bit wrap of Increment(delta) is outside the model."
 },
 "C101": {
  "status": "partial",
  "note": "Cycle proved for every style; refuted for NewSpinnerCustom, which ignores its arguments."
 },
 "C102": {
  "status": "partial",
  "note": "Exact growth k^(g+1) proved; true for one spinner, refuted for two."
 },
 "C67": {
  "status": "partial",
  "note": "Refuted in general: the box draws height-1 rows and hides the last content line under the button rule; what is shown on each row is characterised exactly."
 },
 "C103": {
  "status": "partial",
  "note": "Proved for ASCII text; refuted for non-ASCII."
 },
 "C104": {
  "status": "partial",
  "note": "Proved for width >= 4; refuted below."
 },
 "C105": {
  "status": "partial",
  "note": "Proved while visible; refuted for size messages arriving while hidden."
 },
 "C106": {
  "status": "partial",
  "note": "Proved for labels other than the reserved words; refuted for an affirmative button labelled Cancel."
 },
 "C107": {
  "status": "partial",
  "note": "Proved for ASCII; refuted for non-ASCII first characters."
 },
 "C70": {
  "status": "partial",
  "note": "Proved for distinct names and fields exposing a value; refuted for unselected selects and duplicate names."
 },
 "C72": {
  "status": "partial",
  "note": "Refuted for branching derivations; proved for histories that extend each form at most once, for any append growth policy."
 },
 "C108": {
  "status": "partial",
  "note": "Refuted: no library component has the Update signature the form asserts; delegation proved for models that do."
 },
 "C109": {
  "status": "partial",
  "note": "Refuted for untested touched fields; proved right after Enter."
 },
 "C111": {
  "status": "partial",
  "note": "Holds for AutoDetect on Linux and macOS (C111_autodetect); refuted for the detector given platform darwin, which claims ANSI, mouse, alt screen and cursor control for TERM=dumb."
 },
 "C112": {
  "status": "partial",
  "note": "Holds for the detector given platform darwin; refuted for the public AutoDetect, because the build-tag platform string on macOS is unix."
 },
 "C113": {
  "status": "partial",
  "note": "Refuted; C113_recovery_partial gives the way back."
 },
 "C114": {
  "status": "proved",
  "note": "Against a VT specification written in AnsiModel.lean (one column per character); non-negative coordinates for SetCursorPosition; WriteAt for printable text that fits on the row."
 },
 "C116": {
  "status": "partial",
  "note": "Refuted clauses for the ANSI and Windows implementations; the Windows ClearLines contract is proved."
 },
 "C117": {
  "status": "partial",
  "note": "Proved for the ANSI implementation; refuted for the Windows console, whose Write always goes to the original buffer."
 },
 "C73": {
  "status": "proved",
  "note": "unicode.ToLower is a parameter."
 },
 "C74": {
  "status": "proved",
  "note": "System-call failures leave the terminal as it was; for failures reported after delivery see C113. C74_restore holds also with those and with foreign changes of the tty."
 },
 "C122": {
  "status": "proved",
  "note": "The key binding table is complete for messages with at most one of Ctrl/Alt; Ctrl+Alt combinations fall through to the Alt table (modelled, not part of the claim)."
 },
 "C126": {
  "status": "partial",
  "note": "Full statement refuted (C126_typing_refuted): each character replaces the query. Proved: the query is the last typed character and exactly the matching items are shown."
 },
 "C129": {
  "status": "partial",
  "note": "Refuted for height and filter function (the domain model is rebuilt from scratch): C129_height_refuted, C129_filter_refuted. Proved: filterability and limits survive, everything else restarts, and settings made after the options are kept."
 },
 "C136": {
  "status": "partial",
  "note": "The full statement is refuted (C136_refuted): a Stop that times out marks the program as stopped while its loop lives. Proved when no Stop times out."
 },
 "C137": {
  "status": "partial",
  "note": "The full statement is refuted (C137_refuted, C137_stale_quit_refuted): messages left in the queue at the end of a Run are handled by the next Run. Proved: order, no loss or duplication, the model carries over."
 },
 "C138": {
  "status": "partial",
  "note": "Proved for Run (C138_run) and for Start whenever raw mode was entered; refuted for Start when raw mode cannot be entered (C138_start_refuted)."
 },
 "C140": {
  "status": "proved",
  "note": "Every message and application; constants compared name by name."
 },
 "C141": {
  "status": "partial",
  "note": "Refuted for the four arrow characters, which share their name with the arrow keys (C141_arrow_refuted); proved otherwise, for all runes and modifiers."
 },
 "C142": {
  "status": "partial",
  "note": "Refuted: TransferForeground without CreateProcessGroup never runs the command; CreateProcessGroup alone runs it in the background; Windows loses the virtual-terminal-input bit. Proved: ownership with both or neither option, return of the terminal, resumption, signal disposition."
 },
 "C143": {
  "status": "proved",
  "note": "Text as list of Unicode scalar values (a Go string with invalid UTF-8 is not represented); texts with NUL are cut there (C143_cut_at_nul)."
 },
 "C144": {
  "status": "partial",
  "note": "True for ASCII text; for any text with a non-ASCII character Write copies len(text) bytes' worth of 16-bit units, more than the buffer holds, so foreign process memory ends up in the clipboard (C144_overread_refuted, C144_leak_refuted)."
 },
 "C145": {
  "status": "partial",
  "note": "Closing and unlocking proved on every path; the global block leaks when EmptyClipboard or SetClipboardData fails, and the former content is lost when SetClipboardData fails."
 },
 "C146": {
  "status": "partial",
  "note": "HTML to RTF proved for all texts at document level; reading the RTF (and RTF to HTML) only for texts RTF does not lose (see C49)."
 },
 "C147": {
  "status": "partial",
  "note": "Everything but the independence of the two alignments, which the code does not have: AlignMiddle resets the horizontal alignment (C147_align_refuted)."
 },
 "C148": {
  "status": "proved",
  "note": "Programs over numbered box and flex variables; Flex.Width/Height, which nothing reads, are left out."
 },
 "C149": {
  "status": "proved",
  "note": "Trees as values: adding a node to itself (a panic in Go) is not representable."
 },
 "C150": {
  "status": "partial",
  "note": "Picture proved for every cell; TotalSize is two columns short for bordered boxes (C150_totalSize_refuted)."
 },
 "C151": {
  "status": "partial",
  "note": "SGR characterisation refuted by a stray m before the final M (accepted as a press); proved for all other bodies. URxvt, X10 and 'garbage changes nothing' proved."
 },
 "C152": {
  "status": "proved",
  "note": "Behavioural equality with a new processor for all histories."
 },
 "C153": {
  "status": "proved",
  "note": "Exact history characterisation by induction from the end."
 },
 "C154": {
  "status": "proved",
  "note": ""
 },
 "C155": {
  "status": "partial",
  "note": "Proved for one-byte titles; refuted otherwise (one dash per byte of the title)."
 },
 "C156": {
  "status": "partial",
  "note": "Email and Pattern characterised exactly; lengths refuted: they count bytes though the message says characters (byte law is C70_builtin_validators)."
 },
 "C157": {
  "status": "proved",
  "note": "unicode.ToLower is a parameter."
 },
 "C158": {
  "status": "partial",
  "note": "Proved for colours, border characters, decorations, depth, padding, margin, sizes and alignment, with the exact law for border sides. False for border sides: choosing a border while all sides are off switches them all on, so New().BorderTop(false).Border(b) draws the top side (C158_order_refuted)."
 },
 "C159": {
  "status": "partial",
  "note": "Proved with the pipe (at most six steps, nobody needs to type) and without it on a platform whose unblock wakes the Read; refuted without a pipe elsewhere: WaitForShutdown waits for the next key (C159_refuted, C159_fallback_hangs_refuted)."
 },
 "C160": {
  "status": "partial",
  "note": "Proved whenever the wait for the relay did not time out, and always without a pipe; refuted when it did (50 ms, e.g. a stream without deadlines): the surviving relay swallows the next key (C160_refuted, C160_key_lost_refuted)."
 },
 "C161": {
  "status": "partial",
  "note": "Picture, options, height, one cursor and absence of panics (height >= 0) proved for all histories; refuted: Width and Wrap are never applied, an empty TextArea shows no cursor, a negative height panics."
 },
 "C162": {
  "status": "proved",
  "note": "For every history."
 },
 "C163": {
  "status": "partial",
  "note": "Refuted: nothing reads the limit; C163_ignored_partial: every typed character is inserted whatever the limit."
 },
 "C164": {
  "status": "partial",
  "note": "Refuted (rxvt-256color): only three TERM values count. The exact rule and 'never more than documented' proved."
 },
 "C165": {
  "status": "partial",
  "note": "Refuted both ways (NO_COLOR; TERM_PROGRAM=iTerm.app); proved when only TERM and COLORTERM speak."
 },
 "C166": {
  "status": "proved",
  "note": "Lines and render arguments for every history; custom render functions included (Options resets them, see C129_render_lost)."
 },
 "C167": {
  "status": "partial",
  "note": "Screen layout and check marks proved for distinct options; the counter counts indices passed to Selected that do not exist (C167_counter_refuted)."
 },
 "C168": {
  "status": "partial",
  "note": "Proved for texts without the bound letters (k j g G, and a n in MultiSelect), which run commands instead (C168_refuted)."
 },
 "C169": {
  "status": "partial",
  "note": "Layout proved for non-negative heights and no Filter call under an active query (C51); the focus mark replaces the selection mark, so the screen does not show whether the focused item is selected (C169_mark_refuted)."
 },
 "C170": {
  "status": "proved",
  "note": "C170_inline_screen and C170_no_scroll on a character-level terminal (scrollback, pending wrap, wide/combining characters, abstract pen, escape parser reading the renderer's bytes). Terminal not modelled: tabs/control characters, other CSI, reflow on resize."
 },
 "C171": {
  "status": "partial",
  "note": "The code refutes it (C171_last_column_refuted): ESC[K is written while the cursor is in the pending-wrap state on the last column and erases it, so every full-width or truncated line loses its last column. C171_last_column_partial and C171_rows_partial give exactly what is shown."
 },
 "C172": {
  "status": "partial",
  "note": "The code refutes it (C172_leak_refuted): truncateLine drops the trailing reset of a line that is too wide. C172_no_leak_partial: it holds when no line is wider than the terminal."
 },
 "C173": {
  "status": "proved",
  "note": "Custom providers are arbitrary; order, defaults, errors and routing."
 },
 "C174": {
  "status": "proved",
  "note": "Linux tools; macOS and Windows have one native provider (C143)."
 },
 "C175": {
  "status": "partial",
  "note": "Refuted (C175_fallback_refuted, C175_wayland_tools_refuted): the first available provider is asked and no other; availability means installed, not usable. C175_exact_partial: exact success condition outside SSH."
 },
 "C176": {
  "status": "partial",
  "note": "Success implies delivery, and native failures change nothing; refuted for OSC 52: the fsync after the write fails on every Linux terminal, so Write reports an error (and history records nothing) although the terminal received the text (C176_sync_refuted)."
 },
 "C177": {
  "status": "proved",
  "note": "All interleavings with changes of the outside world."
 },
 "C178": {
  "status": "partial",
  "note": "Refuted in general (C178_start_refuted): the writer starts by believing the cursor is at (0,0), so the home move of Clear is suppressed and a first frame that draws in the top left corner prints wherever the cursor happens to be. Proved (C178_blank_corner_partial): if the first drawn frame leaves the top left corner blank (and draws something), the picture is right for every later history from any starting cursor and screen."
 },
 "C179": {
  "status": "proved",
  "note": "Byte-level, end to end: io model of Writer/Renderer through bufio.Writer, decoded by an independent UTF-8/ECMA-48 terminal. Styles under the hypothesis of C14 (one common attribute set), control characters in cells are C180."
 },
 "C180": {
  "status": "partial",
  "note": "Refuted (C180_control_refuted): a line feed in a cell moves the terminal cursor while the renderer's tracked cursor stays, so the next frame is drawn a row too low; ESC followed by c in the next frame resets the terminal (example). Proved: exactly the non-control characters are printed as themselves (C180_only_controls_partial), and with those alone the picture is right (C179)."
 },
 "C181": {
  "status": "proved",
  "note": "bufio.Writer (WriteString, WriteByte, WriteRune, Flush, sticky error, direct StringWriter path) is modelled from the Go standard library; refinement of the failure-free renderer by induction over calls."
 },
 "C182": {
  "status": "partial",
  "note": "Refuted: after a failed Resize a Render of a blank buffer returns nil with the old frame on the screen (C182_nil_refuted); and one failed write is final: bufio's error is sticky and nothing resets it, so no later call reaches the device (C182_dead). Proved: after an error every call that has something to write returns an error (C182_reported_partial)."
 },
 "C183": {
  "status": "partial",
  "note": "Blank: proved for every schedule (C183_blank_partial). Size: refuted after Resize, which leaves old-size buffers in the pool (C183_stale_size_refuted), and after rendering a buffer of another size, which changes Width() but not the pool's New (C183_render_size_refuted); proved as long as nothing changes the size (C183_size_partial)."
 },
 "C184": {
  "status": "partial",
  "note": "Refuted: a second Release of the same buffer puts it into the pool twice and two later callers share its cells (C184_double_release_refuted). Proved for callers that release and use only buffers they own (C184_exclusive_partial)."
 },
 "C185": {
  "status": "proved",
  "note": "End-to-end: event loop LTS + inline renderer + terminal. Suspend/Resume drawing from other goroutines not part of these executions; writer accepts everything."
 },
 "C186": {
  "status": "partial",
  "note": "Refuted twice: renderView writes the raw view on the alternate screen, so the second frame is appended to the first, and line breaks do not return to column one in raw mode. Proved: the terminal receives exactly all views drawn, one after the other; while these form one line that fits, the row shows it."
 },
 "C187": {
  "status": "partial",
  "note": "Refuted: nothing is written when the loop ends, the cursor stays at the start of the last line of the view. Proved: exactly where the next character goes and that only this row changes."
 },
 "C188": {
  "status": "partial",
  "note": "refuted for every queue capacity: a Quit while the queue is full is taken by the input goroutine, which drops its key and ends while the program runs on (C188_stolen_refuted). Proved: order and no invention always; no loss without such a Quit or a cancellation; no loss while the queue is never full; from bytes to Update for all supported keys"
 },
 "C189": {
  "status": "proved",
  "note": "views of a fixed number of lines fitting the window (the inline renderer does not erase otherwise, see C185); no Quit/Suspend takes the input away"
 },
 "C190": {
  "status": "proved",
  "note": "program whose Update passes keys to the input; only the keyboard sends messages"
 },
 "C191": {
  "status": "proved",
  "note": "plain commands (characters, Enter, Backspace, Delete, left/right, line and buffer moves); only the keyboard sends messages"
 },
 "C192": {
  "status": "proved",
  "note": "Inline renderer, event loop and terminal together. Assumes views that fit the terminal and a terminal left without half an escape sequence, with the default pen and nothing below the cursor."
 },
 "C193": {
  "status": "partial",
  "note": "Refuted: Repaint keeps the number of lines, so Resume moves up n-1 rows and overwrites the last n-1 lines of the output (C193_refuted). Proved: all rows further up are kept, where the view is drawn; complete for one-line views (C193_kept_partial)."
 },
 "C194": {
  "status": "partial",
  "note": "Refuted: the event loop goes on drawing while suspended (C194_refuted). Proved: nothing is drawn as long as no message is handed to Update (C194_idle_partial)."
 },
 "C195": {
  "status": "partial",
  "note": "Refuted for every queue capacity: Run does not stop the input goroutine; it takes the next keys (C195_refuted). Proved: none of them reaches Update, at most as many as fit into the queue are taken and one more, then the terminal is left alone (C195_bounded_partial, C195_stops_partial)."
 },
 "C196": {
  "status": "partial",
  "note": "Refuted: sequences of more than 11 bytes are cut and the rest is typed, e.g. SGR mouse reports (C196_refuted). Proved: sequences of up to eight parameter bytes ending in a letter or ~ are no input (C196_short_partial); exactly which keys longer ones type (C196_long_partial); with the other final bytes (@ [ \\ ] ^ _ ` { | }) exactly which of the following bytes are lost (C196_swallowed_partial). Together these cover every control sequence delivered in one piece."
 },
 "C197": {
  "status": "partial",
  "note": "Acting is recognised by a changed text or cursor only: a handler that changes the selection, or deliberately swallows the key, is overridden by the default binding (C197_refuted: Ctrl+K bound to dropping the selection types a k). Proved: the first handler that changes text or cursor decides; otherwise the default; order of AddHandler; focus; invariants for handlers built from API calls."
 },
 "C198": {
  "status": "proved",
  "note": "Printable ASCII text, an input narrower than the terminal (width+1 < columns), no other sender of messages; nobody steals the queue (C188's race is excluded only in the clause about idleness)."
 },
 "C199": {
  "status": "partial",
  "note": "Refuted when a key shortens the picture while its last row stays the same: Delete at the end of the first of the lines a, b, c, c erases the last c from the screen (C199_refuted, the renderer defect of C16). Proved for all other histories (C199_area_screen_partial, hypothesis NoErase), and with no such hypothesis for any text typed into a new text area (C199_typed_text_partial); one-column characters, lines narrower than the terminal, no other sender."
 },
 "C200": {
  "status": "proved",
  "note": "Keys as bytes; only the keyboard and the program's own commands send messages. Quiescent means no step of the loop or of a command is possible."
 },
 "C201": {
  "status": "partial",
  "note": "Refuted (any capacity): Enter, j, Enter - the second Enter's message may be the first to arrive. Proved: every answer is that of some Enter (value of the option under the cursor after the keys before it), no more answers than Enters, ended by itself means answered or Ctrl+C, at rest with Enter or Ctrl+C typed the program has ended, with a single Enter the answer is exact."
 },
 "C202": {
  "status": "proved",
  "note": "End to end: decoder, reader goroutine, loop, component, View, inline renderer, terminal. Printable ASCII texts; one message sender (the keyboard)."
 },
 "C203": {
  "status": "proved",
  "note": "C203_view and C203_one_focused for the text, C203_confirm_screen for the running program (printable ASCII texts that fit the terminal)."
 },
 "C204": {
  "status": "proved",
  "note": "Composition of C169 (View), C51 (window and focus) and the screen theorem of the running program; filter input hidden, nothing bound to clearFilter, mouse and window-size messages not among the inputs."
 },
 "C205": {
  "status": "proved",
  "note": "Composition of C56-C58 and the screen theorem of the running program; wrapping off, characters one column wide, mouse messages not among the inputs."
 },
 "C206": {
  "status": "partial",
  "note": "The string of View is as stated (C206_string_partial). In a program it fails for every dimmed modal (C206_shifted, C206_refuted): the string has more rows than the terminal, the renderer keeps the last ones, so the background is printed as many rows too high as the box part has (at least three), while the box is drawn with absolute positions. The effect of these positions on the cursor is not modelled."
 },
 "C207": {
  "status": "partial",
  "note": "Specification: a terminal pen (SGR) and the cells it writes. Proved: without border colour every cell has exactly the style's pen (C207_text_partial); with only a border colour exactly the edge cells have it and each line leaves the pen as it found it (C207_border_partial). Refuted when both are set: the reset after the border colour also ends the text's colours, so red text in a blue border is not red (C207_refuted)."
 },
 "C208": {
  "status": "partial",
  "note": "Refuted (C208_refuted): Read returns the HTML markup, not the text. C208_plain_text_refuted: plain text that looks like a tag comes back as a style. C208_kinds_refuted: ReadRTF after WriteHTML returns the HTML. Proved: ReadStyledText and ReadHTMLAsPlainText give back text and styles (C208_styled_partial for any faithful chain, C208_local_partial for the default clipboard on a local machine), and the document is recorded as text/html."
 },
 "C209": {
  "status": "partial",
  "note": "Refuted (C209_refuted): WriteImage and ReadImage always fail. Proved: the failure is always reported and changes nothing."
 },
 "C210": {
  "status": "partial",
  "note": "Refuted (C210_refuted): in the alternate screen writes go to the primary buffer while ReadScreenBuffer reads the alternate one. Proved: ReadScreenBuffer returns the console's buffer cell by cell (C210_reads_buffer), the full claim in the primary screen (C210_write_at_partial), and that the alternate screen reads back blank whatever was written (C210_alternate_partial)."
 },
 "C211": {
  "status": "proved",
  "note": "Both modes, all interleavings; the pipe is unbounded in the model and the client's buffer has at least 256 bytes (with smaller buffers Read drops bytes: C26)."
 },
 "C212": {
  "status": "proved",
  "note": "Proved for inline programs whose only messages are keys, tables with printable ASCII texts and a sort mark that fits into its header (otherwise C63/C81's refutations apply)."
 },
 "C213": {
  "status": "partial",
  "note": "Refuted for a second Run: the tick of the first is still alive when Init starts another, so the spinner runs at r times its rate in the r-th Run (C213_refuted); and a Quit() taken by the tick's goroutine freezes it in a running program (C213_frozen). Proved: the exact count in every Run (r plus ticks sent from outside = under way + taken by Quit), that it never stops by itself, and the frame shown. Durations of sleeps are not modelled."
 },
 "C214": {
  "status": "partial",
  "note": "Refuted: a key typed between the Enter and the arrival of SubmitMsg changes the data the application reads (C214_refuted: Enter, Backspace; an empty required field is submitted). Proved: the data was valid at an Enter among the keys handled, and is what the application reads if since then the form got only its own keys; SubmitMsg at most once per Enter; the program ends. Fields' own commands are left out."
 },
 "C215": {
  "status": "partial",
  "note": "Refuted: IsEnabled stays true after an Enable whose first step (turning tracking off) failed half-way; the extended format is then off (C215_refuted). Proved: the other clauses for all histories with clean write failures (a failed write delivers nothing; for partial writes see C34), and IsEnabled exactly when all writes succeed."
 },
 "C216": {
  "status": "proved",
  "note": "C216_form_screen. Lines of narrow characters that fit the terminal; the case of a field whose value is exactly the help line is excluded (the inline renderer's shrink defect, C16, could leave rows)."
 },
 "C217": {
  "status": "partial",
  "note": "C217_modal_partial: all but the order. C217_refuted: with Enter, Tab, Enter typed in one go the second button's message can overtake the first one's (each command runs in its own goroutine), so the application can hear of the wrong button first."
 },
 "C218": {
  "status": "partial",
  "note": "refuted as stated: each line is followed by an erase-to-end-of-line, so whatever lay right of the box is gone (C218_right_erased_refuted, every modal), a line that reaches the last column loses its last character, so a modal as wide as the terminal has no right border (C218_last_column_refuted, every modal), and after Hide the renderer moves up only as many rows as the View had lines, so the upper lines of a box with fewer lines than rows stay on the screen (C218_hidden_partial says exactly which, for every modal; C218_refuted). Proved: the lines of the open box are where they belong, nothing scrolls, rows without a line are untouched except the one below the last line"
 },
 "C219": {
  "status": "partial",
  "note": "C219_keys_partial: for every modal, every list of keys none of which closes it, and every screen before, the screen shows after the frames every line of the view of the modal after those keys, in its place, and the window has not scrolled (C219_focus_partial: the same for any changes of the focus between frames). C219_mark_partial: when the buttons fit the width, the line above the bottom rule is on the screen with the buttons as `marked` spells them, the focused one in angle brackets. C219_default_partial: with the default keys that button is the one as many places on (counting around) as Tab and → were typed more often than Shift+Tab and ←. Missing: boxes whose lines cover each other (only possible when the modal is lower than 7 or its content leaves no row free above the buttons: C219_inside; for ASCII texts the whole condition is one on the geometry, C219_ascii_inside) or end in the last column (C218_last_column_refuted: there it fails), the dimmed background, messages other than keys between the frames. Example: Tab in a modal of two buttons moves \"< >\" on the screen."
 }
}