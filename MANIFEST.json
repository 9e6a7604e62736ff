{
 "claims": [
  {
   "property": "C01",
   "status": "proved",
   "theorems": [
    "Phoenix.TextArea.C01_cursor_in_bounds"
   ],
   "note": ""
  },
  {
   "property": "C02",
   "status": "proved",
   "theorems": [
    "Phoenix.TextArea.C02_exec_refines",
    "Phoenix.TextArea.C02_history_refines",
    "Phoenix.TextArea.C02_yank_pastes",
    "Phoenix.TextArea.C02_raw_newline_refuted"
   ],
   "note": "Refinement proved for every history of plain keys (raw newline runes excluded by the statement's 'non-newline rune'); the extra claim Lines()=split(Value()) fails for raw newline runes (C02_raw_newline_refuted)."
  },
  {
   "property": "C03",
   "status": "partial",
   "theorems": [
    "Phoenix.TextArea.C03_killLine_yank_refuted",
    "Phoenix.TextArea.C03_killLine_cursor_refuted",
    "Phoenix.TextArea.C03_killWord_yank_refuted",
    "Phoenix.TextArea.C03_killLine_removes_partial",
    "Phoenix.TextArea.C03_killWord_removes_partial",
    "Phoenix.TextArea.C03_killLine_back_yank_partial",
    "Phoenix.TextArea.C03_killWordBackward_yank_partial",
    "Phoenix.TextArea.C03_killWordBackward_range_partial"
   ],
   "note": "KillLine/KillWord reset the cursor to (0,0), so cursor and immediate-yank claims are false of the code (refuted). Proved: exactly what is removed and pushed; yank after returning restores; KillWordBackward fully correct."
  },
  {
   "property": "C04",
   "status": "proved",
   "theorems": [
    "Phoenix.TextArea.C04_readOnly",
    "Phoenix.TextArea.C04_switch"
   ],
   "note": ""
  },
  {
   "property": "C05",
   "status": "proved",
   "theorems": [
    "Phoenix.TextArea.C05_kill_ring",
    "Phoenix.TextArea.C05_yank_pop_cycles"
   ],
   "note": ""
  },
  {
   "property": "C06",
   "status": "proved",
   "theorems": [
    "Phoenix.TextArea.C06_validator",
    "Phoenix.TextArea.C06_events",
    "Phoenix.TextArea.C06_confined",
    "Phoenix.TextArea.C06_all_commands_refuted"
   ],
   "note": "Delete never moves the cursor. Kills/typing/yank do not consult the validator (C06_all_commands_refuted shows the stronger claim fails)."
  },
  {
   "property": "C07",
   "status": "partial",
   "theorems": [
    "Phoenix.TextArea.C07_visible_partial",
    "Phoenix.TextArea.C07_move_makes_visible_partial",
    "Phoenix.TextArea.C07_visible_lines",
    "Phoenix.TextArea.C07_killLine_refuted"
   ],
   "note": "False for KillLine/KillWord (cursor jumps to (0,0) without rescrolling), refuted; proved for all other commands."
  },
  {
   "property": "C08",
   "status": "partial",
   "theorems": [
    "Phoenix.TextArea.C08_maxLines_partial",
    "Phoenix.TextArea.C08_yank_refuted"
   ],
   "note": "Yank ignores MaxLines (refuted); proved for all other commands."
  },
  {
   "property": "C09",
   "status": "proved",
   "theorems": [
    "Phoenix.TextArea.C09_left_right",
    "Phoenix.TextArea.C09_every_offset_reachable",
    "Phoenix.TextArea.C09_absolute_moves",
    "Phoenix.TextArea.C09_up_down",
    "Phoenix.TextArea.C09_word_moves",
    "Phoenix.TextArea.C09_word_targets"
   ],
   "note": ""
  },
  {
   "property": "C10",
   "status": "proved",
   "theorems": [
    "Phoenix.Render.C10_diff_sound",
    "Phoenix.Render.C10_diff_resized"
   ],
   "note": ""
  },
  {
   "property": "C11",
   "status": "proved",
   "theorems": [
    "Phoenix.Render.C11_diff_minimal",
    "Phoenix.Render.C11_diff_empty_iff",
    "Phoenix.Render.C11_diffLine",
    "Phoenix.Render.C11_hasChanges_resized"
   ],
   "note": ""
  },
  {
   "property": "C12",
   "status": "proved",
   "theorems": [
    "Phoenix.Render.C12_passes_preserve",
    "Phoenix.Render.C12_groupByLine_preserves"
   ],
   "note": ""
  },
  {
   "property": "C13",
   "status": "proved",
   "theorems": [
    "Phoenix.Render.C13_glyph_exact",
    "Phoenix.Render.C13_cursor_tracked"
   ],
   "note": "Single-column cells (as the statement says); terminal emulator in Render/Spec.lean is the trusted reading of the escape codes."
  },
  {
   "property": "C14",
   "status": "partial",
   "theorems": [
    "Phoenix.Render.C14_style_exact_refuted",
    "Phoenix.Render.C14_style_exact_partial"
   ],
   "note": "False of the code: no SGR reset between styles (C14_style_exact_refuted). Proved when all cells use the same attribute set."
  },
  {
   "property": "C15",
   "status": "proved",
   "theorems": [
    "Phoenix.Render.C15_get_set",
    "Phoenix.Render.C15_new",
    "Phoenix.Render.C15_isEmpty",
    "Phoenix.Render.C15_clone",
    "Phoenix.Render.C15_fill_clear",
    "Phoenix.Render.C15_resize",
    "Phoenix.Render.C15_setString",
    "Phoenix.Render.C15_setLine"
   ],
   "note": ""
  },
  {
   "property": "C16",
   "status": "partial",
   "theorems": [
    "Phoenix.Inline.C16_screen_partial",
    "Phoenix.Inline.C16_grow_partial",
    "Phoenix.Inline.C16_shrink_refuted",
    "Phoenix.Inline.C16_empty_refuted",
    "Phoenix.Inline.C16_lines",
    "Phoenix.Inline.C16_frame"
   ],
   "note": "Proved for every history of Render/failed Render/Repaint/Resize that never (1) shrinks the frame while keeping its last line or (2) renders the empty view while a repaint is due; both excluded cases are refuted with concrete histories. One-cell characters, unbounded grid."
  },
  {
   "property": "C17",
   "status": "proved",
   "theorems": [
    "Phoenix.Inline.C17_truncate",
    "Phoenix.Inline.C17_fits",
    "Phoenix.Inline.C17_plain"
   ],
   "note": "Prefix, width bound, maximality, no split escape sequence, unchanged when it fits: all texts, widths and character-width functions."
  },
  {
   "property": "C18",
   "status": "proved",
   "theorems": [
    "Phoenix.Program.C18_builders",
    "Phoenix.Program.C18_batch_result",
    "Phoenix.Program.C18_unpack",
    "Phoenix.Program.C18_results",
    "Phoenix.Program.C18_exactly_once"
   ],
   "note": "All completion orders of the commands; every interleaving of loop, commands, Send and Quit. A result held by a goroutine that consumed a quit signal is dropped (explicit in C18_results)."
  },
  {
   "property": "C19",
   "status": "proved",
   "theorems": [
    "Phoenix.Program.C19_sequence_result",
    "Phoenix.Program.C19_one_after_the_other",
    "Phoenix.Program.C19_never_two",
    "Phoenix.Program.C19_in_order"
   ],
   "note": "Trace semantics of running commands plus order of the deliveries."
  },
  {
   "property": "C20",
   "status": "proved",
   "theorems": [
    "Phoenix.Program.C20_fifo",
    "Phoenix.Program.C20_idle",
    "Phoenix.Program.C20_quit_last"
   ],
   "note": "Invariant over every execution of the transition system."
  },
  {
   "property": "C21",
   "status": "partial",
   "theorems": [
    "Phoenix.Typing.C21_with_input_partial",
    "Phoenix.Typing.C21_stolen_refuted",
    "Phoenix.Program.C21_refuted",
    "Phoenix.Program.C21_quit_partial",
    "Phoenix.Program.C21_at_rest_partial",
    "Phoenix.Program.C21_quitmsg_partial"
   ],
   "note": "Refuted: Quit (and Stop, which uses the same non-blocking send) is lost when the loop is busy, e.g. when called from Update as its documentation suggests; with a full queue the input goroutine takes the signal (every capacity). Proved: a Quit while the loop waits for messages always ends the program, whatever commands and the input goroutine do (C21_quit_partial, C21_with_input_partial); a program at rest has ended, is deadlocked (C22) or is ended by the next Quit (C21_at_rest_partial); an accepted QuitMsg ends the program."
  },
  {
   "property": "C22",
   "status": "partial",
   "theorems": [
    "Phoenix.Program.C22_stuck_forever",
    "Phoenix.Program.C22_fits_partial",
    "Phoenix.Program.C22_refuted"
   ],
   "note": "Refuted: a Batch of 101 commands blocks the loop on its own queue of capacity 100, for ever (C22_stuck_forever). Proved when the results fit."
  },
  {
   "property": "C23",
   "status": "partial",
   "theorems": [
    "Phoenix.Suspend.C23_suspend_ok",
    "Phoenix.Suspend.C23_cursor",
    "Phoenix.Suspend.C23_suspend_err",
    "Phoenix.Suspend.C23_suspend_succeeds",
    "Phoenix.Suspend.C23_idempotent",
    "Phoenix.Suspend.C23_roundtrip",
    "Phoenix.Suspend.C23_exec",
    "Phoenix.Suspend.C23_retry_refuted",
    "Phoenix.Suspend.C23_stuck",
    "Phoenix.Suspend.C23_retry_partial",
    "Phoenix.Suspend.C23_history_refuted"
   ],
   "note": "Every initial mode and failure pattern. Refuted: a Resume that failed after re-entering the alternate screen can never succeed later; a program that ended while suspended makes Suspend of its next Run a no-op."
  },
  {
   "property": "C24",
   "status": "partial",
   "theorems": [
    "Phoenix.Suspend.C24_refuted",
    "Phoenix.Suspend.C24_modes_partial",
    "Phoenix.Suspend.C24_failed_start",
    "Phoenix.Suspend.C24_cursor_partial",
    "Phoenix.Suspend.C24_afterwards_refuted"
   ],
   "note": "Raw mode and alternate screen proved for every history and failure pattern; refuted for the cursor (Resume hides it for good) and for a Resume after the end of Run."
  },
  {
   "property": "C25",
   "status": "partial",
   "theorems": [
    "Phoenix.Input.C25_f1_refuted",
    "Phoenix.Input.C25_esc_refuted",
    "Phoenix.Input.C25_split_refuted",
    "Phoenix.Input.C25_partial",
    "Phoenix.Input.C25_text",
    "Phoenix.Input.C25_parser"
   ],
   "note": "Refuted for F1-F4, for Esc followed by a key in one chunk, and for chunk boundaries inside escape sequences; proved for everything else (text in any chunking)."
  },
  {
   "property": "C26",
   "status": "partial",
   "theorems": [
    "Phoenix.Cancel.C26_refuted",
    "Phoenix.Cancel.C26_prefix_partial",
    "Phoenix.Cancel.C26_no_deadlock",
    "Phoenix.Cancel.C26_after_cancel",
    "Phoenix.Cancel.C26_cancel_unblocks",
    "Phoenix.Cancel.C26_eof_again_refuted"
   ],
   "note": "Refuted for Read buffers smaller than a chunk (the rest is dropped) and for a second Read after the end of the stream (blocks); proved for buffers of 256 bytes or more, as the program uses."
  },
  {
   "property": "C27",
   "status": "proved",
   "theorems": [
    "Phoenix.Mouse.C27_sgr_round_trip",
    "Phoenix.Mouse.C27_format_is_xterm",
    "Phoenix.Mouse.C27_urxvt_round_trip",
    "Phoenix.Mouse.C27_urxvt_format"
   ],
   "note": "SGR parse of the xterm encoding, for all buttons, modifiers, coordinates; formatter equals that encoding; URxvt likewise for press and wheel."
  },
  {
   "property": "C28",
   "status": "partial",
   "theorems": [
    "Phoenix.Mouse.C28_x10_round_trip_partial",
    "Phoenix.Mouse.C28_round_trip_refuted",
    "Phoenix.Mouse.C28_release_reported_as_press_refuted"
   ],
   "note": "Proved for coordinates 0..222; refuted beyond (byte wrap) and for releases (reported as a press of no button)."
  },
  {
   "property": "C29",
   "status": "proved",
   "theorems": [
    "Phoenix.Mouse.C29_click_count",
    "Phoenix.Mouse.C29_kinds"
   ],
   "note": "Any history of releases; the answer is determined by the length of the run of continued clicks modulo three."
  },
  {
   "property": "C30",
   "status": "partial",
   "theorems": [
    "Phoenix.Mouse.C30_never_a_drag",
    "Phoenix.Mouse.C30_drag_refuted",
    "Phoenix.Mouse.C30_gesture_ends_in_click_refuted"
   ],
   "note": "Refuted: no byte sequence ever yields a drag or motion event, the gesture ends in a click."
  },
  {
   "property": "C31",
   "status": "partial",
   "theorems": [
    "Phoenix.Mouse.C31_processor_protocol",
    "Phoenix.Mouse.C31_default",
    "Phoenix.Mouse.C31_isDragging",
    "Phoenix.Mouse.C31_no_drag_without_press",
    "Phoenix.Mouse.C31_drag_or_click_refuted"
   ],
   "note": "The processor refines a history specification; the informal 'drag excludes click' is refuted (drag out and back)."
  },
  {
   "property": "C32",
   "status": "partial",
   "theorems": [
    "Phoenix.Mouse.C32_state",
    "Phoenix.Mouse.C32_hover_step",
    "Phoenix.Mouse.C32_single_area_alternates",
    "Phoenix.Mouse.C32_alternation_refuted"
   ],
   "note": "Step law for all histories, alternation for one area; alternation with several areas refuted (Enter without Leave)."
  },
  {
   "property": "C33",
   "status": "proved",
   "theorems": [
    "Phoenix.Mouse.C33_fits",
    "Phoenix.Mouse.C33_menu_on_screen"
   ],
   "note": ""
  },
  {
   "property": "C34",
   "status": "partial",
   "theorems": [
    "Phoenix.Mouse.C34_switching",
    "Phoenix.Mouse.C34_reports",
    "Phoenix.Mouse.C34_disable_leaves_no_mode",
    "Phoenix.Mouse.C34_partial_write_refuted",
    "Phoenix.Mouse.C34_enable_mode_disable_all_refuted",
    "Phoenix.Mouse.C34_half_enabled_refuted"
   ],
   "note": "Public API proved for all sequences of calls with all-or-nothing write failures; refuted for partial writes and for the internal Enable(mode)."
  },
  {
   "property": "C35",
   "status": "partial",
   "theorems": [
    "Phoenix.Layout.C35_container",
    "Phoenix.Layout.C35_main_axis",
    "Phoenix.Layout.C35_justify_partial",
    "Phoenix.Layout.C35_between_flush_refuted"
   ],
   "note": "Order, non-overlap and containment on the main axis proved; 'space-between puts the last item flush with the end' is refuted (remainder of the integer division is lost)."
  },
  {
   "property": "C36",
   "status": "partial",
   "theorems": [
    "Phoenix.Layout.C36_container_partial",
    "Phoenix.Layout.C36_cross_axis_partial",
    "Phoenix.Layout.C36_stretch_refuted"
   ],
   "note": "Cross positions proved; stretch never resizes the item: refuted."
  },
  {
   "property": "C37",
   "status": "proved",
   "theorems": [
    "Phoenix.Layout.C37_render_dimensions"
   ],
   "note": "Exact output dimensions and every cell characterised for all containers."
  },
  {
   "property": "C38",
   "status": "partial",
   "theorems": [
    "Phoenix.Layout.C38_measure_partial",
    "Phoenix.Layout.C38_measure_refuted",
    "Phoenix.Layout.C38_empty_refuted",
    "Phoenix.Layout.C38_size_ignored_refuted",
    "Phoenix.Layout.C38_render_freezes_size_refuted"
   ],
   "note": "Proved for boxes without explicit size; refuted for bordered boxes (measured size exceeds the rendering) and for Width/Height/alignment, which Render ignores."
  },
  {
   "property": "C39",
   "status": "partial",
   "theorems": [
    "Phoenix.Layout.C39_new",
    "Phoenix.Layout.C39_exact",
    "Phoenix.Layout.C39_constrain_partial",
    "Phoenix.Layout.C39_constrain_refuted"
   ],
   "note": "Constraint resolution proved; an exact width below the minimum wins: refuted as stated."
  },
  {
   "property": "C40",
   "status": "partial",
   "theorems": [
    "Phoenix.Layout.C40_shape_kept",
    "Phoenix.Layout.C40_children_placed",
    "Phoenix.Layout.C40_stack_partial",
    "Phoenix.Layout.C40_no_overlap_refuted",
    "Phoenix.Layout.C40_clamp"
   ],
   "note": "Vertical join proved; bottom-aligned siblings may overlap: refuted."
  },
  {
   "property": "C41",
   "status": "proved",
   "theorems": [
    "Phoenix.Style.C41_roundtrip",
    "Phoenix.Style.C41_accepts",
    "Phoenix.Style.C41_parsed_ok"
   ],
   "note": ""
  },
  {
   "property": "C42",
   "status": "proved",
   "theorems": [
    "Phoenix.Style.C42_palette",
    "Phoenix.Style.C42_range",
    "Phoenix.Style.C42_nearest_level",
    "Phoenix.Style.C42_error_bound",
    "Phoenix.Style.C42_palette_stable"
   ],
   "note": ""
  },
  {
   "property": "C43",
   "status": "proved",
   "theorems": [
    "Phoenix.Style.C43_nearest",
    "Phoenix.Style.C43_range",
    "Phoenix.Style.C43_palette_stable"
   ],
   "note": ""
  },
  {
   "property": "C44",
   "status": "partial",
   "theorems": [
    "Phoenix.Style.C44_horizontal",
    "Phoenix.Style.C44_vertical",
    "Phoenix.Style.C44_cut_bytes_partial",
    "Phoenix.Style.C44_cut_partial",
    "Phoenix.Style.C44_refuted",
    "Phoenix.Style.C44_garbage_refuted"
   ],
   "note": "Proved for texts that fit; cutting works on bytes: refuted for wide or multi-byte text."
  },
  {
   "property": "C45",
   "status": "partial",
   "theorems": [
    "Phoenix.Style.C45_spacing",
    "Phoenix.Style.C45_padding_refuted",
    "Phoenix.Style.C45_border"
   ],
   "note": "Proved for non-empty texts and thin borders; the empty text gets no padding: refuted."
  },
  {
   "property": "C46",
   "status": "proved",
   "theorems": [
    "Phoenix.Clip.C46_bounded",
    "Phoenix.Clip.C46_survivors",
    "Phoenix.Clip.C46_only_additions",
    "Phoenix.Clip.C46_getAll_newest_first",
    "Phoenix.Clip.C46_getAll_exists",
    "Phoenix.Clip.C46_getRecent",
    "Phoenix.Clip.C46_lookup",
    "Phoenix.Clip.C46_expired",
    "Phoenix.Clip.C46_getByMIME",
    "Phoenix.Clip.C46_removeExpired"
   ],
   "note": ""
  },
  {
   "property": "C47",
   "status": "proved",
   "theorems": [
    "Phoenix.Clip.C47_html_roundtrip",
    "Phoenix.Clip.C47_no_injection",
    "Phoenix.Clip.C47_constructed_colors"
   ],
   "note": ""
  },
  {
   "property": "C48",
   "status": "proved",
   "theorems": [
    "Phoenix.Clip.C48_payload_faithful",
    "Phoenix.Clip.C48_injective",
    "Phoenix.Clip.C48_length"
   ],
   "note": ""
  },
  {
   "property": "C49",
   "status": "partial",
   "theorems": [
    "Phoenix.Clip.C49_rtf_roundtrip_partial",
    "Phoenix.Clip.C49_brace_refuted",
    "Phoenix.Clip.C49_losses",
    "Phoenix.Clip.C49_document"
   ],
   "note": "Refuted in general (braces, backslashes, newlines, non-ASCII, outer spaces are lost); proved for printable ASCII text without those, all styles, colours up to case."
  },
  {
   "property": "C50",
   "status": "proved",
   "theorems": [
    "Phoenix.Clip.C50_write_first_available",
    "Phoenix.Clip.C50_read_first_available",
    "Phoenix.Clip.C50_fails_without_provider",
    "Phoenix.Clip.C50_read_fails_without_provider",
    "Phoenix.Clip.C50_history_records_successes",
    "Phoenix.Clip.C50_failed_writes_unrecorded",
    "Phoenix.Clip.C50_type_names",
    "Phoenix.Clip.C50_new",
    "Phoenix.Clip.C50_history_off"
   ],
   "note": ""
  },
  {
   "property": "C51",
   "status": "partial",
   "theorems": [
    "Phoenix.ListC.C51_focus_valid_partial",
    "Phoenix.ListC.C51_focused_row_visible_partial",
    "Phoenix.ListC.C51_filter_refuted",
    "Phoenix.ListC.C51_negative_height_refuted"
   ],
   "note": "False in general: Filter() while a query is active keeps a stale focus index (C51_filter_refuted); a negative height breaks paging (C51_negative_height_refuted). Proved for all other histories, including visibility of the focused row."
  },
  {
   "property": "C52",
   "status": "proved",
   "theorems": [
    "Phoenix.ListC.C52_filter_exact",
    "Phoenix.ListC.C52_default_filter"
   ],
   "note": ""
  },
  {
   "property": "C53",
   "status": "partial",
   "theorems": [
    "Phoenix.ListC.C53_selection_valid_partial",
    "Phoenix.ListC.C53_toggle",
    "Phoenix.ListC.C53_selection_refuted"
   ],
   "note": "Fails after the stale focus of C51 (C53_selection_refuted); proved for all other histories; toggle laws proved in general."
  },
  {
   "property": "C54",
   "status": "partial",
   "theorems": [
    "Phoenix.Choice.C54_indices_order_irrelevant",
    "Phoenix.Choice.C54_max_never_exceeded",
    "Phoenix.Choice.C54_confirm_iff",
    "Phoenix.Choice.C54_values",
    "Phoenix.Choice.C54_count_refuted",
    "Phoenix.Choice.C54_count_partial",
    "Phoenix.Choice.C54_toggle_exact"
   ],
   "note": "max bound, confirm condition, values in option order and exact toggling proved for all histories; the count/values agreement is refuted for Selected() with positions that do not exist and proved for in-range histories"
  },
  {
   "property": "C55",
   "status": "partial",
   "theorems": [
    "Phoenix.Choice.C55_focused_visible",
    "Phoenix.Choice.C55_filter_keeps_selection",
    "Phoenix.Choice.C55_displayed_refuted",
    "Phoenix.Choice.C55_displayed_partial"
   ],
   "note": "selection preserved by filter editing, cursor validity, window containing the focused option proved for all histories; 'displayed = accepted by the filter' refuted for a late WithFilterFunc and proved otherwise"
  },
  {
   "property": "C56",
   "status": "proved",
   "theorems": [
    "Phoenix.Viewport.C56_offset_in_range",
    "Phoenix.Viewport.C56_offset_in_range_new"
   ],
   "note": ""
  },
  {
   "property": "C57",
   "status": "partial",
   "theorems": [
    "Phoenix.Viewport.C57_visible_window",
    "Phoenix.Viewport.C57_reachable_ok",
    "Phoenix.Viewport.C57_wrap_greedy",
    "Phoenix.Viewport.C57_wrap_line",
    "Phoenix.Viewport.C57_wrap_lossless",
    "Phoenix.Viewport.C57_wrap_height_refuted"
   ],
   "note": "Window and cut proved; wrapping is lossless and within the width when no single cluster is wider than the viewport; 'at most height lines' is false in wrap mode (C57_wrap_height_refuted)."
  },
  {
   "property": "C58",
   "status": "proved",
   "theorems": [
    "Phoenix.Viewport.C58_explicit_switches",
    "Phoenix.Viewport.C58_follow_shows_last",
    "Phoenix.Viewport.C58_mode_switches",
    "Phoenix.Viewport.C58_resize_refuted"
   ],
   "note": "As stated (content set/appended). A stronger claim for resizes is false of the code (C58_resize_refuted)."
  },
  {
   "property": "C59",
   "status": "partial",
   "theorems": [
    "Phoenix.Choice.C59_focused_visible",
    "Phoenix.Choice.C59_enter_selects_focused",
    "Phoenix.Choice.C59_filter_keeps_selection",
    "Phoenix.Choice.C59_displayed_partial",
    "Phoenix.Choice.C59_default_refuted"
   ],
   "note": "cursor, window, Enter, filtering proved for all histories; WithDefault refuted; displayed options partial as in C55"
  },
  {
   "property": "C60",
   "status": "partial",
   "theorems": [
    "Phoenix.Table.C60_natural_order",
    "Phoenix.Table.C60_stable_sort_unique",
    "Phoenix.Table.C60_permutation",
    "Phoenix.Table.C60_sorted_display_partial",
    "Phoenix.Table.C60_sort_control"
   ],
   "note": "permutation proved for all histories and values; ordering, stability and uniqueness of the stable sort proved for columns of one kind (nil allowed, no NaN); mixed columns have no order (C61)"
  },
  {
   "property": "C61",
   "status": "partial",
   "theorems": [
    "Phoenix.Table.C61_mixed_refuted",
    "Phoenix.Table.C61_nan_refuted",
    "Phoenix.Table.C61_kind_partial"
   ],
   "note": "refuted for mixed types and NaN; proved for columns of one kind"
  },
  {
   "property": "C62",
   "status": "partial",
   "theorems": [
    "Phoenix.Table.C62_height_refuted",
    "Phoenix.Table.C62_panic_refuted",
    "Phoenix.Table.C62_selected_visible_partial",
    "Phoenix.Table.C62_paging"
   ],
   "note": "refuted when Height/ShowHeader shrinks the window (and View panics when no row fits); proved for all other histories; paging exact"
  },
  {
   "property": "C63",
   "status": "partial",
   "theorems": [
    "Phoenix.Table.C63_cell_bytes",
    "Phoenix.Table.C63_bytes_refuted",
    "Phoenix.Table.C63_header_refuted",
    "Phoenix.Table.C63_marker_refuted",
    "Phoenix.Table.C63_aligned_partial"
   ],
   "note": "byte width exact for all; column width refuted for non-ASCII cells, sorted headers; all lines aligned proved for ASCII tables"
  },
  {
   "property": "C64",
   "status": "proved",
   "theorems": [
    "Phoenix.TextInput.C64_cursor_in_text",
    "Phoenix.TextInput.C64_content_parts"
   ],
   "note": "Cursor and non-empty selection stay in range for every history of the whole domain API and key presses, any left-to-right grapheme segmenter; ContentParts splits exactly there. (An empty selection may be left stale; it is not observable through HasSelection.)"
  },
  {
   "property": "C65",
   "status": "partial",
   "theorems": [
    "Phoenix.TextInput.C65_insert",
    "Phoenix.TextInput.C65_backspace",
    "Phoenix.TextInput.C65_delete",
    "Phoenix.TextInput.C65_selection",
    "Phoenix.TextInput.C65_replace_partial",
    "Phoenix.TextInput.C65_replace_refuted",
    "Phoenix.TextInput.C65_moves",
    "Phoenix.TextInput.C65_cursor_follows_refuted",
    "Phoenix.TextInput.C65_cursor_follows_at_end_partial",
    "Phoenix.TextInput.C65_cursor_follows_partial",
    "Phoenix.TextInput.C65_typing",
    "Phoenix.TextInput.C65_unfocused"
   ],
   "note": "Text effects of insert, Backspace, Delete, selection deletion, movement, typing are exact for all texts and segmenters. Refuted: cursor after inserting a combining mark mid-text (C65_cursor_follows_refuted) and typing over a selection between two flag letters (C65_replace_refuted); both hold when no clusters fuse."
  },
  {
   "property": "C66",
   "status": "proved",
   "theorems": [
    "Phoenix.Progress.C66_percentage_range",
    "Phoenix.Progress.C66_progress_exact",
    "Phoenix.Progress.C66_progress_frame",
    "Phoenix.Progress.C66_bar_width",
    "Phoenix.Progress.C66_filled_count",
    "Phoenix.Progress.C66_filled_monotone",
    "Phoenix.Progress.C66_empty_and_full",
    "Phoenix.Progress.C66_view",
    "Phoenix.Progress.C66_percent_shown",
    "Phoenix.Progress.C66_settings"
   ],
   "note": "Width, percentage, filled-cell count, monotonicity, extremes and text; 64-bit wrap of Increment(delta) is outside the model."
  },
  {
   "property": "C67",
   "status": "partial",
   "theorems": [
    "Phoenix.Modal.C67_pad_exact",
    "Phoenix.Modal.C67_rows_refuted",
    "Phoenix.Modal.C67_rows_within_partial",
    "Phoenix.Modal.C67_content_visible_partial",
    "Phoenix.Modal.C67_hidden_line_refuted",
    "Phoenix.Modal.C67_title_visible_partial",
    "Phoenix.Modal.C67_buttons_visible",
    "Phoenix.Modal.C67_button_marks",
    "Phoenix.Modal.C67_invisible"
   ],
   "note": "Refuted in general: the box draws height-1 rows and hides the last content line under the button rule; what is shown on each row is characterised exactly."
  },
  {
   "property": "C68",
   "status": "proved",
   "theorems": [
    "Phoenix.Modal.C68_focus_valid",
    "Phoenix.Modal.C68_next_cycles",
    "Phoenix.Modal.C68_next_prev_inverse",
    "Phoenix.Modal.C68_invisible_ignores",
    "Phoenix.Modal.C68_default_keys",
    "Phoenix.Modal.C68_shortcut_first_match",
    "Phoenix.Modal.C68_visibility"
   ],
   "note": ""
  },
  {
   "property": "C69",
   "status": "proved",
   "theorems": [
    "Phoenix.Confirm.C69_focus_valid",
    "Phoenix.Confirm.C69_starts_on_no",
    "Phoenix.Confirm.C69_result_final",
    "Phoenix.Confirm.C69_command_is_result",
    "Phoenix.Confirm.C69_enter",
    "Phoenix.Confirm.C69_escape",
    "Phoenix.Confirm.C69_shortcut",
    "Phoenix.Confirm.C69_move",
    "Phoenix.Confirm.C69_other_ignored",
    "Phoenix.Confirm.C69_builders",
    "Phoenix.Confirm.C69_view_two",
    "Phoenix.Confirm.C69_defaults"
   ],
   "note": ""
  },
  {
   "property": "C70",
   "status": "partial",
   "theorems": [
    "Phoenix.Form.C70_unselected_refuted",
    "Phoenix.Form.C70_duplicate_names_refuted",
    "Phoenix.Form.C70_submit_iff_valid_partial",
    "Phoenix.Form.C70_submit_only_by_enter",
    "Phoenix.Form.C70_builtin_validators",
    "Phoenix.Form.C70_errors_map_partial"
   ],
   "note": "Proved for distinct names and fields exposing a value; refuted for unselected selects and duplicate names."
  },
  {
   "property": "C71",
   "status": "proved",
   "theorems": [
    "Phoenix.Form.C71_focus_valid",
    "Phoenix.Form.C71_tab",
    "Phoenix.Form.C71_tab_cycles",
    "Phoenix.Form.C71_shape_preserved"
   ],
   "note": ""
  },
  {
   "property": "C72",
   "status": "partial",
   "theorems": [
    "Phoenix.Form.C72_refuted",
    "Phoenix.Form.C72_linear_derivation_partial"
   ],
   "note": "Refuted for branching derivations; proved for histories that extend each form at most once, for any append growth policy."
  },
  {
   "property": "C73",
   "status": "proved",
   "theorems": [
    "Phoenix.Core.C73_new",
    "Phoenix.Core.C73_coherent",
    "Phoenix.Core.C73_detect_no_ansi_no_color",
    "Phoenix.Core.C73_no_color",
    "Phoenix.Core.C73_force_color",
    "Phoenix.Core.C73_unix",
    "Phoenix.Core.C73_questions"
   ],
   "note": "unicode.ToLower is a parameter."
  },
  {
   "property": "C74",
   "status": "proved",
   "theorems": [
    "Phoenix.Terminal.C74_alternate",
    "Phoenix.Terminal.C74_effect",
    "Phoenix.Terminal.C74_flags_real",
    "Phoenix.Terminal.C74_restore"
   ],
   "note": "System-call failures leave the terminal as it was; for failures reported after delivery see C113. C74_restore holds also with those and with foreign changes of the tty."
  },
  {
   "property": "C75",
   "status": "partial",
   "theorems": [
    "Phoenix.Render.C75_wide_glyph_refuted"
   ],
   "note": "False of the code (C75_wide_glyph_refuted): the blank continuation cell is written over the glyph."
  },
  {
   "property": "C76",
   "status": "proved",
   "theorems": [
    "Phoenix.Viewport.C76_drag_ends",
    "Phoenix.Viewport.C76_drag",
    "Phoenix.Viewport.C76_wheel"
   ],
   "note": ""
  },
  {
   "property": "C77",
   "status": "proved",
   "theorems": [
    "Phoenix.ListC.C77_nav_inverse",
    "Phoenix.ListC.C77_nav_reaches_all"
   ],
   "note": ""
  },
  {
   "property": "C78",
   "status": "partial",
   "theorems": [
    "Phoenix.Choice.C78_shortcut_refuted",
    "Phoenix.Choice.C78_backspace_refuted",
    "Phoenix.Choice.C78_ascii_partial"
   ],
   "note": "refuted (shortcut letters are not typed; Backspace drops one byte); proved for ASCII without shortcut letters"
  },
  {
   "property": "C79",
   "status": "partial",
   "theorems": [
    "Phoenix.Choice.C79_select_refuted",
    "Phoenix.Choice.C79_multiselect_refuted"
   ],
   "note": "refuted for both components"
  },
  {
   "property": "C80",
   "status": "partial",
   "theorems": [
    "Phoenix.Table.C80_height_refuted",
    "Phoenix.Table.C80_height_partial"
   ],
   "note": "refuted with header (one line too many); bound proved otherwise"
  },
  {
   "property": "C81",
   "status": "partial",
   "theorems": [
    "Phoenix.Table.C81_marker_refuted",
    "Phoenix.Table.C81_marker_partial"
   ],
   "note": "refuted: the marker overwrites the first byte; nothing else changes"
  },
  {
   "property": "C82",
   "status": "partial",
   "theorems": [
    "Phoenix.TextInput.C82_refuted",
    "Phoenix.TextInput.C82_bound_chords_partial"
   ],
   "note": "Refuted: Ctrl+K types k; only the bound chords A/E/U are safe."
  },
  {
   "property": "C83",
   "status": "partial",
   "theorems": [
    "Phoenix.TextInput.C83_no_panic",
    "Phoenix.TextInput.C83_window_partial",
    "Phoenix.TextInput.C83_width_refuted",
    "Phoenix.TextInput.C83_text_refuted"
   ],
   "note": "Never panics (all texts). Window/cursor exact for plain ASCII texts. Refuted: width when text length = width and cursor at end; byte slicing splits non-ASCII characters."
  },
  {
   "property": "C84",
   "status": "partial",
   "theorems": [
    "Phoenix.TextInput.C84_chain",
    "Phoenix.TextInput.C84_length_refuted",
    "Phoenix.TextInput.C84_length_partial",
    "Phoenix.TextInput.C84_isValid",
    "Phoenix.TextInput.C84_verdicts"
   ],
   "note": "Chain and IsValid exact; length validators count UTF-8 bytes, so the character claim is refuted and proved for ASCII."
  },
  {
   "property": "C85",
   "status": "partial",
   "theorems": [
    "Phoenix.Inline.C85_refuted",
    "Phoenix.Inline.C85_retry_partial"
   ],
   "note": "Refuted for partial writes; holds when nothing was written."
  },
  {
   "property": "C86",
   "status": "partial",
   "theorems": [
    "Phoenix.Life.C86_refuted",
    "Phoenix.Life.C86_timeout_refuted",
    "Phoenix.Life.C86_careful_partial"
   ],
   "note": "Refuted: a second Run, or a timed-out stop, makes a goroutine close a closed or nil channel. Proved for executions that start a reader only when none is alive and stop without timeout."
  },
  {
   "property": "C87",
   "status": "partial",
   "theorems": [
    "Phoenix.Mouse.C87_button_partial",
    "Phoenix.Mouse.C87_button_refuted",
    "Phoenix.Mouse.C87_scroll_delta"
   ],
   "note": "Proved for codes below 128; refuted for the extra buttons (codes 128..)."
  },
  {
   "property": "C88",
   "status": "partial",
   "theorems": [
    "Phoenix.Mouse.C88_new",
    "Phoenix.Mouse.C88_new_size",
    "Phoenix.Mouse.C88_overlap_partial",
    "Phoenix.Mouse.C88_overlap_symmetric",
    "Phoenix.Mouse.C88_overlap_refuted",
    "Phoenix.Mouse.C88_contains"
   ],
   "note": "Proved for boxes with a cell; refuted for empty boxes."
  },
  {
   "property": "C89",
   "status": "proved",
   "theorems": [
    "Phoenix.Layout.C89_items_visible"
   ],
   "note": "All combinations of direction, justification, alignment."
  },
  {
   "property": "C90",
   "status": "proved",
   "theorems": [
    "Phoenix.Style.C90_foreground",
    "Phoenix.Style.C90_background"
   ],
   "note": ""
  },
  {
   "property": "C91",
   "status": "partial",
   "theorems": [
    "Phoenix.Style.C91_border_partial",
    "Phoenix.Style.C91_border_near_partial",
    "Phoenix.Style.C91_border16",
    "Phoenix.Style.C91_same_colour_refuted",
    "Phoenix.Style.C91_dark_red_refuted"
   ],
   "note": "Sequences are valid and ranges right; equality with the text colour is refuted (Color256(67), dark red)."
  },
  {
   "property": "C92",
   "status": "partial",
   "theorems": [
    "Phoenix.Style.C92_align_needs_size",
    "Phoenix.Style.C92_box_partial",
    "Phoenix.Style.C92_content_partial",
    "Phoenix.Style.C92_width_refuted",
    "Phoenix.Style.C92_multiline_refuted"
   ],
   "note": "Proved for styles with width, height and alignment (and for unaligned rectangular content); 'Width alone' is refuted: ignored without alignment, and applied to the whole text instead of each line without a height."
  },
  {
   "property": "C93",
   "status": "partial",
   "theorems": [
    "Phoenix.Style.C93_text_partial",
    "Phoenix.Style.C93_refuted"
   ],
   "note": "Proved except for border colour together with a vertical margin, where the claim is refuted (blank margin lines count the colour codes)."
  },
  {
   "property": "C94",
   "status": "partial",
   "theorems": [
    "Phoenix.Style.C94_constraints_partial",
    "Phoenix.Style.C94_max_refuted",
    "Phoenix.Style.C94_clamp"
   ],
   "note": "Exact characterisation proved; as stated refuted: content beyond the maximum is returned whole and unstyled."
  },
  {
   "property": "C95",
   "status": "partial",
   "theorems": [
    "Phoenix.Style.C95_merge_partial",
    "Phoenix.Style.C95_assoc",
    "Phoenix.Style.C95_idem",
    "Phoenix.Style.C95_override_refuted",
    "Phoenix.Style.C95_white_on_white_refuted",
    "Phoenix.Style.C95_override_set_partial"
   ],
   "note": "Associativity, idempotence and field-wise rule proved; 'every override value wins' refuted (black means unset: light + high contrast = white on white)."
  },
  {
   "property": "C96",
   "status": "proved",
   "theorems": [
    "Phoenix.Style.C96_set",
    "Phoenix.Style.C96_history",
    "Phoenix.Style.C96_ignored",
    "Phoenix.Style.C96_names",
    "Phoenix.Style.C96_new",
    "Phoenix.Style.C96_presets_readable",
    "Phoenix.Style.C96_presets_valid"
   ],
   "note": ""
  },
  {
   "property": "C97",
   "status": "partial",
   "theorems": [
    "Phoenix.Clip.C97_read_back_partial",
    "Phoenix.Clip.C97_ssh_refuted",
    "Phoenix.Clip.C97_builder_reads_fail",
    "Phoenix.Clip.C97_no_escape_elsewhere"
   ],
   "note": "Proved for a local session with a native tool; refuted in SSH sessions (OSC 52 takes the write and cannot read) and for the default Builder in any known terminal."
  },
  {
   "property": "C98",
   "status": "proved",
   "theorems": [
    "Phoenix.Clip.C98_restore_writes_entry",
    "Phoenix.Clip.C98_restore_unknown",
    "Phoenix.Clip.C98_entries_nonempty"
   ],
   "note": ""
  },
  {
   "property": "C99",
   "status": "proved",
   "theorems": [
    "Phoenix.Clip.C99_detect_exact"
   ],
   "note": ""
  },
  {
   "property": "C100",
   "status": "partial",
   "theorems": [
    "Phoenix.Clip.C100_getAll_reverse_partial",
    "Phoenix.Clip.C100_ties_refuted"
   ],
   "note": "Proved when clock readings strictly increase; refuted in general (sort.Slice is unstable and compares only timestamps)."
  },
  {
   "property": "C101",
   "status": "partial",
   "theorems": [
    "Phoenix.Progress.C101_getFrame_total",
    "Phoenix.Progress.C101_spinner_cycles_partial",
    "Phoenix.Progress.C101_style_wellformed",
    "Phoenix.Progress.C101_custom_refuted",
    "Phoenix.Progress.C101_custom_ignores_arguments",
    "Phoenix.Progress.C101_tick_chain",
    "Phoenix.Progress.C101_rate",
    "Phoenix.Progress.C101_dots",
    "Phoenix.Progress.C101_view"
   ],
   "note": "Cycle proved for every style; refuted for NewSpinnerCustom, which ignores its arguments."
  },
  {
   "property": "C102",
   "status": "partial",
   "theorems": [
    "Phoenix.Progress.C102_pending_growth",
    "Phoenix.Progress.C102_single_partial",
    "Phoenix.Progress.C102_refuted"
   ],
   "note": "Exact growth k^(g+1) proved; true for one spinner, refuted for two."
  },
  {
   "property": "C103",
   "status": "partial",
   "theorems": [
    "Phoenix.Modal.C103_refuted",
    "Phoenix.Modal.C103_ascii_rows_partial"
   ],
   "note": "Proved for ASCII text; refuted for non-ASCII."
  },
  {
   "property": "C104",
   "status": "partial",
   "theorems": [
    "Phoenix.Modal.C104_refuted",
    "Phoenix.Modal.C104_wide_enough_partial",
    "Phoenix.Modal.C104_narrow_panics"
   ],
   "note": "Proved for width >= 4; refuted below."
  },
  {
   "property": "C105",
   "status": "partial",
   "theorems": [
    "Phoenix.Modal.C105_centered_margins",
    "Phoenix.Modal.C105_refuted",
    "Phoenix.Modal.C105_visible_partial",
    "Phoenix.Modal.C105_explicit_position",
    "Phoenix.Modal.C105_settings"
   ],
   "note": "Proved while visible; refuted for size messages arriving while hidden."
  },
  {
   "property": "C106",
   "status": "partial",
   "theorems": [
    "Phoenix.Confirm.C106_refuted",
    "Phoenix.Confirm.C106_labels_partial"
   ],
   "note": "Proved for labels other than the reserved words; refuted for an affirmative button labelled Cancel."
  },
  {
   "property": "C107",
   "status": "partial",
   "theorems": [
    "Phoenix.Confirm.C107_refuted",
    "Phoenix.Confirm.C107_ascii_char_partial",
    "Phoenix.Confirm.C107_ascii_partial"
   ],
   "note": "Proved for ASCII; refuted for non-ASCII first characters."
  },
  {
   "property": "C108",
   "status": "partial",
   "theorems": [
    "Phoenix.Form.C108_refuted",
    "Phoenix.Form.C108_library_inert",
    "Phoenix.Form.C108_delegation_partial"
   ],
   "note": "Refuted: no library component has the Update signature the form asserts; delegation proved for models that do."
  },
  {
   "property": "C109",
   "status": "partial",
   "theorems": [
    "Phoenix.Form.C109_refuted",
    "Phoenix.Form.C109_after_enter_partial"
   ],
   "note": "Refuted for untested touched fields; proved right after Enter."
  },
  {
   "property": "C110",
   "status": "proved",
   "theorems": [
    "Phoenix.Form.C110_value_by_name",
    "Phoenix.Form.C110_values_map"
   ],
   "note": ""
  },
  {
   "property": "C111",
   "status": "partial",
   "theorems": [
    "Phoenix.Core.C111_autodetect",
    "Phoenix.Core.C111_detector_darwin_refuted"
   ],
   "note": "Holds for AutoDetect on Linux and macOS (C111_autodetect); refuted for the detector given platform darwin, which claims ANSI, mouse, alt screen and cursor control for TERM=dumb."
  },
  {
   "property": "C112",
   "status": "partial",
   "theorems": [
    "Phoenix.Core.C112_detector",
    "Phoenix.Core.C112_autodetect_refuted",
    "Phoenix.Core.C112_autodetect_mac_is_linux_partial"
   ],
   "note": "Holds for the detector given platform darwin; refuted for the public AutoDetect, because the build-tag platform string on macOS is unix."
  },
  {
   "property": "C113",
   "status": "partial",
   "theorems": [
    "Phoenix.Terminal.C113_error_after_delivery_refuted",
    "Phoenix.Terminal.C113_recovery_partial"
   ],
   "note": "Refuted; C113_recovery_partial gives the way back."
  },
  {
   "property": "C114",
   "status": "proved",
   "theorems": [
    "Phoenix.Terminal.C114_set_position",
    "Phoenix.Terminal.C114_moves",
    "Phoenix.Terminal.C114_erase",
    "Phoenix.Terminal.C114_clear_lines",
    "Phoenix.Terminal.C114_cursor_modes",
    "Phoenix.Terminal.C114_write_at"
   ],
   "note": "Against a VT specification written in AnsiModel.lean (one column per character); non-negative coordinates for SetCursorPosition; WriteAt for printable text that fits on the row."
  },
  {
   "property": "C115",
   "status": "proved",
   "theorems": [
    "Phoenix.Terminal.C115_same_screen",
    "Phoenix.Terminal.C115_styles"
   ],
   "note": ""
  },
  {
   "property": "C116",
   "status": "partial",
   "theorems": [
    "Phoenix.Terminal.C116_windows_clear_lines",
    "Phoenix.Terminal.C116_ansi_clear_lines_refuted",
    "Phoenix.Terminal.C116_clear_line_cursor_refuted",
    "Phoenix.Terminal.C116_save_stack_refuted",
    "Phoenix.Terminal.C116_out_of_range_refuted",
    "Phoenix.Terminal.C116_wraps_partial",
    "Phoenix.Terminal.C116_save_restore_partial"
   ],
   "note": "Refuted clauses for the ANSI and Windows implementations; the Windows ClearLines contract is proved."
  },
  {
   "property": "C117",
   "status": "partial",
   "theorems": [
    "Phoenix.Terminal.C117_ansi_restores",
    "Phoenix.Terminal.C117_windows_refuted",
    "Phoenix.Terminal.C117_windows_write_invisible_partial",
    "Phoenix.Terminal.C117_windows_restores_partial"
   ],
   "note": "Proved for the ANSI implementation; refuted for the Windows console, whose Write always goes to the original buffer."
  },
  {
   "property": "C118",
   "status": "proved",
   "theorems": [
    "Phoenix.Core.C118_position",
    "Phoenix.Core.C118_position_exact",
    "Phoenix.Core.C118_size",
    "Phoenix.Core.C118_cell",
    "Phoenix.Core.C118_terminal",
    "Phoenix.Core.C118_rawmode"
   ],
   "note": ""
  },
  {
   "property": "C119",
   "status": "proved",
   "theorems": [
    "Phoenix.Core.C119_width",
    "Phoenix.Core.C119_additive"
   ],
   "note": ""
  },
  {
   "property": "C120",
   "status": "proved",
   "theorems": [
    "Phoenix.Terminal.C120_call_count",
    "Phoenix.Terminal.C120_same_modes",
    "Phoenix.Terminal.C120_same_errors"
   ],
   "note": ""
  },
  {
   "property": "C121",
   "status": "proved",
   "theorems": [
    "Phoenix.Terminal.C121_flags_real",
    "Phoenix.Terminal.C121_alternate",
    "Phoenix.Terminal.C121_no_leak",
    "Phoenix.Terminal.C121_raw_bits"
   ],
   "note": ""
  },
  {
   "property": "C122",
   "status": "proved",
   "theorems": [
    "Phoenix.TextArea.C122_table",
    "Phoenix.TextArea.C122_characters",
    "Phoenix.TextArea.C122_nothing_else",
    "Phoenix.TextArea.C122_effects"
   ],
   "note": "The key binding table is complete for messages with at most one of Ctrl/Alt; Ctrl+Alt combinations fall through to the Alt table (modelled, not part of the claim)."
  },
  {
   "property": "C123",
   "status": "proved",
   "theorems": [
    "Phoenix.Viewport.C123_key_table",
    "Phoenix.Viewport.C123_names"
   ],
   "note": ""
  },
  {
   "property": "C124",
   "status": "proved",
   "theorems": [
    "Phoenix.Viewport.C124_content"
   ],
   "note": ""
  },
  {
   "property": "C125",
   "status": "proved",
   "theorems": [
    "Phoenix.ListC.C125_focus_keys",
    "Phoenix.ListC.C125_selection_keys",
    "Phoenix.ListC.C125_other_keys",
    "Phoenix.ListC.C125_new_list"
   ],
   "note": ""
  },
  {
   "property": "C126",
   "status": "partial",
   "theorems": [
    "Phoenix.ListC.C126_typing_refuted",
    "Phoenix.ListC.C126_last_character_partial"
   ],
   "note": "Full statement refuted (C126_typing_refuted): each character replaces the query. Proved: the query is the last typed character and exactly the matching items are shown."
  },
  {
   "property": "C127",
   "status": "proved",
   "theorems": [
    "Phoenix.Choice.C127_cursor_keys",
    "Phoenix.Choice.C127_bulk_keys",
    "Phoenix.Choice.C127_other_keys",
    "Phoenix.Choice.C127_filter_cursor",
    "Phoenix.Choice.C127_config"
   ],
   "note": ""
  },
  {
   "property": "C128",
   "status": "proved",
   "theorems": [
    "Phoenix.Choice.C128_cursor_keys",
    "Phoenix.Choice.C128_other_keys",
    "Phoenix.Choice.C128_filter_cursor",
    "Phoenix.Choice.C128_new",
    "Phoenix.Choice.C128_config"
   ],
   "note": ""
  },
  {
   "property": "C129",
   "status": "partial",
   "theorems": [
    "Phoenix.Choice.C129_height_refuted",
    "Phoenix.Choice.C129_filter_refuted",
    "Phoenix.Choice.C129_options_partial",
    "Phoenix.Choice.C129_render_lost"
   ],
   "note": "Refuted for height and filter function (the domain model is rebuilt from scratch): C129_height_refuted, C129_filter_refuted. Proved: filterability and limits survive, everything else restarts, and settings made after the options are kept."
  },
  {
   "property": "C130",
   "status": "proved",
   "theorems": [
    "Phoenix.Table.C130_key_table",
    "Phoenix.Table.C130_config"
   ],
   "note": ""
  },
  {
   "property": "C131",
   "status": "proved",
   "theorems": [
    "Phoenix.Table.C131_cell_content",
    "Phoenix.Table.C131_printed"
   ],
   "note": ""
  },
  {
   "property": "C132",
   "status": "proved",
   "theorems": [
    "Phoenix.Table.C132_rows",
    "Phoenix.Table.C132_header"
   ],
   "note": ""
  },
  {
   "property": "C133",
   "status": "proved",
   "theorems": [
    "Phoenix.TextInput.C133_key_table",
    "Phoenix.TextInput.C133_moves_drop_selection"
   ],
   "note": ""
  },
  {
   "property": "C134",
   "status": "proved",
   "theorems": [
    "Phoenix.TextInput.C134_config"
   ],
   "note": ""
  },
  {
   "property": "C135",
   "status": "proved",
   "theorems": [
    "Phoenix.Program.C135_commands_run"
   ],
   "note": ""
  },
  {
   "property": "C136",
   "status": "partial",
   "theorems": [
    "Phoenix.Loops.C136_refuted",
    "Phoenix.Loops.C136_timeout",
    "Phoenix.Loops.C136_no_timeout_partial",
    "Phoenix.Loops.C136_stop_partial"
   ],
   "note": "The full statement is refuted (C136_refuted): a Stop that times out marks the program as stopped while its loop lives. Proved when no Stop times out."
  },
  {
   "property": "C137",
   "status": "partial",
   "theorems": [
    "Phoenix.Program.C137_runs_continue_partial",
    "Phoenix.Program.C137_next_run",
    "Phoenix.Program.C137_refuted",
    "Phoenix.Program.C137_stale_quit_refuted"
   ],
   "note": "The full statement is refuted (C137_refuted, C137_stale_quit_refuted): messages left in the queue at the end of a Run are handled by the next Run. Proved: order, no loss or duplication, the model carries over."
  },
  {
   "property": "C138",
   "status": "partial",
   "theorems": [
    "Phoenix.Suspend.C138_run_reads",
    "Phoenix.Suspend.C138_run",
    "Phoenix.Suspend.C138_start_refuted",
    "Phoenix.Suspend.C138_start_partial",
    "Phoenix.Suspend.C138_cleanup"
   ],
   "note": "Proved for Run (C138_run) and for Start whenever raw mode was entered; refuted for Start when raw mode cannot be entered (C138_start_refuted)."
  },
  {
   "property": "C139",
   "status": "proved",
   "theorems": [
    "Phoenix.Inline.C139_strip",
    "Phoenix.Inline.C139_width",
    "Phoenix.Inline.C139_rune"
   ],
   "note": ""
  },
  {
   "property": "C140",
   "status": "proved",
   "theorems": [
    "Phoenix.Public.C140_update_gets_what_was_sent",
    "Phoenix.Public.C140_no_confusion",
    "Phoenix.Public.C140_constants_agree",
    "Phoenix.Public.C140_keys_arrive",
    "Phoenix.Public.C140_mouse_arrives",
    "Phoenix.Public.C140_size_valid"
   ],
   "note": "Every message and application; constants compared name by name."
  },
  {
   "property": "C141",
   "status": "partial",
   "theorems": [
    "Phoenix.Public.C141_names_identify_keys_partial",
    "Phoenix.Public.C141_arrow_refuted",
    "Phoenix.Public.C141_documented_names"
   ],
   "note": "Refuted for the four arrow characters, which share their name with the arrow keys (C141_arrow_refuted); proved otherwise, for all runes and modifiers."
  },
  {
   "property": "C142",
   "status": "partial",
   "theorems": [
    "Phoenix.Tty.C142_owner_partial",
    "Phoenix.Tty.C142_transfer_alone_refuted",
    "Phoenix.Tty.C142_create_alone_refuted",
    "Phoenix.Tty.C142_returned",
    "Phoenix.Tty.C142_resumed",
    "Phoenix.Tty.C142_no_terminal",
    "Phoenix.Tty.C142_signal",
    "Phoenix.Tty.C142_windows_partial",
    "Phoenix.Tty.C142_windows_refuted"
   ],
   "note": "Refuted: TransferForeground without CreateProcessGroup never runs the command; CreateProcessGroup alone runs it in the background; Windows loses the virtual-terminal-input bit. Proved: ownership with both or neither option, return of the terminal, resumption, signal disposition."
  },
  {
   "property": "C143",
   "status": "proved",
   "theorems": [
    "Phoenix.Clip.Win.C143_standard_units",
    "Phoenix.Clip.Win.C143_write_read",
    "Phoenix.Clip.Win.C143_read_foreign",
    "Phoenix.Clip.Win.C143_cut_at_nul"
   ],
   "note": "Text as list of Unicode scalar values (a Go string with invalid UTF-8 is not represented); texts with NUL are cut there (C143_cut_at_nul)."
  },
  {
   "property": "C144",
   "status": "partial",
   "theorems": [
    "Phoenix.Clip.Win.C144_ascii_exact_partial",
    "Phoenix.Clip.Win.C144_overread_refuted",
    "Phoenix.Clip.Win.C144_leak_refuted"
   ],
   "note": "True for ASCII text; for any text with a non-ASCII character Write copies len(text) bytes' worth of 16-bit units, more than the buffer holds, so foreign process memory ends up in the clipboard (C144_overread_refuted, C144_leak_refuted)."
  },
  {
   "property": "C145",
   "status": "partial",
   "theorems": [
    "Phoenix.Clip.Win.C145_released",
    "Phoenix.Clip.Win.C145_success",
    "Phoenix.Clip.Win.C145_success_state",
    "Phoenix.Clip.Win.C145_failure_partial",
    "Phoenix.Clip.Win.C145_leak_refuted",
    "Phoenix.Clip.Win.C145_lost_refuted"
   ],
   "note": "Closing and unlocking proved on every path; the global block leaks when EmptyClipboard or SetClipboardData fails, and the former content is lost when SetClipboardData fails."
  },
  {
   "property": "C146",
   "status": "partial",
   "theorems": [
    "Phoenix.Clip.C146_html_to_rtf",
    "Phoenix.Clip.C146_html_to_rtf_read_partial",
    "Phoenix.Clip.C146_rtf_to_html_partial",
    "Phoenix.Clip.C146_there_and_back_partial",
    "Phoenix.Clip.C146_errors",
    "Phoenix.Clip.C146_loss_refuted"
   ],
   "note": "HTML to RTF proved for all texts at document level; reading the RTF (and RTF to HTML) only for texts RTF does not lose (see C49)."
  },
  {
   "property": "C147",
   "status": "partial",
   "theorems": [
    "Phoenix.Layout.C147_last_call_wins",
    "Phoenix.Layout.C147_new",
    "Phoenix.Layout.C147_panics",
    "Phoenix.Layout.C147_align_refuted"
   ],
   "note": "Everything but the independence of the two alignments, which the code does not have: AlignMiddle resets the horizontal alignment (C147_align_refuted)."
  },
  {
   "property": "C148",
   "status": "proved",
   "theorems": [
    "Phoenix.Layout.C148_items_step",
    "Phoenix.Layout.C148_snapshot",
    "Phoenix.Layout.C148_new",
    "Phoenix.Layout.C148_settings",
    "Phoenix.Layout.C148_remove"
   ],
   "note": "Programs over numbered box and flex variables; Flex.Width/Height, which nothing reads, are left out."
  },
  {
   "property": "C149",
   "status": "proved",
   "theorems": [
    "Phoenix.Layout.C149_walk",
    "Phoenix.Layout.C149_preorder",
    "Phoenix.Layout.C149_depths",
    "Phoenix.Layout.C149_new",
    "Phoenix.Layout.C149_edit",
    "Phoenix.Layout.C149_count_add",
    "Phoenix.Layout.C149_layout"
   ],
   "note": "Trees as values: adding a node to itself (a panic in Go) is not representable."
  },
  {
   "property": "C150",
   "status": "partial",
   "theorems": [
    "Phoenix.Layout.C150_picture",
    "Phoenix.Layout.C150_totalSize_partial",
    "Phoenix.Layout.C150_totalSize_refuted"
   ],
   "note": "Picture proved for every cell; TotalSize is two columns short for bordered boxes (C150_totalSize_refuted)."
  },
  {
   "property": "C151",
   "status": "partial",
   "theorems": [
    "Phoenix.Mouse.C151_sgr_partial",
    "Phoenix.Mouse.C151_sgr_refuted",
    "Phoenix.Mouse.C151_urxvt",
    "Phoenix.Mouse.C151_x10",
    "Phoenix.Mouse.C151_garbage_ignored"
   ],
   "note": "SGR characterisation refuted by a stray m before the final M (accepted as a press); proved for all other bodies. URxvt, X10 and 'garbage changes nothing' proved."
  },
  {
   "property": "C152",
   "status": "proved",
   "theorems": [
    "Phoenix.Mouse.C152_reset_forgets",
    "Phoenix.Mouse.C152_config",
    "Phoenix.Mouse.C152_hover_reset"
   ],
   "note": "Behavioural equality with a new processor for all histories."
  },
  {
   "property": "C153",
   "status": "proved",
   "theorems": [
    "Phoenix.Form.C153_field_flags",
    "Phoenix.Form.C153_form_flags",
    "Phoenix.Form.C153_errors_only_by_enter",
    "Phoenix.Form.C153_init",
    "Phoenix.Form.C153_reset"
   ],
   "note": "Exact history characterisation by induction from the end."
  },
  {
   "property": "C154",
   "status": "proved",
   "theorems": [
    "Phoenix.Form.C154_keys"
   ],
   "note": ""
  },
  {
   "property": "C155",
   "status": "partial",
   "theorems": [
    "Phoenix.Form.C155_view_partial",
    "Phoenix.Form.C155_refuted",
    "Phoenix.Form.C155_one_focus"
   ],
   "note": "Proved for one-byte titles; refuted otherwise (one dash per byte of the title)."
  },
  {
   "property": "C156",
   "status": "partial",
   "theorems": [
    "Phoenix.Form.C156_email",
    "Phoenix.Form.C156_email_bytes",
    "Phoenix.Form.C156_pattern",
    "Phoenix.Form.C156_characters_refuted"
   ],
   "note": "Email and Pattern characterised exactly; lengths refuted: they count bytes though the message says characters (byte law is C70_builtin_validators)."
  },
  {
   "property": "C157",
   "status": "proved",
   "theorems": [
    "Phoenix.Core.C157_autodetect",
    "Phoenix.Core.C157_windows"
   ],
   "note": "unicode.ToLower is a parameter."
  },
  {
   "property": "C158",
   "status": "partial",
   "theorems": [
    "Phoenix.Style.C158_last_wins",
    "Phoenix.Style.C158_spacing",
    "Phoenix.Style.C158_sizes",
    "Phoenix.Style.C158_alignment",
    "Phoenix.Style.C158_set_at_all",
    "Phoenix.Style.C158_sides_partial",
    "Phoenix.Style.C158_accepted",
    "Phoenix.Style.C158_order_refuted",
    "Phoenix.Style.C158_sides_come_back_refuted",
    "Phoenix.Style.C158_constructors"
   ],
   "note": "Proved for colours, border characters, decorations, depth, padding, margin, sizes and alignment, with the exact law for border sides. False for border sides: choosing a border while all sides are off switches them all on, so New().BorderTop(false).Border(b) draws the top side (C158_order_refuted)."
  },
  {
   "property": "C159",
   "status": "partial",
   "theorems": [
    "Phoenix.Shutdown.C159_bounded",
    "Phoenix.Shutdown.C159_pipe_partial",
    "Phoenix.Shutdown.C159_pipe_returns_partial",
    "Phoenix.Shutdown.C159_refuted",
    "Phoenix.Shutdown.C159_fallback_hangs_refuted",
    "Phoenix.Shutdown.C159_fallback_wakes_partial"
   ],
   "note": "Proved with the pipe (at most six steps, nobody needs to type) and without it on a platform whose unblock wakes the Read; refuted without a pipe elsewhere: WaitForShutdown waits for the next key (C159_refuted, C159_fallback_hangs_refuted)."
  },
  {
   "property": "C160",
   "status": "partial",
   "theorems": [
    "Phoenix.Shutdown.C160_refuted",
    "Phoenix.Shutdown.C160_key_lost_refuted",
    "Phoenix.Shutdown.C160_partial",
    "Phoenix.Shutdown.C160_fallback_partial",
    "Phoenix.Shutdown.C160_relay_can_end_partial"
   ],
   "note": "Proved whenever the wait for the relay did not time out, and always without a pipe; refuted when it did (50 ms, e.g. a stream without deadlines): the surviving relay swallows the next key (C160_refuted, C160_key_lost_refuted)."
  },
  {
   "property": "C161",
   "status": "partial",
   "theorems": [
    "Phoenix.TextArea.C161_options",
    "Phoenix.TextArea.C161_no_panic",
    "Phoenix.TextArea.C161_picture",
    "Phoenix.TextArea.C161_height",
    "Phoenix.TextArea.C161_empty",
    "Phoenix.TextArea.C161_one_cursor",
    "Phoenix.TextArea.C161_width_refuted",
    "Phoenix.TextArea.C161_cursor_refuted",
    "Phoenix.TextArea.C161_negative_height_refuted",
    "Phoenix.TextArea.C161_line_number"
   ],
   "note": "Picture, options, height, one cursor and absence of panics (height >= 0) proved for all histories; refuted: Width and Wrap are never applied, an empty TextArea shows no cursor, a negative height panics."
  },
  {
   "property": "C162",
   "status": "proved",
   "theorems": [
    "Phoenix.TextArea.C162_parts"
   ],
   "note": "For every history."
  },
  {
   "property": "C163",
   "status": "partial",
   "theorems": [
    "Phoenix.TextArea.C163_refuted",
    "Phoenix.TextArea.C163_ignored_partial"
   ],
   "note": "Refuted: nothing reads the limit; C163_ignored_partial: every typed character is inserted whatever the limit."
  },
  {
   "property": "C164",
   "status": "partial",
   "theorems": [
    "Phoenix.Terminal.C164_refuted",
    "Phoenix.Terminal.C164_partial"
   ],
   "note": "Refuted (rxvt-256color): only three TERM values count. The exact rule and 'never more than documented' proved."
  },
  {
   "property": "C165",
   "status": "partial",
   "theorems": [
    "Phoenix.Terminal.C165_no_color_refuted",
    "Phoenix.Terminal.C165_refuted",
    "Phoenix.Terminal.C165_term_program_refuted",
    "Phoenix.Terminal.C165_partial"
   ],
   "note": "Refuted both ways (NO_COLOR; TERM_PROGRAM=iTerm.app); proved when only TERM and COLORTERM speak."
  },
  {
   "property": "C166",
   "status": "proved",
   "theorems": [
    "Phoenix.Choice.C166_select_view",
    "Phoenix.Choice.C166_select_default",
    "Phoenix.Choice.C166_select_marker"
   ],
   "note": "Lines and render arguments for every history; custom render functions included (Options resets them, see C129_render_lost)."
  },
  {
   "property": "C167",
   "status": "partial",
   "theorems": [
    "Phoenix.Choice.C167_multiselect_view",
    "Phoenix.Choice.C167_multiselect_default",
    "Phoenix.Choice.C167_multiselect_marker",
    "Phoenix.Choice.C167_counter_partial",
    "Phoenix.Choice.C167_counter_refuted"
   ],
   "note": "Screen layout and check marks proved for distinct options; the counter counts indices passed to Selected that do not exist (C167_counter_refuted)."
  },
  {
   "property": "C168",
   "status": "partial",
   "theorems": [
    "Phoenix.Choice.C168_default_filter",
    "Phoenix.Choice.C168_multiselect_typing",
    "Phoenix.Choice.C168_narrows",
    "Phoenix.Choice.C168_select_typing",
    "Phoenix.Choice.C168_refuted"
   ],
   "note": "Proved for texts without the bound letters (k j g G, and a n in MultiSelect), which run commands instead (C168_refuted)."
  },
  {
   "property": "C169",
   "status": "partial",
   "theorems": [
    "Phoenix.ListC.C169_list_view_partial",
    "Phoenix.ListC.C169_mark_refuted",
    "Phoenix.ListC.C169_mark_partial"
   ],
   "note": "Layout proved for non-negative heights and no Filter call under an active query (C51); the focus mark replaces the selection mark, so the screen does not show whether the focused item is selected (C169_mark_refuted)."
  },
  {
   "property": "C170",
   "status": "proved",
   "theorems": [
    "Phoenix.Inline.C170_inline_screen",
    "Phoenix.Inline.C170_no_scroll"
   ],
   "note": "C170_inline_screen and C170_no_scroll on a character-level terminal (scrollback, pending wrap, wide/combining characters, abstract pen, escape parser reading the renderer's bytes). Terminal not modelled: tabs/control characters, other CSI, reflow on resize."
  },
  {
   "property": "C171",
   "status": "partial",
   "theorems": [
    "Phoenix.Inline.C171_last_column_refuted",
    "Phoenix.Inline.C171_last_column_partial",
    "Phoenix.Inline.C171_rows_partial"
   ],
   "note": "The code refutes it (C171_last_column_refuted): ESC[K is written while the cursor is in the pending-wrap state on the last column and erases it, so every full-width or truncated line loses its last column. C171_last_column_partial and C171_rows_partial give exactly what is shown."
  },
  {
   "property": "C172",
   "status": "partial",
   "theorems": [
    "Phoenix.Inline.C172_leak_refuted",
    "Phoenix.Inline.C172_no_leak_partial"
   ],
   "note": "The code refutes it (C172_leak_refuted): truncateLine drops the trailing reset of a line that is too wide. C172_no_leak_partial: it holds when no line is wider than the terminal."
  },
  {
   "property": "C173",
   "status": "proved",
   "theorems": [
    "Phoenix.Clip.C173_chain",
    "Phoenix.Clip.C173_build",
    "Phoenix.Clip.C173_custom_first"
   ],
   "note": "Custom providers are arbitrary; order, defaults, errors and routing."
  },
  {
   "property": "C174",
   "status": "proved",
   "theorems": [
    "Phoenix.Clip.C174_choice",
    "Phoenix.Clip.C174_place"
   ],
   "note": "Linux tools; macOS and Windows have one native provider (C143)."
  },
  {
   "property": "C175",
   "status": "partial",
   "theorems": [
    "Phoenix.Clip.C175_fallback_refuted",
    "Phoenix.Clip.C175_wayland_tools_refuted",
    "Phoenix.Clip.C175_exact_partial"
   ],
   "note": "Refuted (C175_fallback_refuted, C175_wayland_tools_refuted): the first available provider is asked and no other; availability means installed, not usable. C175_exact_partial: exact success condition outside SSH."
  },
  {
   "property": "C176",
   "status": "partial",
   "theorems": [
    "Phoenix.Clip.C176_success_partial",
    "Phoenix.Clip.C176_native_partial",
    "Phoenix.Clip.C176_sync_refuted",
    "Phoenix.Clip.C176_refuted"
   ],
   "note": "Success implies delivery, and native failures change nothing; refuted for OSC 52: the fsync after the write fails on every Linux terminal, so Write reports an error (and history records nothing) although the terminal received the text (C176_sync_refuted)."
  },
  {
   "property": "C177",
   "status": "proved",
   "theorems": [
    "Phoenix.Clip.C177_one_clipboard",
    "Phoenix.Clip.C177_late"
   ],
   "note": "All interleavings with changes of the outside world."
  },
  {
   "property": "C178",
   "status": "partial",
   "theorems": [
    "Phoenix.Render.C178_start_refuted",
    "Phoenix.Render.C178_blank_corner_partial"
   ],
   "note": "Refuted in general (C178_start_refuted): the writer starts by believing the cursor is at (0,0), so the home move of Clear is suppressed and a first frame that draws in the top left corner prints wherever the cursor happens to be. Proved (C178_blank_corner_partial): if the first drawn frame leaves the top left corner blank (and draws something), the picture is right for every later history from any starting cursor and screen."
  },
  {
   "property": "C179",
   "status": "proved",
   "theorems": [
    "Phoenix.Render.C179_wire_picture",
    "Phoenix.Render.C179_wire_style",
    "Phoenix.Render.C179_wire_complete"
   ],
   "note": "Byte-level, end to end: io model of Writer/Renderer through bufio.Writer, decoded by an independent UTF-8/ECMA-48 terminal. Styles under the hypothesis of C14 (one common attribute set), control characters in cells are C180."
  },
  {
   "property": "C180",
   "status": "partial",
   "theorems": [
    "Phoenix.Render.C180_control_refuted",
    "Phoenix.Render.C180_only_controls_partial"
   ],
   "note": "Refuted (C180_control_refuted): a line feed in a cell moves the terminal cursor while the renderer's tracked cursor stays, so the next frame is drawn a row too low; ESC followed by c in the next frame resets the terminal (example). Proved: exactly the non-control characters are printed as themselves (C180_only_controls_partial), and with those alone the picture is right (C179)."
  },
  {
   "property": "C181",
   "status": "proved",
   "theorems": [
    "Phoenix.Render.C181_delivered",
    "Phoenix.Render.C181_nil_means_delivered",
    "Phoenix.Render.C181_prefix",
    "Phoenix.Render.C181_close"
   ],
   "note": "bufio.Writer (WriteString, WriteByte, WriteRune, Flush, sticky error, direct StringWriter path) is modelled from the Go standard library; refinement of the failure-free renderer by induction over calls."
  },
  {
   "property": "C182",
   "status": "partial",
   "theorems": [
    "Phoenix.Render.C182_nil_refuted",
    "Phoenix.Render.C182_dead",
    "Phoenix.Render.C182_reported_partial"
   ],
   "note": "Refuted: after a failed Resize a Render of a blank buffer returns nil with the old frame on the screen (C182_nil_refuted); and one failed write is final: bufio's error is sticky and nothing resets it, so no later call reaches the device (C182_dead). Proved: after an error every call that has something to write returns an error (C182_reported_partial)."
  },
  {
   "property": "C183",
   "status": "partial",
   "theorems": [
    "Phoenix.Render.Pool.C183_size_partial",
    "Phoenix.Render.Pool.C183_stale_size_refuted",
    "Phoenix.Render.Pool.C183_render_size_refuted",
    "Phoenix.Render.Pool.C183_blank_partial",
    "Phoenix.Render.Pool.C183_last_size_partial"
   ],
   "note": "Blank: proved for every schedule (C183_blank_partial). Size: refuted after Resize, which leaves old-size buffers in the pool (C183_stale_size_refuted), and after rendering a buffer of another size, which changes Width() but not the pool's New (C183_render_size_refuted); proved as long as nothing changes the size (C183_size_partial)."
  },
  {
   "property": "C184",
   "status": "partial",
   "theorems": [
    "Phoenix.Render.Pool.C184_double_release_refuted",
    "Phoenix.Render.Pool.C184_exclusive_partial"
   ],
   "note": "Refuted: a second Release of the same buffer puts it into the pool twice and two later callers share its cells (C184_double_release_refuted). Proved for callers that release and use only buffers they own (C184_exclusive_partial)."
  },
  {
   "property": "C185",
   "status": "proved",
   "theorems": [
    "Phoenix.Screen.C185_program_screen",
    "Phoenix.Screen.C185_fixed_height"
   ],
   "note": "End-to-end: event loop LTS + inline renderer + terminal. Suspend/Resume drawing from other goroutines not part of these executions; writer accepts everything."
  },
  {
   "property": "C186",
   "status": "partial",
   "theorems": [
    "Phoenix.Screen.C186_second_frame_refuted",
    "Phoenix.Screen.C186_line_break_refuted",
    "Phoenix.Screen.C186_written_partial",
    "Phoenix.Screen.C186_one_row_partial"
   ],
   "note": "Refuted twice: renderView writes the raw view on the alternate screen, so the second frame is appended to the first, and line breaks do not return to column one in raw mode. Proved: the terminal receives exactly all views drawn, one after the other; while these form one line that fits, the row shows it."
  },
  {
   "property": "C187",
   "status": "partial",
   "theorems": [
    "Phoenix.Screen.C187_overwritten_partial",
    "Phoenix.Screen.C187_refuted"
   ],
   "note": "Refuted: nothing is written when the loop ends, the cursor stays at the start of the last line of the view. Proved: exactly where the next character goes and that only this row changes."
  },
  {
   "property": "C188",
   "status": "partial",
   "theorems": [
    "Phoenix.Typing.C188_in_order_partial",
    "Phoenix.Typing.C188_none_lost_partial",
    "Phoenix.Typing.C188_keys_partial",
    "Phoenix.Typing.C188_roomy_partial",
    "Phoenix.Typing.C188_deaf_partial",
    "Phoenix.Typing.C188_stolen_refuted"
   ],
   "note": "refuted for every queue capacity: a Quit while the queue is full is taken by the input goroutine, which drops its key and ends while the program runs on (C188_stolen_refuted). Proved: order and no invention always; no loss without such a Quit or a cancellation; no loss while the queue is never full; from bytes to Update for all supported keys"
  },
  {
   "property": "C189",
   "status": "proved",
   "theorems": [
    "Phoenix.KeyScreen.C189_always",
    "Phoenix.KeyScreen.C189_typed"
   ],
   "note": "views of a fixed number of lines fitting the window (the inline renderer does not erase otherwise, see C185); no Quit/Suspend takes the input away"
  },
  {
   "property": "C190",
   "status": "proved",
   "theorems": [
    "Phoenix.Editor.C190_input"
   ],
   "note": "program whose Update passes keys to the input; only the keyboard sends messages"
  },
  {
   "property": "C191",
   "status": "proved",
   "theorems": [
    "Phoenix.Editor.C191_area"
   ],
   "note": "plain commands (characters, Enter, Backspace, Delete, left/right, line and buffer moves); only the keyboard sends messages"
  },
  {
   "property": "C192",
   "status": "proved",
   "theorems": [
    "Phoenix.Resumed.C192_resume",
    "Phoenix.Resumed.C192_always"
   ],
   "note": "Inline renderer, event loop and terminal together. Assumes views that fit the terminal and a terminal left without half an escape sequence, with the default pen and nothing below the cursor."
  },
  {
   "property": "C193",
   "status": "partial",
   "theorems": [
    "Phoenix.Resumed.C193_kept_partial",
    "Phoenix.Resumed.C193_refuted"
   ],
   "note": "Refuted: Repaint keeps the number of lines, so Resume moves up n-1 rows and overwrites the last n-1 lines of the output (C193_refuted). Proved: all rows further up are kept, where the view is drawn; complete for one-line views (C193_kept_partial)."
  },
  {
   "property": "C194",
   "status": "partial",
   "theorems": [
    "Phoenix.Resumed.C194_refuted",
    "Phoenix.Resumed.C194_idle_partial"
   ],
   "note": "Refuted: the event loop goes on drawing while suspended (C194_refuted). Proved: nothing is drawn as long as no message is handed to Update (C194_idle_partial)."
  },
  {
   "property": "C195",
   "status": "partial",
   "theorems": [
    "Phoenix.Typing.C195_refuted",
    "Phoenix.Typing.C195_bounded_partial",
    "Phoenix.Typing.C195_stops_partial"
   ],
   "note": "Refuted for every queue capacity: Run does not stop the input goroutine; it takes the next keys (C195_refuted). Proved: none of them reaches Update, at most as many as fit into the queue are taken and one more, then the terminal is left alone (C195_bounded_partial, C195_stops_partial)."
  },
  {
   "property": "C196",
   "status": "partial",
   "theorems": [
    "Phoenix.Input.C196_short_partial",
    "Phoenix.Input.C196_long_partial",
    "Phoenix.Input.C196_swallowed_partial",
    "Phoenix.Input.C196_refuted"
   ],
   "note": "Refuted: sequences of more than 11 bytes are cut and the rest is typed, e.g. SGR mouse reports (C196_refuted). Proved: sequences of up to eight parameter bytes ending in a letter or ~ are no input (C196_short_partial); exactly which keys longer ones type (C196_long_partial); with the other final bytes (@ [ \\ ] ^ _ ` { | }) exactly which of the following bytes are lost (C196_swallowed_partial). Together these cover every control sequence delivered in one piece."
  },
  {
   "property": "C197",
   "status": "partial",
   "theorems": [
    "Phoenix.TextInput.C197_first_edit_decides_partial",
    "Phoenix.TextInput.C197_default_partial",
    "Phoenix.TextInput.C197_added_last_partial",
    "Phoenix.TextInput.C197_unfocused_partial",
    "Phoenix.TextInput.C197_cursor_in_text_partial",
    "Phoenix.TextInput.C197_refuted"
   ],
   "note": "Acting is recognised by a changed text or cursor only: a handler that changes the selection, or deliberately swallows the key, is overridden by the default binding (C197_refuted: Ctrl+K bound to dropping the selection types a k). Proved: the first handler that changes text or cursor decides; otherwise the default; order of AddHandler; focus; invariants for handlers built from API calls."
  },
  {
   "property": "C198",
   "status": "proved",
   "theorems": [
    "Phoenix.Editor.C198_input_screen",
    "Phoenix.Editor.C198_typed_text"
   ],
   "note": "Printable ASCII text, an input narrower than the terminal (width+1 < columns), no other sender of messages; nobody steals the queue (C188's race is excluded only in the clause about idleness)."
  },
  {
   "property": "C199",
   "status": "partial",
   "theorems": [
    "Phoenix.Editor.C199_area_screen_partial",
    "Phoenix.Editor.C199_refuted",
    "Phoenix.Editor.C199_typed_text_partial"
   ],
   "note": "Refuted when a key shortens the picture while its last row stays the same: Delete at the end of the first of the lines a, b, c, c erases the last c from the screen (C199_refuted, the renderer defect of C16). Proved for all other histories (C199_area_screen_partial, hypothesis NoErase), and with no such hypothesis for any text typed into a new text area (C199_typed_text_partial); one-column characters, lines narrower than the terminal, no other sender."
  },
  {
   "property": "C200",
   "status": "proved",
   "theorems": [
    "Phoenix.Dialog.C200_confirm",
    "Phoenix.Dialog.C200_dialog"
   ],
   "note": "Keys as bytes; only the keyboard and the program's own commands send messages. Quiescent means no step of the loop or of a command is possible."
  },
  {
   "property": "C201",
   "status": "partial",
   "theorems": [
    "Phoenix.Dialog.C201_select_partial",
    "Phoenix.Dialog.C201_one_enter_partial",
    "Phoenix.Dialog.C201_multiselect_partial",
    "Phoenix.Dialog.C201_first_enter_refuted"
   ],
   "note": "Refuted (any capacity): Enter, j, Enter - the second Enter's message may be the first to arrive. Proved: every answer is that of some Enter (value of the option under the cursor after the keys before it), no more answers than Enters, ended by itself means answered or Ctrl+C, at rest with Enter or Ctrl+C typed the program has ended, with a single Enter the answer is exact."
  },
  {
   "property": "C202",
   "status": "proved",
   "theorems": [
    "Phoenix.Dialog.C202_select_screen",
    "Phoenix.Dialog.C202_multiselect_screen"
   ],
   "note": "End to end: decoder, reader goroutine, loop, component, View, inline renderer, terminal. Printable ASCII texts; one message sender (the keyboard)."
  },
  {
   "property": "C203",
   "status": "proved",
   "theorems": [
    "Phoenix.Confirm.C203_view",
    "Phoenix.Confirm.C203_one_focused",
    "Phoenix.Dialog.C203_confirm_screen"
   ],
   "note": "C203_view and C203_one_focused for the text, C203_confirm_screen for the running program (printable ASCII texts that fit the terminal)."
  },
  {
   "property": "C204",
   "status": "proved",
   "theorems": [
    "Phoenix.Dialog.C204_list_screen"
   ],
   "note": "Composition of C169 (View), C51 (window and focus) and the screen theorem of the running program; filter input hidden, nothing bound to clearFilter, mouse and window-size messages not among the inputs."
  },
  {
   "property": "C205",
   "status": "proved",
   "theorems": [
    "Phoenix.Dialog.C205_viewport_screen"
   ],
   "note": "Composition of C56-C58 and the screen theorem of the running program; wrapping off, characters one column wide, mouse messages not among the inputs."
  },
  {
   "property": "C206",
   "status": "partial",
   "theorems": [
    "Phoenix.Modal.C206_string_partial",
    "Phoenix.Modal.C206_shifted",
    "Phoenix.Modal.C206_refuted"
   ],
   "note": "The string of View is as stated (C206_string_partial). In a program it fails for every dimmed modal (C206_shifted, C206_refuted): the string has more rows than the terminal, the renderer keeps the last ones, so the background is printed as many rows too high as the box part has (at least three), while the box is drawn with absolute positions. The effect of these positions on the cursor is not modelled."
  },
  {
   "property": "C207",
   "status": "partial",
   "theorems": [
    "Phoenix.Style.C207_text_partial",
    "Phoenix.Style.C207_border_partial",
    "Phoenix.Style.C207_refuted"
   ],
   "note": "Specification: a terminal pen (SGR) and the cells it writes. Proved: without border colour every cell has exactly the style's pen (C207_text_partial); with only a border colour exactly the edge cells have it and each line leaves the pen as it found it (C207_border_partial). Refuted when both are set: the reset after the border colour also ends the text's colours, so red text in a blue border is not red (C207_refuted)."
  },
  {
   "property": "C208",
   "status": "partial",
   "theorems": [
    "Phoenix.Clip.C208_styled_partial",
    "Phoenix.Clip.C208_refuted",
    "Phoenix.Clip.C208_plain_text_refuted",
    "Phoenix.Clip.C208_kinds_refuted",
    "Phoenix.Clip.C208_local_partial",
    "Phoenix.Clip.C208_history"
   ],
   "note": "Refuted (C208_refuted): Read returns the HTML markup, not the text. C208_plain_text_refuted: plain text that looks like a tag comes back as a style. C208_kinds_refuted: ReadRTF after WriteHTML returns the HTML. Proved: ReadStyledText and ReadHTMLAsPlainText give back text and styles (C208_styled_partial for any faithful chain, C208_local_partial for the default clipboard on a local machine), and the document is recorded as text/html."
  },
  {
   "property": "C209",
   "status": "partial",
   "theorems": [
    "Phoenix.Clip.C209_refuted",
    "Phoenix.Clip.C209_reported_partial"
   ],
   "note": "Refuted (C209_refuted): WriteImage and ReadImage always fail. Proved: the failure is always reported and changes nothing."
  },
  {
   "property": "C210",
   "status": "partial",
   "theorems": [
    "Phoenix.Terminal.C210_reads_buffer",
    "Phoenix.Terminal.C210_write_at_partial",
    "Phoenix.Terminal.C210_refuted",
    "Phoenix.Terminal.C210_alternate_partial"
   ],
   "note": "Refuted (C210_refuted): in the alternate screen writes go to the primary buffer while ReadScreenBuffer reads the alternate one. Proved: ReadScreenBuffer returns the console's buffer cell by cell (C210_reads_buffer), the full claim in the primary screen (C210_write_at_partial), and that the alternate screen reads back blank whatever was written (C210_alternate_partial)."
  },
  {
   "property": "C211",
   "status": "proved",
   "theorems": [
    "Phoenix.Shutdown.C211_error_is_real",
    "Phoenix.Shutdown.C211_nothing_lost"
   ],
   "note": "Both modes, all interleavings; the pipe is unbounded in the model and the client's buffer has at least 256 bytes (with smaller buffers Read drops bytes: C26)."
  },
  {
   "property": "C212",
   "status": "proved",
   "theorems": [
    "Phoenix.Dialog.C212_table_screen"
   ],
   "note": "Proved for inline programs whose only messages are keys, tables with printable ASCII texts and a sort mark that fits into its header (otherwise C63/C81's refutations apply)."
  },
  {
   "property": "C213",
   "status": "partial",
   "theorems": [
    "Phoenix.Spin.C213_ticks_partial",
    "Phoenix.Spin.C213_goes_on_partial",
    "Phoenix.Spin.C213_frame_shown",
    "Phoenix.Spin.C213_refuted",
    "Phoenix.Spin.C213_frozen"
   ],
   "note": "Refuted for a second Run: the tick of the first is still alive when Init starts another, so the spinner runs at r times its rate in the r-th Run (C213_refuted); and a Quit() taken by the tick's goroutine freezes it in a running program (C213_frozen). Proved: the exact count in every Run (r plus ticks sent from outside = under way + taken by Quit), that it never stops by itself, and the frame shown. Durations of sleeps are not modelled."
  },
  {
   "property": "C214",
   "status": "partial",
   "theorems": [
    "Phoenix.Dialog.C214_submit_partial",
    "Phoenix.Dialog.C214_ends_partial",
    "Phoenix.Dialog.C214_refuted"
   ],
   "note": "Refuted: a key typed between the Enter and the arrival of SubmitMsg changes the data the application reads (C214_refuted: Enter, Backspace; an empty required field is submitted). Proved: the data was valid at an Enter among the keys handled, and is what the application reads if since then the form got only its own keys; SubmitMsg at most once per Enter; the program ends. Fields' own commands are left out."
  },
  {
   "property": "C215",
   "status": "partial",
   "theorems": [
    "Phoenix.Mouse.C215_reports_partial",
    "Phoenix.Mouse.C215_isEnabled_partial",
    "Phoenix.Mouse.C215_refuted"
   ],
   "note": "Refuted: IsEnabled stays true after an Enable whose first step (turning tracking off) failed half-way; the extended format is then off (C215_refuted). Proved: the other clauses for all histories with clean write failures (a failed write delivers nothing; for partial writes see C34), and IsEnabled exactly when all writes succeed."
  },
  {
   "property": "C216",
   "status": "proved",
   "theorems": [
    "Phoenix.Dialog.C216_form_screen"
   ],
   "note": "C216_form_screen. Lines of narrow characters that fit the terminal; the case of a field whose value is exactly the help line is excluded (the inline renderer's shrink defect, C16, could leave rows)."
  },
  {
   "property": "C217",
   "status": "partial",
   "theorems": [
    "Phoenix.Dialog.C217_modal_partial",
    "Phoenix.Dialog.C217_refuted"
   ],
   "note": "C217_modal_partial: all but the order. C217_refuted: with Enter, Tab, Enter typed in one go the second button's message can overtake the first one's (each command runs in its own goroutine), so the application can hear of the wrong button first."
  },
  {
   "property": "C218",
   "status": "partial",
   "theorems": [
    "Phoenix.ModalScreen.C218_open_partial",
    "Phoenix.ModalScreen.C218_right_erased_refuted",
    "Phoenix.ModalScreen.C218_last_column_refuted",
    "Phoenix.ModalScreen.C218_hidden_partial",
    "Phoenix.ModalScreen.C218_refuted"
   ],
   "note": "refuted as stated: each line is followed by an erase-to-end-of-line, so whatever lay right of the box is gone (C218_right_erased_refuted, every modal), a line that reaches the last column loses its last character, so a modal as wide as the terminal has no right border (C218_last_column_refuted, every modal), and after Hide the renderer moves up only as many rows as the View had lines, so the upper lines of a box with fewer lines than rows stay on the screen (C218_hidden_partial says exactly which, for every modal; C218_refuted). Proved: the lines of the open box are where they belong, nothing scrolls, rows without a line are untouched except the one below the last line"
  },
  {
   "property": "C219",
   "status": "partial",
   "theorems": [
    "Phoenix.ModalScreen.C219_focus_partial",
    "Phoenix.ModalScreen.C219_keys_partial",
    "Phoenix.ModalScreen.C219_mark_partial",
    "Phoenix.ModalScreen.C219_default_partial",
    "Phoenix.ModalScreen.C219_inside",
    "Phoenix.ModalScreen.C219_ascii_inside"
   ],
   "note": "C219_keys_partial: for every modal, every list of keys none of which closes it, and every screen before, the screen shows after the frames every line of the view of the modal after those keys, in its place, and the window has not scrolled (C219_focus_partial: the same for any changes of the focus between frames). C219_mark_partial: when the buttons fit the width, the line above the bottom rule is on the screen with the buttons as `marked` spells them, the focused one in angle brackets. C219_default_partial: with the default keys that button is the one as many places on (counting around) as Tab and → were typed more often than Shift+Tab and ←. Missing: boxes whose lines cover each other (only possible when the modal is lower than 7 or its content leaves no row free above the buttons: C219_inside; for ASCII texts the whole condition is one on the geometry, C219_ascii_inside) or end in the last column (C218_last_column_refuted: there it fails), the dimmed background, messages other than keys between the frames. Example: Tab in a modal of two buttons moves \"< >\" on the screen."
  }
 ]
}