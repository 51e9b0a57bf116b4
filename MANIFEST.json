{
 "claims": [
  {
   "property": "C01",
   "status": "proved",
   "theorems": [
    "Verif.Props.C01_fits",
    "Verif.Props.C01_no_empty_line",
    "Verif.Props.C01_no_room_counterexample",
    "Verif.Props.C01_deep_panic_counterexample"
   ],
   "note": "The room hypothesis is part of the English statement; the two counterexamples show it is needed (panic and overflow otherwise)."
  },
  {
   "property": "C02",
   "status": "proved",
   "theorems": [
    "Verif.Props.C02_text",
    "Verif.Props.C02_kinds",
    "Verif.Props.C02_glued_words_counterexample"
   ],
   "note": "Also shown: two words may be glued when the blank between them is dropped (counterexample)."
  },
  {
   "property": "C03",
   "status": "proved",
   "theorems": [
    "Verif.Props.C03_cached_length",
    "Verif.Props.C03_creation"
   ],
   "note": ""
  },
  {
   "property": "C04",
   "status": "proved",
   "theorems": [
    "Verif.Props.C04_lines",
    "Verif.Props.C04_error",
    "Verif.Props.C04_stable"
   ],
   "note": "Stability and absence of panic need room for the characters after indentation and margins (hypothesis Wrappable)."
  },
  {
   "property": "C05",
   "status": "proved",
   "theorems": [
    "Verif.Props.C05_tokenize"
   ],
   "note": ""
  },
  {
   "property": "C06",
   "status": "proved",
   "theorems": [
    "Verif.Props.C06_new",
    "Verif.Props.C06_fit",
    "Verif.Props.C06_reduced_counterexample"
   ],
   "note": "C06_reduced_counterexample: with one column the reduced flag can be wrong."
  },
  {
   "property": "C07",
   "status": "proved",
   "theorems": [
    "Verif.Props.C07_fix",
    "Verif.Props.C07_wide",
    "Verif.Props.C07_ragged_panic_counterexample",
    "Verif.Props.C07_zero_width"
   ],
   "note": "With the guard of the English statement (TableShape). C07_ragged_panic_counterexample shows that the code panics without it."
  },
  {
   "property": "C08",
   "status": "proved",
   "theorems": [
    "Verif.Props.C08_text"
   ],
   "note": ""
  },
  {
   "property": "C09",
   "status": "proved",
   "theorems": [
    "Verif.Props.C09_justify",
    "Verif.Props.C09_unique"
   ],
   "note": ""
  },
  {
   "property": "C10",
   "status": "proved",
   "theorems": [
    "Verif.Props.C10_columns",
    "Verif.Props.C10_completion",
    "Verif.Props.C10_no_completion_columns",
    "Verif.Props.C10_inline",
    "Verif.Props.C10_text",
    "Verif.Props.C10_styles",
    "Verif.Props.C10_row_text",
    "Verif.Props.C10_rule_text",
    "Verif.Props.C10_spacing_counterexample",
    "Verif.Props.C10_empty_rule_counterexample",
    "Verif.Props.C10_depth_counterexample"
   ],
   "note": "The guards of the English statement are the hypotheses DrawableLine and OneColumnSkin; the counterexamples show they are needed."
  },
  {
   "property": "C11",
   "status": "proved",
   "theorems": [
    "Verif.Props.C11_fits",
    "Verif.Props.C11_tables",
    "Verif.Props.C11_code_counterexample",
    "Verif.Props.C11_empty_table_counterexample",
    "Verif.Props.C11_small_width_counterexample"
   ],
   "note": "The guards of the English statement are the hypothesis FittingText; the counterexamples show that code lines larger than the width and tables without columns overflow."
  },
  {
   "property": "C12",
   "status": "proved",
   "theorems": [
    "Verif.Props.C12_fits",
    "Verif.Props.C12_not_too_short",
    "Verif.Props.C12_exact",
    "Verif.Props.C12_fill",
    "Verif.Props.C12_fill_again",
    "Verif.Props.C12_token_counterexample",
    "Verif.Props.C12_empty_counterexample",
    "Verif.Props.C12_prefix_counterexample",
    "Verif.Props.C12_aligned_panics",
    "Verif.Props.C12_result_fits"
   ],
   "note": "The guards of the English statement are the hypothesis Fittable; the counterexamples (panics and wrong cached length) show they are needed."
  },
  {
   "property": "C13",
   "status": "proved",
   "theorems": [
    "Verif.Props.C13_left",
    "Verif.Props.C13_right",
    "Verif.Props.C13_center",
    "Verif.Props.C13_elided"
   ],
   "note": "Same guards as C12."
  },
  {
   "property": "C14",
   "status": "proved",
   "theorems": [
    "Verif.Props.C14_completions",
    "Verif.Props.C14_optional",
    "Verif.Props.C14_writeStr",
    "Verif.Props.C14_writeCountedStr",
    "Verif.Props.C14_counted_columns",
    "Verif.Props.C14_wide_counterexample"
   ],
   "note": "Alignment and filling laws; the counterexample shows write_str counts characters, not columns."
  },
  {
   "property": "C15",
   "status": "proved",
   "theorems": [
    "Verif.Props.C15_makeString",
    "Verif.Props.C15_longest"
   ],
   "note": ""
  },
  {
   "property": "C16",
   "status": "proved",
   "theorems": [
    "Verif.Props.C16_cropWriter",
    "Verif.Props.C16_full",
    "Verif.Props.C16_fill",
    "Verif.Props.C16_written",
    "Verif.Props.C16_is_full",
    "Verif.Props.C16_tab_counterexample",
    "Verif.Props.C16_last_column_counterexample"
   ],
   "note": "Arguments restricted to what the property says (GoodOp). Counterexamples: a raw tab overflows; queue_char never uses the last column."
  },
  {
   "property": "C17",
   "status": "proved",
   "theorems": [
    "Verif.Props.C17_filling"
   ],
   "note": ""
  },
  {
   "property": "C18",
   "status": "proved",
   "theorems": [
    "Verif.Props.C18_contains",
    "Verif.Props.C18_contains_counterexample",
    "Verif.Props.C18_contains_panics",
    "Verif.Props.C18_pad",
    "Verif.Props.C18_padForMaxWidth",
    "Verif.Props.C18_right_bottom"
   ],
   "note": "C18_contains_counterexample: for an area ending after column 65535 the test panics."
  },
  {
   "property": "C19",
   "status": "proved",
   "theorems": [
    "Verif.Props.C19_none_iff",
    "Verif.Props.C19_scrollbar",
    "Verif.Props.C19_thumb",
    "Verif.Props.C19_no_panic",
    "Verif.Props.C19_top",
    "Verif.Props.C19_total",
    "Verif.Props.C19_panics",
    "Verif.Props.C19_monotone",
    "Verif.Props.C19_bottom_counterexample",
    "Verif.Props.C19_height_one_counterexample",
    "Verif.Props.C19_last_row_counterexample"
   ],
   "note": "The thumb may end one row after the track (C19_bottom_counterexample); with a height of 1 it starts out of the track; the last row may be touched before the end."
  },
  {
   "property": "C20",
   "status": "proved",
   "theorems": [
    "Verif.Props.C20_step",
    "Verif.Props.C20_reachable",
    "Verif.Props.C20_queries",
    "Verif.Props.C20_line_saturating",
    "Verif.Props.C20_tail_counterexample"
   ],
   "note": "C20_tail_counterexample shows the restriction on set_selection_tail is needed: the removal of the selection panics otherwise."
  },
  {
   "property": "C21",
   "status": "proved",
   "theorems": [
    "Verif.Props.C21_set",
    "Verif.Props.C21_from",
    "Verif.Props.C21_is_str",
    "Verif.Props.C21_chars",
    "Verif.Props.C21_text",
    "Verif.Props.C21_is_empty",
    "Verif.Props.C21_push"
   ],
   "note": ""
  },
  {
   "property": "C22",
   "status": "proved",
   "theorems": [
    "Verif.Props.C22_insert",
    "Verif.Props.C22_insert_char",
    "Verif.Props.C22_insert_new_line",
    "Verif.Props.C22_delete_left",
    "Verif.Props.C22_delete_below",
    "Verif.Props.C22_delete_below_last",
    "Verif.Props.C22_delete_below_counterexample",
    "Verif.Props.C22_move_right",
    "Verif.Props.C22_move_left",
    "Verif.Props.C22_move_ends",
    "Verif.Props.C22_move_line_ends",
    "Verif.Props.C22_parts"
   ],
   "note": "The exception of the English statement is C22_delete_below_last, with a counterexample."
  },
  {
   "property": "C23",
   "status": "proved",
   "theorems": [
    "Verif.Props.C23_selection",
    "Verif.Props.C23_contains",
    "Verif.Props.C23_string",
    "Verif.Props.C23_cut",
    "Verif.Props.C23_cut_outside",
    "Verif.Props.C23_cut_narrow",
    "Verif.Props.C23_cut_lines_counterexample",
    "Verif.Props.C23_cut_newline_counterexample",
    "Verif.Props.C23_cut_last_counterexample"
   ],
   "note": "The conditions of the English statement are ExactlyCut; the counterexamples show what happens with other selections."
  },
  {
   "property": "C24",
   "status": "proved",
   "theorems": [
    "Verif.Props.C24_swap",
    "Verif.Props.C24_up",
    "Verif.Props.C24_down",
    "Verif.Props.C24_up_down",
    "Verif.Props.C24_column_counterexample"
   ],
   "note": "C24_column_counterexample: the column is not always restored."
  },
  {
   "property": "C25",
   "status": "proved",
   "theorems": [
    "Verif.Props.C25_word_left",
    "Verif.Props.C25_word_right",
    "Verif.Props.C25_word_right_counterexample",
    "Verif.Props.C25_delete_left",
    "Verif.Props.C25_delete_right",
    "Verif.Props.C25_select",
    "Verif.Props.C25_up",
    "Verif.Props.C25_down",
    "Verif.Props.C25_columns",
    "Verif.Props.C25_columns_counterexample"
   ],
   "note": "The hypothesis on widths is the one of the English statement; C25_columns_counterexample shows it is needed."
  },
  {
   "property": "C26",
   "status": "proved",
   "theorems": [
    "Verif.Props.C26_adjusted",
    "Verif.Props.C26_rows",
    "Verif.Props.C26_cols",
    "Verif.Props.C26_single_line",
    "Verif.Props.C26_row_counterexample",
    "Verif.Props.C26_narrow_counterexample",
    "Verif.Props.C26_backspace_counterexample",
    "Verif.Props.C26_drawn",
    "Verif.Props.C26_setters"
   ],
   "note": "The English states the exceptions of the code: see the counterexamples for the Down key, narrow fields and deletion keys."
  },
  {
   "property": "C27",
   "status": "proved",
   "theorems": [
    "Verif.Props.C27_rows_panics",
    "Verif.Props.C27_panics",
    "Verif.Props.C27_rows",
    "Verif.Props.C27_scrollbar",
    "Verif.Props.C27_text",
    "Verif.Props.C27_password",
    "Verif.Props.C27_tab_counterexample",
    "Verif.Props.C27_position_counterexample"
   ],
   "note": "Counterexamples show that tabs break the width and that the returned position is off by one with a left ellipsis."
  },
  {
   "property": "C28",
   "status": "proved",
   "theorems": [
    "Verif.Props.C28_scroll_panics",
    "Verif.Props.C28_ops",
    "Verif.Props.C28_reachable",
    "Verif.Props.C28_all_seen",
    "Verif.Props.C28_height_counterexample",
    "Verif.Props.C28_pages_whole",
    "Verif.Props.C28_pages_close",
    "Verif.Props.C28_float_counterexample",
    "Verif.Props.C28_min_counterexample",
    "Verif.Props.C28_panics",
    "Verif.Props.C28_written",
    "Verif.Props.C28_columns",
    "Verif.Props.C28_bar_counterexample"
   ],
   "note": "Counterexamples show the limits: areas without row, the least i32, 65536 lines."
  },
  {
   "property": "C29",
   "status": "proved",
   "theorems": [
    "Verif.Props.C29_panics",
    "Verif.Props.C29_write_panics",
    "Verif.Props.C29_scroll",
    "Verif.Props.C29_pages",
    "Verif.Props.C29_delegates",
    "Verif.Props.C29_bound",
    "Verif.Props.C29_valid",
    "Verif.Props.C29_resize",
    "Verif.Props.C29_fills_area",
    "Verif.Props.C29_taller_counterexample",
    "Verif.Props.C29_margins_counterexample",
    "Verif.Props.C29_panic_counterexample"
   ],
   "note": "Counterexamples show the limits: greater heights, margins at the edge, areas without column."
  },
  {
   "property": "C30",
   "status": "proved",
   "theorems": [
    "Verif.Props.C30_consistent",
    "Verif.Props.C30_selection_kept",
    "Verif.Props.C30_order",
    "Verif.Props.C30_order_counterexample"
   ],
   "note": "The counterexample is an addition in a sorted list, which changes the selected row."
  },
  {
   "property": "C31",
   "status": "proved",
   "theorems": [
    "Verif.Props.C31_next",
    "Verif.Props.C31_visible",
    "Verif.Props.C31_ends",
    "Verif.Props.C31_height_counterexample",
    "Verif.Props.C31_filter_counterexample",
    "Verif.Props.C31_back",
    "Verif.Props.C31_cycle_down",
    "Verif.Props.C31_cycle_up"
   ],
   "note": "Counterexamples show that lower areas may not show the selection and that a filter may hide it."
  },
  {
   "property": "C32",
   "status": "proved",
   "theorems": [
    "Verif.Props.C32_scroll_panics",
    "Verif.Props.C32_select_no_panic",
    "Verif.Props.C32_select_counterexample",
    "Verif.Props.C32_scroll_counterexample",
    "Verif.Props.C32_filter_counterexample",
    "Verif.Props.C32_bound",
    "Verif.Props.C32_last_page",
    "Verif.Props.C32_amount",
    "Verif.Props.C32_pages",
    "Verif.Props.C32_stick",
    "Verif.Props.C32_write",
    "Verif.Props.C32_write_panics",
    "Verif.Props.C32_select_panics"
   ],
   "note": "Counterexamples: panics when selecting the next row in an unscrolled long list, scroll after the last page, filtered rows which no scroll reaches."
  },
  {
   "property": "C33",
   "status": "proved",
   "theorems": [
    "Verif.Props.C33_widths",
    "Verif.Props.C33_panics",
    "Verif.Props.C33_max_counterexample",
    "Verif.Props.C33_order_counterexample"
   ],
   "note": "Counterexamples: maximum lower than minimum, and the greatest usize as maximum."
  },
  {
   "property": "C34",
   "status": "proved",
   "theorems": [
    "Verif.Props.C34_unambiguous",
    "Verif.Props.C34_events",
    "Verif.Props.C34_complete",
    "Verif.Props.C34_complete_waiting",
    "Verif.Props.C34_sequences",
    "Verif.Props.C34_sequences_complete",
    "Verif.Props.C34_counter",
    "Verif.Props.C34_is_key",
    "Verif.Props.C34_sequences_counterexample",
    "Verif.Props.C34_restart_counterexample",
    "Verif.Props.C34_text",
    "Verif.Props.C34_text_counterexample"
   ],
   "note": "Counterexamples: the eleventh pending sequence is lost, ALT-_ breaking a sequence does not start another one, shifted characters are not in the text of a sequence."
  },
  {
   "property": "C35",
   "status": "proved",
   "theorems": [
    "Verif.Props.C35_double",
    "Verif.Props.C35_click",
    "Verif.Props.C35_mouse_only"
   ],
   "note": ""
  },
  {
   "property": "C36",
   "status": "proved",
   "theorems": [
    "Verif.Props.C36_bound",
    "Verif.Props.C36_quit",
    "Verif.Props.C36_quit_counterexample",
    "Verif.Props.C36_unblock_no_panic",
    "Verif.Props.C36_unblock_counterexample",
    "Verif.Props.C36_progress",
    "Verif.Props.C36_end",
    "Verif.Props.C36_bounded_work",
    "Verif.Props.C36_delivered",
    "Verif.Props.C36_enough",
    "Verif.Props.C36_not_idle",
    "Verif.Props.C36_until_idle",
    "Verif.Props.C36_delivered_counterexample"
   ],
   "note": "Counterexamples: unblock(true) in advance lets one event pass, unblock panics after the end of the thread."
  },
  {
   "property": "C37",
   "status": "proved",
   "theorems": [
    "Verif.Props.C37_ids",
    "Verif.Props.C37_start",
    "Verif.Props.C37_payload",
    "Verif.Props.C37_at_most",
    "Verif.Props.C37_exactly",
    "Verif.Props.C37_infinite",
    "Verif.Props.C37_progress",
    "Verif.Props.C37_stop",
    "Verif.Props.C37_stop_waiting",
    "Verif.Props.C37_stop_only",
    "Verif.Props.C37_thread_only",
    "Verif.Props.C37_never_waits",
    "Verif.Props.C37_stop_counterexample"
   ],
   "note": "The model has no clock: a timeout may happen at any time when there is no interrupt. An example shows the tick sent after a stop."
  },
  {
   "property": "C38",
   "status": "proved",
   "theorems": [
    "Verif.Props.C38_trim",
    "Verif.Props.C38_trim_unique",
    "Verif.Props.C38_answer",
    "Verif.Props.C38_valid",
    "Verif.Props.C38_still_asking",
    "Verif.Props.C38_error",
    "Verif.Props.C38_end_of_input_counterexample",
    "Verif.Props.C38_blank_key_counterexample",
    "Verif.Props.C38_exotic",
    "Verif.Props.C38_macro",
    "Verif.Props.C38_macro_counterexample",
    "Verif.Props.C38_shown",
    "Verif.Props.C38_was_shown",
    "Verif.Props.C38_asked"
   ],
   "note": "C38_asked is the whole call for a question built by any calls. Counterexamples: endless loop at the end of the input, keys ending with a space, default which is not a key in the macro."
  },
  {
   "property": "C39",
   "status": "proved",
   "theorems": [
    "Verif.Props.C39_attribute_names",
    "Verif.Props.C39_attribute_read",
    "Verif.Props.C39_removal_counterexample",
    "Verif.Props.C39_tokens",
    "Verif.Props.C39_compound_style",
    "Verif.Props.C39_color",
    "Verif.Props.C39_compound_roundtrip",
    "Verif.Props.C39_line_style",
    "Verif.Props.C39_styled_char",
    "Verif.Props.C39_dark_counterexample",
    "Verif.Props.C39_blink_counterexample",
    "Verif.Props.C39_digit_counterexample",
    "Verif.Props.C39_margin_counterexample",
    "Verif.Props.C39_write_style_tokens_counterexample"
   ],
   "note": "For all styles, line styles and styled chars with byte color components, and for all Unicode classes agreeing with ASCII. The exact reread style is specified; equality iff faithful. Counterexamples for each kind of loss."
  },
  {
   "property": "C40",
   "status": "proved",
   "theorems": [
    "Verif.Props.C40_reread",
    "Verif.Props.C40_roundtrip",
    "Verif.Props.C40_crate_skins",
    "Verif.Props.C40_missing",
    "Verif.Props.C40_headers_string",
    "Verif.Props.C40_invalid",
    "Verif.Props.C40_lost_counterexample",
    "Verif.Props.C40_scrollbar_counterexample",
    "Verif.Props.C40_aliases",
    "Verif.Props.C40_accepted",
    "Verif.Props.C40_last",
    "Verif.Props.C40_levels",
    "Verif.Props.C40_scrollbar",
    "Verif.Props.C40_same_text",
    "Verif.Props.C40_text_counterexample"
   ],
   "note": "For all skins with byte color components, all permutations of entries, all Unicode classes agreeing with ASCII. The data format (e.g. serde_json) is seen as a list of entries, its own round trip is trusted. Counterexamples for each kind of loss."
  },
  {
   "property": "C41",
   "status": "proved",
   "theorems": [
    "Verif.Props.C41_overwrite_colors",
    "Verif.Props.C41_overwrite_attrs",
    "Verif.Props.C41_overwrite_assoc",
    "Verif.Props.C41_overwrite_idem",
    "Verif.Props.C41_overwrite_default",
    "Verif.Props.C41_overwrite_underline",
    "Verif.Props.C41_underline_counterexample",
    "Verif.Props.C41_constructors",
    "Verif.Props.C41_attrs",
    "Verif.Props.C41_setters",
    "Verif.Props.C41_compound_colors",
    "Verif.Props.C41_compound_attrs",
    "Verif.Props.C41_compound_plain",
    "Verif.Props.C41_ellipsis",
    "Verif.Props.C41_blend",
    "Verif.Props.C41_blend_counterexample",
    "Verif.Props.C41_blend_twice_counterexample",
    "Verif.Props.C41_skin_blend_unchanged"
   ],
   "note": "Counterexamples: overwriting loses the underline color, blending ignores the background and blends the foreground twice."
  },
  {
   "property": "C42",
   "status": "proved",
   "theorems": [
    "Verif.Props.C42_setters",
    "Verif.Props.C42_new",
    "Verif.Props.C42_restored",
    "Verif.Props.C42_frame",
    "Verif.Props.C42_blend_counterexample",
    "Verif.Props.C42_skin",
    "Verif.Props.C42_skin_blend_counterexample"
   ],
   "note": "The counterexamples are blends, which leave the drawn character with its former color."
  },
  {
   "property": "C43",
   "status": "proved",
   "theorems": [
    "Verif.Props.C43_draw",
    "Verif.Props.C43_cells",
    "Verif.Props.C43_panics",
    "Verif.Props.C43_narrow_counterexample",
    "Verif.Props.C43_empty_counterexample",
    "Verif.Props.C43_flat_counterexample",
    "Verif.Props.C43_built",
    "Verif.Props.C43_default"
   ],
   "note": "Counterexamples: rectangles of one column, of one row, without row. The terminal has no limit and all the characters of borders have one column."
  },
  {
   "property": "C44",
   "status": "proved",
   "theorems": [
    "Verif.Props.C44_nearest",
    "Verif.Props.C44_never_fails",
    "Verif.Props.C44_length",
    "Verif.Props.C44_precision",
    "Verif.Props.C44_padded",
    "Verif.Props.C44_monotone",
    "Verif.Props.C44_ends",
    "Verif.Props.C44_negative",
    "Verif.Props.C44_any_float",
    "Verif.Props.C44_nan",
    "Verif.Props.C44_infinite_counterexample",
    "Verif.Props.C44_finite",
    "Verif.Props.C44_f32_rounding",
    "Verif.Props.C44_f32_render",
    "Verif.Props.C44_f32",
    "Verif.Props.C44_f32_grows",
    "Verif.Props.C44_fraction_exact",
    "Verif.Props.C44_long_counterexample"
   ],
   "note": "The theorems are about the rounding of f32, defined as in IEEE 754 and proved to be to the nearest, ties to even (C44_nearest); C44_length, C44_precision, C44_monotone, C44_ends and C44_padded are about any monotonic rounding which does not change integers up to 2^24, as is the one of f32 (C44_f32_rounding). NaN, the infinites and overflows are the subject of C44_any_float, C44_nan and C44_infinite_counterexample (memory is not modelled). The other counterexample is a length over 2^24, which is itself rounded."
  },
  {
   "property": "C45",
   "status": "proved",
   "theorems": [
    "Verif.Props.C45_mouse",
    "Verif.Props.C45_kept",
    "Verif.Props.C45_panics",
    "Verif.Props.C45_fits",
    "Verif.Props.C45_step",
    "Verif.Props.C45_reachable",
    "Verif.Props.C45_width_counterexample",
    "Verif.Props.C45_ignored",
    "Verif.Props.C45_focus",
    "Verif.Props.C45_type",
    "Verif.Props.C45_replace",
    "Verif.Props.C45_delete",
    "Verif.Props.C45_keys",
    "Verif.Props.C45_dispatch",
    "Verif.Props.C45_set",
    "Verif.Props.C45_delegated"
   ],
   "note": "For areas with at least a column; without one, exactly the calls which panic."
  },
  {
   "property": "C46",
   "status": "proved",
   "theorems": [
    "Verif.Props.C46_click",
    "Verif.Props.C46_mouse",
    "Verif.Props.C46_scroll",
    "Verif.Props.C46_shown",
    "Verif.Props.C46_wide_counterexample"
   ],
   "note": "The counterexample is the click on the second column of a wide character."
  },
  {
   "property": "C47",
   "status": "proved",
   "theorems": [
    "Verif.Props.C47_header_styles",
    "Verif.Props.C47_header",
    "Verif.Props.C47_rows",
    "Verif.Props.C47_styles",
    "Verif.Props.C47_aligned",
    "Verif.Props.C47_visible",
    "Verif.Props.C47_bar",
    "Verif.Props.C47_thumb",
    "Verif.Props.C47_thumb_counterexample",
    "Verif.Props.C47_bar_counterexample",
    "Verif.Props.C47_columns"
   ],
   "note": "Counterexamples: the scrollbar is out of the area, and its thumb misplaced if the area isn't at the top of the screen."
  },
  {
   "property": "C48",
   "status": "proved",
   "theorems": [
    "Verif.Props.C48_set_bg",
    "Verif.Props.C48_set_fg",
    "Verif.Props.C48_scrollbar",
    "Verif.Props.C48_code",
    "Verif.Props.C48_headers",
    "Verif.Props.C48_headers_only",
    "Verif.Props.C48_global_bg",
    "Verif.Props.C48_global_kept"
   ],
   "note": ""
  },
  {
   "property": "C49",
   "status": "proved",
   "theorems": [
    "Verif.Props.C49_same_text",
    "Verif.Props.C49_colors",
    "Verif.Props.C49_fresh",
    "Verif.Props.C49_no_style"
   ],
   "note": ""
  },
  {
   "property": "C50",
   "status": "proved",
   "theorems": [
    "Verif.Props.C50_chars",
    "Verif.Props.C50_ascii",
    "Verif.Props.C50_special_counterexample",
    "Verif.Props.C50_scrollbar_counterexample"
   ],
   "note": "Counterexamples: special characters and the scrollbar are not limited to ASCII."
  },
  {
   "property": "C51",
   "status": "proved",
   "theorems": [
    "Verif.Props.C51_content"
   ],
   "note": ""
  },
  {
   "property": "C52",
   "status": "proved",
   "theorems": [
    "Verif.Props.C52_gray_token",
    "Verif.Props.C52_decimal",
    "Verif.Props.C52_ansi",
    "Verif.Props.C52_gray",
    "Verif.Props.C52_rgb",
    "Verif.Props.C52_hex",
    "Verif.Props.C52_short_hex",
    "Verif.Props.C52_names",
    "Verif.Props.C52_gray_level",
    "Verif.Props.C52_dark_counterexample",
    "Verif.Props.C52_contains_counterexample",
    "Verif.Props.C52_four_hex_counterexample"
   ],
   "note": "For all numbers, spacings, digits; Unicode classes agreeing with ASCII."
  },
  {
   "property": "C53",
   "status": "proved",
   "theorems": [
    "Verif.Props.C53_color_case",
    "Verif.Props.C53_style_case",
    "Verif.Props.C53_char_case",
    "Verif.Props.C53_layout",
    "Verif.Props.C53_spacing",
    "Verif.Props.C53_meaning",
    "Verif.Props.C53_any_order",
    "Verif.Props.C53_words"
   ],
   "note": "For all strings; Unicode classes agreeing with ASCII."
  },
  {
   "property": "C54",
   "status": "proved",
   "theorems": [
    "Verif.Props.C54_needed",
    "Verif.Props.C54_places",
    "Verif.Props.C54_words",
    "Verif.Props.C54_styled_word_counterexample",
    "Verif.Props.C54_leading_space_counterexample"
   ],
   "note": "For all composites with a right cached length, all widths. Words are parts of one compound: a word partly styled may be cut between its compounds (counterexample)."
  },
  {
   "property": "C55",
   "status": "proved",
   "theorems": [
    "Verif.Props.C55_fill",
    "Verif.Props.C55_whole",
    "Verif.Props.C55_elided",
    "Verif.Props.C55_composite",
    "Verif.Props.C55_margin_counterexample"
   ],
   "note": "For composites the fitter accepts (see C12), skins whose marks take one column; text theorems for skins without special characters. Counterexample: the left margin is added to the width."
  },
  {
   "property": "C56",
   "status": "proved",
   "theorems": [
    "Verif.Props.C56_displayed"
   ],
   "note": "End to end composition of C10, C11 and C51. Markdown parsing (minimad) is not modelled: the source is the list of parsed lines."
  },
  {
   "property": "C57",
   "status": "proved",
   "theorems": [
    "Verif.Props.C57_content_align",
    "Verif.Props.C57_margin_counterexample",
    "Verif.Props.C57_moved",
    "Verif.Props.C57_content_width",
    "Verif.Props.C57_fits",
    "Verif.Props.C57_no_rule_counterexample"
   ],
   "note": "The content width is proved for texts whose tables all have a rule; a counterexample shows what happens otherwise, and another one that margins are not in the content width."
  },
  {
   "property": "C58",
   "status": "proved",
   "theorems": [
    "Verif.Props.C58_cells",
    "Verif.Props.C58_unfocused",
    "Verif.Props.C58_cursor",
    "Verif.Props.C58_reversed_counterexample"
   ],
   "note": "The cells themselves are those of C26 and C27. A counterexample shows the cursor invisible in a reversed style."
  },
  {
   "property": "C59",
   "status": "proved",
   "theorems": [
    "Verif.Props.C59_styles",
    "Verif.Props.C59_default_attrs",
    "Verif.Props.C59_default_colors",
    "Verif.Props.C59_tinted_colors",
    "Verif.Props.C59_default_align",
    "Verif.Props.C59_default_drawn",
    "Verif.Props.C59_ellipsis_counterexample"
   ],
   "note": "For all texts whose display succeeds (C56 says when). Skins with special characters are not covered by C59_styles (the special-renders feature replaces whole compounds, see C50)."
  },
  {
   "property": "C60",
   "status": "proved",
   "theorems": [
    "Verif.Props.C60_keys",
    "Verif.Props.C60_new",
    "Verif.Props.C60_typed",
    "Verif.Props.C60_erased",
    "Verif.Props.C60_selection_counterexample"
   ],
   "note": "Without selection. C60_selection_counterexample: Shift with an unused key, then two characters."
  },
  {
   "property": "C61",
   "status": "proved",
   "theorems": [
    "Verif.Props.C61_tables",
    "Verif.Props.C61_text",
    "Verif.Props.C61_small_tables",
    "Verif.Props.C61_narrow_counterexample"
   ],
   "note": "C61_narrow_counterexample: one missing column is enough for a row to be cut. C61_small_tables is a sufficient condition on tables easier to check."
  },
  {
   "property": "C62",
   "status": "proved",
   "theorems": [
    "Verif.Props.C62_borders",
    "Verif.Props.C62_wide_border_counterexample"
   ],
   "note": "C62_wide_border_counterexample: borders must take one column."
  },
  {
   "property": "C63",
   "status": "proved",
   "theorems": [
    "Verif.Props.C63_history",
    "Verif.Props.C63_new"
   ],
   "note": "With line breaks, see C60 (without selection) and C22, C23 (each operation)."
  },
  {
   "property": "C64",
   "status": "proved",
   "theorems": [
    "Verif.Props.C64_text_view",
    "Verif.Props.C64_mad_view",
    "Verif.Props.C64_input_field",
    "Verif.Props.C64_any_order",
    "Verif.Props.C64_again",
    "Verif.Props.C64_unfit_counterexample",
    "Verif.Props.C64_list_counterexample",
    "Verif.Props.C64_list_view",
    "Verif.Props.C64_clear_counterexample"
   ],
   "note": "The hypotheses are those of C28_columns, C29_fills_area and C27_rows. Cells out of the physical screen are not modelled: areas are in the screen. Counterexamples: list views write their scrollbar out of their area and clear lines out of it."
  },
  {
   "property": "C65",
   "status": "proved",
   "theorems": [
    "Verif.Props.C65_line",
    "Verif.Props.C65_text_view",
    "Verif.Props.C65_input_field",
    "Verif.Props.C65_list_view",
    "Verif.Props.C65_rect",
    "Verif.Props.C65_fill",
    "Verif.Props.C65_colors",
    "Verif.Props.C65_clear",
    "Verif.Props.C65_fill_counterexample",
    "Verif.Props.C65_skins",
    "Verif.Props.C65_underline_counterexample"
   ],
   "note": "The effect of crossterm commands on the pen (PrintStyledContent resets what it set, except the color of underline when there is no attribute) is part of the specification and is trusted."
  },
  {
   "property": "C66",
   "status": "proved",
   "theorems": [
    "Verif.Props.C66_drag",
    "Verif.Props.C66_word",
    "Verif.Props.C66_highlighted"
   ],
   "note": "The character hit by an event is the one of C46 (CellAt), relative to the scroll at the time of the event."
  },
  {
   "property": "C67",
   "status": "proved",
   "theorems": [
    "Verif.Props.C67_settings",
    "Verif.Props.C67_scrollbar",
    "Verif.Props.C67_table_borders",
    "Verif.Props.C67_headers",
    "Verif.Props.C67_accepted",
    "Verif.Props.C67_unknown_counterexample",
    "Verif.Props.C67_order",
    "Verif.Props.C67_order_counterexample"
   ],
   "note": "The data format is seen as a list of entries. Counterexamples: an unknown key with a value which is not a string is an error; the order of entries for the same setting matters."
  },
  {
   "property": "C68",
   "status": "proved",
   "theorems": [
    "Verif.Props.C68_created",
    "Verif.Props.C68_not_created",
    "Verif.Props.C68_dropped",
    "Verif.Props.C68_restored",
    "Verif.Props.C68_error_counterexample",
    "Verif.Props.C68_two_counterexample"
   ],
   "note": "The calls to crossterm and to the combiner of keys are parameters. Counterexamples for both guards."
  },
  {
   "property": "C69",
   "status": "proved",
   "theorems": [
    "Verif.Props.C69_determined",
    "Verif.Props.C69_undo_insert",
    "Verif.Props.C69_undo_new_line",
    "Verif.Props.C69_redo_left",
    "Verif.Props.C69_redo_below",
    "Verif.Props.C69_parts",
    "Verif.Props.C69_move_back",
    "Verif.Props.C69_cut_paste"
   ],
   "note": "The selection tail is not part of what is restored."
  },
  {
   "property": "C70",
   "status": "proved",
   "theorems": [
    "Verif.Props.C70_fewest",
    "Verif.Props.C70_wider",
    "Verif.Props.C70_text",
    "Verif.Props.C70_wider_counterexample",
    "Verif.Props.C70_margins_counterexample"
   ],
   "note": "Optimality is among layouts which cut no word inside a compound; the wrapping itself may cut words too long for the width, which only makes lines fewer."
  },
  {
   "property": "C71",
   "status": "proved",
   "theorems": [
    "Verif.Props.C71_format",
    "Verif.Props.C71_deep",
    "Verif.Props.C71_regular",
    "Verif.Props.C71_display",
    "Verif.Props.C71_header_counterexample"
   ],
   "note": "Debug build semantics: the subtraction of the bullet length which overflows is a panic. Memory exhaustion and overflows of sums of lengths are not modelled."
  },
  {
   "property": "C72",
   "status": "proved",
   "theorems": [
    "Verif.Props.C72_write",
    "Verif.Props.C72_history",
    "Verif.Props.C72_read",
    "Verif.Props.C72_source",
    "Verif.Props.C72_list"
   ],
   "note": "The coordinates top + scroll + height must hold in 16 bits, as the terminal library requires."
  },
  {
   "property": "C73",
   "status": "proved",
   "theorems": [
    "Verif.Props.C73_text_view",
    "Verif.Props.C73_mad_view",
    "Verif.Props.C73_input_field",
    "Verif.Props.C73_list_view",
    "Verif.Props.C73_style_counterexample",
    "Verif.Props.C73_untouched",
    "Verif.Props.C73_repair",
    "Verif.Props.C73_repair_views",
    "Verif.Props.C73_rect",
    "Verif.Props.C73_crop",
    "Verif.Props.C73_crop_ok",
    "Verif.Props.C73_crop_error",
    "Verif.Props.C73_backspace_counterexample"
   ],
   "note": "A failure in the middle of an escape code is not distinguished from one just before it. Same hypotheses on the contents and skins as C64 and C65."
  },
  {
   "property": "C74",
   "status": "proved",
   "theorems": [
    "Verif.Props.C74_handled",
    "Verif.Props.C74_unblock",
    "Verif.Props.C74_complete",
    "Verif.Props.C74_progress",
    "Verif.Props.C74_quit",
    "Verif.Props.C74_bounded",
    "Verif.Props.C74_typed",
    "Verif.Props.C74_typed_quit",
    "Verif.Props.C74_typed_counterexample",
    "Verif.Props.C74_withheld_counterexample"
   ],
   "note": "The conversion of keys by crokey is a parameter with the properties of PlainKeyboard. Only the loop of the example is modelled, not its other views."
  },
  {
   "property": "C75",
   "status": "proved",
   "theorems": [
    "Verif.Props.C75_word",
    "Verif.Props.C75_part"
   ],
   "note": "The case of a word or part which is not enough is only in C12 and C13."
  },
  {
   "property": "C76",
   "status": "proved",
   "theorems": [
    "Verif.Props.C76_average",
    "Verif.Props.C76_widest_first",
    "Verif.Props.C76_proportional_counterexample",
    "Verif.Props.C76_average_counterexample"
   ],
   "note": "The comment of the second step (\"We remove excess proportionnally\") is not what the code does: see C76_proportional_counterexample."
  },
  {
   "property": "C77",
   "status": "proved",
   "theorems": [
    "Verif.Props.C77_history",
    "Verif.Props.C77_typed",
    "Verif.Props.C77_chars",
    "Verif.Props.C77_double_click_counterexample",
    "Verif.Props.C77_width_counterexample",
    "Verif.Props.C77_set_str_counterexample"
   ],
   "note": "The display of a state is C27_password; the history is a simulation between two runs. Memory, timing and the clipboard aren't modelled: cut_selection and copy_selection give the text itself."
  },
  {
   "property": "C78",
   "status": "proved",
   "theorems": [
    "Verif.Props.C78_screen",
    "Verif.Props.C78_rows",
    "Verif.Props.C78_quits",
    "Verif.Props.C78_small_counterexample"
   ],
   "note": "The terminal is a grid of cells with a cursor and a pen (the one of C65). The number of lines in each width is a parameter given by the text. The alternate screen, the raw mode and errors of the writer aren't modelled."
  },
  {
   "property": "C79",
   "status": "proved",
   "theorems": [
    "Verif.Props.C79_unused",
    "Verif.Props.C79_same_display",
    "Verif.Props.C79_selection_counterexample",
    "Verif.Props.C79_true_counterexample",
    "Verif.Props.C79_wheel",
    "Verif.Props.C79_text_view",
    "Verif.Props.C79_mad_view"
   ],
   "note": "The guard about the selection is needed (C79_selection_counterexample), and true doesn't say that something changed (C79_true_counterexample)."
  },
  {
   "property": "C80",
   "status": "proved",
   "theorems": [
    "Verif.Props.C80_inputs",
    "Verif.Props.C80_state",
    "Verif.Props.C80_layout",
    "Verif.Props.C80_keys",
    "Verif.Props.C80_label_counterexample",
    "Verif.Props.C80_contents",
    "Verif.Props.C80_copy",
    "Verif.Props.C80_cut_paste",
    "Verif.Props.C80_clipboard",
    "Verif.Props.C80_cut_lost_counterexample",
    "Verif.Props.C80_password_copied_counterexample",
    "Verif.Props.C80_not_late",
    "Verif.Props.C80_late_counterexample",
    "Verif.Props.C80_screen",
    "Verif.Props.C80_small_screen"
   ],
   "note": "Counterexamples: the bottom of the last label is out of the screen (C80_label_counterexample), what is cut is lost, and still shown, when the clipboard refuses it (C80_cut_lost_counterexample, C80_late_counterexample), and a password can be copied (C80_password_copied_counterexample)."
  },
  {
   "property": "C81",
   "status": "proved",
   "theorems": [
    "Verif.Props.C81_copy",
    "Verif.Props.C81_cut_paste",
    "Verif.Props.C81_clipboard",
    "Verif.Props.C81_field",
    "Verif.Props.C81_layout",
    "Verif.Props.C81_screen",
    "Verif.Props.C81_small_screen",
    "Verif.Props.C81_panics",
    "Verif.Props.C81_not_late",
    "Verif.Props.C81_panic_counterexample",
    "Verif.Props.C81_late_counterexample"
   ],
   "note": "The parser of markdown (minimad) is a parameter. Counterexamples: typing a ragged table makes the application panic (C81_panic_counterexample), and a cut refused by the clipboard isn't shown (C81_late_counterexample)."
  },
  {
   "property": "C82",
   "status": "proved",
   "theorems": [
    "Verif.Props.C82_waiting",
    "Verif.Props.C82_ended",
    "Verif.Props.C82_error",
    "Verif.Props.C82_raw",
    "Verif.Props.C82_panicked",
    "Verif.Props.C82_quit",
    "Verif.Props.C82_live",
    "Verif.Props.C82_live_small",
    "Verif.Props.C82_form",
    "Verif.Props.C82_form_small",
    "Verif.Props.C82_error_counterexample",
    "Verif.Props.C82_panic_counterexample",
    "Verif.Props.C82_same_size_counterexample"
   ],
   "note": "A command is supposed to be entirely sent or not at all. Counterexamples: after an error at the start or at the end, or after a panic, which typing a table can cause, the terminal isn't restored (C82_error_counterexample, C82_panic_counterexample); a change of the screen without a change of size isn't repaired (C82_same_size_counterexample)."
  },
  {
   "property": "C83",
   "status": "proved",
   "theorems": [
    "Verif.Props.C83_table",
    "Verif.Props.C83_corners",
    "Verif.Props.C83_ascii_counterexample",
    "Verif.Props.C83_rect",
    "Verif.Props.C83_rect_half",
    "Verif.Props.C83_rect_bland"
   ],
   "note": "The strokes of the characters are those of their names in Unicode (Spec/Strokes). With the ASCII set strokes go out of the table, as a plus has all of them (C83_ascii_counterexample)."
  },
  {
   "property": "C84",
   "status": "proved",
   "theorems": [
    "Verif.Props.C84_screen",
    "Verif.Props.C84_ended",
    "Verif.Props.C84_alive",
    "Verif.Props.C84_left",
    "Verif.Props.C84_error",
    "Verif.Props.C84_error_counterexample"
   ],
   "note": "C84_screen (while it waits), C84_alive, C84_left and C84_ended (its end), C84_error and C84_error_counterexample (errors aren't followed by a restoration: recorded in DESIGN.md). Commands are sent whole."
  },
  {
   "property": "C85",
   "status": "proved",
   "theorems": [
    "Verif.Props.C85_text",
    "Verif.Props.C85_inline",
    "Verif.Props.C85_start_counterexample",
    "Verif.Props.C85_size_counterexample",
    "Verif.Props.C85_code_counterexample"
   ],
   "note": "C85_text, C85_inline. Counterexamples: a text printed after other characters of a row, a terminal of unknown size with less than 50 columns, a line of code which is too long."
  },
  {
   "property": "C86",
   "status": "proved",
   "theorems": [
    "Verif.Props.C86_template",
    "Verif.Props.C86_console",
    "Verif.Props.C86_used",
    "Verif.Props.C86_ellipsis_counterexample"
   ],
   "note": "C86_template, C86_console, C86_used. Counterexample: a value which is an ellipsis isn't in the style of its place."
  },
  {
   "property": "C87",
   "status": "proved",
   "theorems": [
    "Verif.Props.C87_removed",
    "Verif.Props.C87_history",
    "Verif.Props.C87_new",
    "Verif.Props.C87_lines_counterexample"
   ],
   "note": "C87_history, C87_new for all the histories; C87_removed: exact removals. Counterexample to exact removals: the removal of a selection of parts of several lines."
  },
  {
   "property": "C88",
   "status": "proved",
   "theorems": [
    "Verif.Props.C88_session",
    "Verif.Props.C88_places"
   ],
   "note": "C88_session, with the places given by C88_places. Removed selections are those of C87, whatever they are."
  },
  {
   "property": "C89",
   "status": "proved",
   "theorems": [
    "Verif.Props.C89_untimed",
    "Verif.Props.C89_ticks",
    "Verif.Props.C89_any",
    "Verif.Props.C89_not_before",
    "Verif.Props.C89_spacing",
    "Verif.Props.C89_exact",
    "Verif.Props.C89_count",
    "Verif.Props.C89_done",
    "Verif.Props.C89_stop",
    "Verif.Props.C89_exact_counterexample",
    "Verif.Props.C89_stop_counterexample"
   ],
   "note": "C89_not_before, C89_spacing for all runs; C89_exact, C89_count, C89_done, C89_stop for prompt threads; C89_untimed and C89_any tell that the runs are those of C37; the counterexamples tell that promptness is needed."
  },
  {
   "property": "C90",
   "status": "proved",
   "theorems": [
    "Verif.Props.C90_screen",
    "Verif.Props.C90_printed",
    "Verif.Props.C90_alive",
    "Verif.Props.C90_chosen",
    "Verif.Props.C90_nothing",
    "Verif.Props.C90_small_counterexample"
   ],
   "note": "C90_screen while waiting, C90_printed and C90_nothing whatever the failures, C90_alive and C90_chosen when nothing fails; C90_small_counterexample tells that a size is needed."
  },
  {
   "property": "C91",
   "status": "proved",
   "theorems": [
    "Verif.Props.C91_shown",
    "Verif.Props.C91_confined",
    "Verif.Props.C91_filled",
    "Verif.Props.C91_last_char_counterexample",
    "Verif.Props.C91_long_filling_counterexample"
   ],
   "note": "C91_shown for the pieces and looks, C91_confined for the cells, C91_filled for lines ended by a filling; C91_long_filling_counterexample tells why long fillings over a set color are apart, C91_last_char_counterexample that a character never gets the last column."
  },
  {
   "property": "C92",
   "status": "proved",
   "theorems": [
    "Verif.Props.C92_drawn",
    "Verif.Props.C92_wrapped",
    "Verif.Props.C92_kept",
    "Verif.Props.C92_word_counterexample",
    "Verif.Props.C92_long_counterexample",
    "Verif.Props.C92_width_counterexample"
   ],
   "note": "C92_drawn for a line, C92_wrapped and C92_kept for the wrapping; C92_long_counterexample (a longer key may be cut, as the comment of the field warns), C92_word_counterexample (a word of a longer compound is replaced in a wrapped line only) and C92_width_counterexample (replacement of another width)."
  },
  {
   "property": "C93",
   "status": "proved",
   "theorems": [
    "Verif.Props.C93_same",
    "Verif.Props.C93_panics",
    "Verif.Props.C93_content",
    "Verif.Props.C93_overflow",
    "Verif.Props.C93_display",
    "Verif.Props.C93_deep_counterexample"
   ],
   "note": "C93_same, C93_panics, C93_content, C93_display and C93_overflow; C93_deep_counterexample (lines larger than the width, where a debug build panics)."
  },
  {
   "property": "C94",
   "status": "proved",
   "theorems": [
    "Verif.Props.C94_colors",
    "Verif.Props.C94_last",
    "Verif.Props.C94_kept",
    "Verif.Props.C94_order",
    "Verif.Props.C94_order_counterexample",
    "Verif.Props.C94_shown_bg",
    "Verif.Props.C94_shown_fg"
   ],
   "note": "C94_colors, C94_last, C94_kept, C94_order, C94_shown_bg and C94_shown_fg, by induction on the calls. Spec/SkinHistory tells which parts each call reaches. C94_order_counterexample: the order of calls on the same color of the same part matters."
  },
  {
   "property": "C95",
   "status": "proved",
   "theorems": [
    "Verif.Props.C95_calls",
    "Verif.Props.C95_new",
    "Verif.Props.C95_tail_counterexample",
    "Verif.Props.C95_lines_counterexample",
    "Verif.Props.C95_session",
    "Verif.Props.C95_places"
   ],
   "note": "C95_calls, C95_new and C95_session, by induction on the history, with one case per method. The reference is SelDoc.call in Spec/ContentHistory, on the text with a cursor and not on lines. C95_tail_counterexample: the condition on set_selection_tail is needed. C95_lines_counterexample: the removal of parts of several lines is not exact."
  },
  {
   "property": "C96",
   "status": "proved",
   "theorems": [
    "Verif.Props.C96_screen",
    "Verif.Props.C96_alive",
    "Verif.Props.C96_left",
    "Verif.Props.C96_ended",
    "Verif.Props.C96_skin"
   ],
   "note": "Model/FitApp with the loop of Model/PagerMain; screen by induction on the events; the shipped skin and texts meet the hypotheses (C96_skin, examples)."
  },
  {
   "property": "C97",
   "status": "proved",
   "theorems": [
    "Verif.Props.C97_text",
    "Verif.Props.C97_inline",
    "Verif.Props.C97_fill",
    "Verif.Props.C97_effect",
    "Verif.Props.C97_no_escape",
    "Verif.Props.C97_skins",
    "Verif.Props.C97_ascii",
    "Verif.Props.C97_only",
    "Verif.Props.C97_scrollbar_counterexample"
   ],
   "note": "The bytes crossterm writes for a style are a parameter (AnsiWriter in Spec/Plain)."
  },
  {
   "property": "C98",
   "status": "proved",
   "theorems": [
    "Verif.Props.C98_lines",
    "Verif.Props.C98_display",
    "Verif.Props.C98_print",
    "Verif.Props.C98_prefix",
    "Verif.Props.C98_parts",
    "Verif.Props.C98_line_by_line",
    "Verif.Props.C98_content_width",
    "Verif.Props.C98_table_counterexample",
    "Verif.Props.C98_code_counterexample"
   ],
   "note": "The lines are those minimad gives: that parsing can be done part by part is not part of the claim."
  },
  {
   "property": "C99",
   "status": "proved",
   "theorems": [
    "Verif.Props.C99_talk",
    "Verif.Props.C99_every_way",
    "Verif.Props.C99_interactive",
    "Verif.Props.C99_no_panic",
    "Verif.Props.C99_input_error",
    "Verif.Props.C99_one_talk",
    "Verif.Props.C99_default_counterexample"
   ],
   "note": "Programs asking in a loop are not modelled; how texts are printed is in C56 and C85."
  },
  {
   "property": "C100",
   "status": "proved",
   "theorems": [
    "Verif.Props.C100_only_events",
    "Verif.Props.C100_prompt",
    "Verif.Props.C100_result",
    "Verif.Props.C100_ends",
    "Verif.Props.C100_not_before_unblock",
    "Verif.Props.C100_late_counterexample"
   ],
   "note": "The computation is the loop described by the documentation of the counter (test, then a unit of work); it is not in the repository. Accesses to the counter are sequentially consistent."
  },
  {
   "property": "C101",
   "status": "proved",
   "theorems": [
    "Verif.Props.C101_live",
    "Verif.Props.C101_live_places",
    "Verif.Props.C101_form"
   ],
   "note": "The reference editor is the one of C88 (Spec/FieldSession); the place of the text under the mouse is given by C88_places and C101_live_places."
  },
  {
   "property": "C102",
   "status": "proved",
   "theorems": [
    "Verif.Props.C102_list"
   ],
   "note": "The reference has no indices but the scroll from which the first selection is searched. The calls which panic are those of C32."
  },
  {
   "property": "C103",
   "status": "proved",
   "theorems": [
    "Verif.Props.C103_block",
    "Verif.Props.C103_in_text",
    "Verif.Props.C103_columns",
    "Verif.Props.C103_too_long_counterexample"
   ],
   "note": "C103_block also shows that a block of code can always be formatted; in C103_in_text the whole text is supposed to be formatted without panic (C20). Columns written are counted in C103_columns for skins whose special characters have the expected width."
  },
  {
   "property": "C104",
   "status": "proved",
   "theorems": [
    "Verif.Props.C104_places",
    "Verif.Props.C104_hanging",
    "Verif.Props.C104_centered_counterexample"
   ],
   "note": "Lines of code are placed block by block (C103), tables as said by C10 and C62. The text is supposed to be displayed without panic (C71 says when)."
  },
  {
   "property": "C105",
   "status": "proved",
   "theorems": [
    "Verif.Props.C105_same",
    "Verif.Props.C105_consistent",
    "Verif.Props.C105_total",
    "Verif.Props.C105_next",
    "Verif.Props.C105_ends",
    "Verif.Props.C105_visible",
    "Verif.Props.C105_scroll_lines",
    "Verif.Props.C105_bounded",
    "Verif.Props.C105_write",
    "Verif.Props.C105_short_counterexample",
    "Verif.Props.C105_height_counterexample"
   ],
   "note": "C30 to C32 are about debug builds. The display is that of the debug build, for an area which is on the screen and with less than 65536 rows: no operation wraps then."
  },
  {
   "property": "C106",
   "status": "proved",
   "theorems": [
    "Verif.Props.C106_same",
    "Verif.Props.C106_fit",
    "Verif.Props.C106_thick",
    "Verif.Props.C106_wide_counterexample",
    "Verif.Props.C106_empty_counterexample",
    "Verif.Props.C106_aligned_panics"
   ],
   "note": "C12 is about debug builds, and excludes the words of wide characters. The truncation which follows the elisions is that of the debug build: its subtractions do not wrap."
  },
  {
   "property": "C107",
   "status": "proved",
   "theorems": [
    "Verif.Props.C107_contains",
    "Verif.Props.C107_same",
    "Verif.Props.C107_pad",
    "Verif.Props.C107_too_much",
    "Verif.Props.C107_max_width",
    "Verif.Props.C107_far_counterexample"
   ],
   "note": "C18 is about debug builds."
  },
  {
   "property": "C108",
   "status": "proved",
   "theorems": [
    "Verif.Props.C108_restored",
    "Verif.Props.C108_plain",
    "Verif.Props.C108_quit",
    "Verif.Props.C108_drop_answer",
    "Verif.Props.C108_reading",
    "Verif.Props.C108_late",
    "Verif.Props.C108_drop_counterexample",
    "Verif.Props.C108_exit_counterexample",
    "Verif.Props.C108_early_counterexample"
   ],
   "note": "The meaning of the functions of crokey (enable_combining changes the protocol, the drop of the combiner restores it) is taken from its documentation."
  },
  {
   "property": "C109",
   "status": "proved",
   "theorems": [
    "Verif.Props.C109_same",
    "Verif.Props.C109_lines_same",
    "Verif.Props.C109_lines",
    "Verif.Props.C109_pages",
    "Verif.Props.C109_mad",
    "Verif.Props.C109_no_column",
    "Verif.Props.C109_mad_scroll",
    "Verif.Props.C109_pages_counterexample",
    "Verif.Props.C109_unwrapped_counterexample"
   ],
   "note": "C28 and C29 are about debug builds. Texts are those a markdown parser gives (Readable) where they are formatted."
  },
  {
   "property": "C110",
   "status": "proved",
   "theorems": [
    "Verif.Props.C110_debug_room",
    "Verif.Props.C110_same",
    "Verif.Props.C110_total",
    "Verif.Props.C110_reachable",
    "Verif.Props.C110_content",
    "Verif.Props.C110_session",
    "Verif.Props.C110_places",
    "Verif.Props.C110_debug_session",
    "Verif.Props.C110_debug_counterexample",
    "Verif.Props.C110_display_same",
    "Verif.Props.C110_no_column"
   ],
   "note": "C27, C45, C46 and C88 are about debug builds, in areas with a column."
  },
  {
   "property": "C111",
   "status": "proved",
   "theorems": [
    "Verif.Props.C111_same",
    "Verif.Props.C111_total",
    "Verif.Props.C111_rows",
    "Verif.Props.C111_draw",
    "Verif.Props.C111_no_row",
    "Verif.Props.C111_flat",
    "Verif.Props.C111_below",
    "Verif.Props.C111_last_top"
   ],
   "note": "C43 is about debug builds."
  }
 ]
}