{"id": "C01", "title": "Wrapped lines fit the requested width", "statement": "When a composite wider than the width is wrapped to a width of at least 3, every produced line has a visible length (bullet, quote mark or indentation included) of at most that width, as long as the indentation leaves room for the widest character of the text. Wrapping never panics in that case.", "quantifier": "every composite (any kind, any number of compounds, any text), every width, every character-width function, both list indentation modes", "why_tests_cant": "The greedy placement of tokens depends on every combination of token widths, indentation and characters of width 0, 1 or 2; tests only sample a few texts and widths.", "anchors": ["src/fit/wrap.rs: hard_wrap_composite, composite_kind_widths, follow_up_composite", "src/tokens.rs: tokenize", "src/composite.rs: FmtComposite::add_compound"]}
{"id": "C02", "title": "Wrapping loses no text and no style", "statement": "Reading the wrapped lines one after the other gives back the non whitespace characters of the original composite, in order, each exactly once and each with its original bold/italic/code/strikeout style. Only whitespace may disappear.", "quantifier": "every composite, every width for which wrapping does not panic", "why_tests_cant": "A loss or duplication may need a precise coincidence of token boundary, compound boundary and line end.", "anchors": ["src/fit/wrap.rs: hard_wrap_composite", "src/tokens.rs: tokenize, Token::to_compound"]}
{"id": "C03", "title": "The cached visible length of wrapped lines is right", "statement": "For every composite produced by wrapping, the visible_length field equals the width computed from its kind and its compounds by MadSkin::visible_composite_length.", "quantifier": "every composite whose cached length was right, every width", "why_tests_cant": "The cache is updated incrementally in several places; a drift only shows for some mixes of kinds and widths.", "anchors": ["src/fit/wrap.rs", "src/composite.rs: FmtComposite", "src/skin.rs: MadSkin::visible_composite_length"]}
{"id": "C04", "title": "Wrapping a text keeps fitting lines, never fails from width 3, and is stable", "statement": "hard_wrap_lines returns lines that already fit unchanged and never reorders anything; it returns an error only when the width is below 3; if, in every line, the indentation leaves room for the widest character, it doesn't panic, and wrapping again the result with the same width changes nothing.", "quantifier": "every list of formatted lines, every skin margins, every width", "why_tests_cant": "Stability and error freedom quantify over all lines and margins.", "anchors": ["src/fit/wrap.rs: hard_wrap_lines", "src/line_style.rs: LineStyle::margins_in", "src/text.rs: FmtText::from_text"]}
{"id": "C05", "title": "Tokenization is lossless and bounded", "statement": "The tokens of a list of compounds, put end to end, give back exactly the text of the compounds with each character's style; blank tokens hold only whitespace out of code; no token is wider than the maximum unless it is a single character; token widths are exact.", "quantifier": "every list of compounds, every maximum width", "why_tests_cant": "Quantifies over all texts and over all byte positions of multi-byte characters.", "anchors": ["src/tokens.rs: tokenize, Token"]}
{"id": "C06", "title": "Column widths computed for a table always fit", "statement": "TblFit::fit returns as many widths as columns, each at least 3, whose total plus borders is at most the available width; nothing is changed when the natural widths fit; when columns are shrunk the available width is fully used and no column grows. No subtraction underflows and no division by zero happens.", "quantifier": "every available width, every number of columns, every set of cells seen in any order", "why_tests_cant": "The three step repartition involves integer rounding on unbounded lists of columns.", "anchors": ["src/fit/tbl_fit.rs: TblFit::new, see_cell, fit, ColData"]}
{"id": "C07", "title": "Fixing a table never panics and gives a rectangular table", "statement": "After the columns of a table are fixed, every row has the same number of cells, all cells of a column and all rules have the same width, and a whole row with its borders is at most the available width. This does not panic when the characters of the cells take at most 3 columns and, if columns must be dropped, when each row has cells in all the kept columns or only short cells (the code panics on a ragged row with a cell to wrap in a table too large for the width). Cells are aligned as the last rule above them, the first and last rules become borders.", "quantifier": "every table (rows of any lengths, rules anywhere), every width", "why_tests_cant": "Ragged rows combined with narrow widths make index computations depend on three different column counts.", "anchors": ["src/tbl.rs: Table::fix_columns, fix_all_tables", "src/line.rs: RelativePosition, FmtLine"]}
{"id": "C08", "title": "Fixing tables keeps the text", "statement": "Fixing the tables of a text leaves every non table line as it was and in the same order, and inside tables the non whitespace characters of each kept column are preserved, in order, with their style, the inserted rows only holding the continuation of the wrapped cells.", "quantifier": "every list of lines, with any number of tables", "why_tests_cant": "Row insertion while iterating and processing several tables of one text shifts indices.", "anchors": ["src/tbl.rs: find_tables, fix_all_tables, Table::fix_columns"]}
{"id": "C09", "title": "Code blocks are justified block by block", "statement": "Justification gives to all lines of each maximal run of consecutive code lines a spacing width equal to the longest of the run, and changes nothing else.", "quantifier": "every list of lines", "why_tests_cant": "Runs may start or end anywhere and have any length.", "anchors": ["src/code.rs: find_blocks, CodeBlock::justify, justify_blocks"]}
{"id": "C10", "title": "A rendered line takes exactly the columns announced", "statement": "The number of columns written for a formatted line is its visible length plus its margins and paddings; with right completion and an outer width large enough it is exactly this outer width, for every kind of line. (Guards, needed: no content is larger than the inner spacing given to it, a table rule has at least one column, list depths are less than 255.)", "quantifier": "every formatted line, every outer width, every skin with single column bullet, quote mark and border characters", "why_tests_cant": "Alignment, inner padding, margins, kind prefixes and completions add up; only a general computation covers the combinations.", "anchors": ["src/skin.rs: MadSkin::write_fmt_composite, write_fmt_line, visible_line_length", "src/spacing.rs: Spacing"]}
{"id": "C11", "title": "A formatted text fits the terminal width", "statement": "All lines of a FmtText built with a width are rendered in at most this number of columns, as soon as nothing makes it impossible: code lines (which are not wrapped) are no larger than the width, margins and bullets leave room for a character, and tables have a shape which can be laid out.", "quantifier": "every parsed markdown text, every width at least 3, every skin with single column bullet, quote mark and borders", "why_tests_cant": "It is the end-to-end composition of justification, table layout, wrapping and rendering for all texts.", "anchors": ["src/text.rs: FmtText::from_text", "src/code.rs: justify_blocks", "src/tbl.rs: fix_all_tables", "src/fit/wrap.rs: hard_wrap_lines", "src/skin.rs: write_fmt_line"]}
{"id": "C12", "title": "Fitting a composite makes it fit", "statement": "After Fitter::fit or FmtComposite::fit_width the visible length is at most the requested width, the cached length is right, and a composite that already fits is unchanged, without panic; a composite made of characters of at most k columns, when it's shortened, is brought to the width less at most 2(k-1) columns, hence exactly to the width for characters of one column; after fill_width a composite without spacing takes exactly the width, and one which already had a spacing takes the greatest of both widths, with the new alignment. (Guards, needed: the bullet or quote mark, if any, leaves at least a column; no token is made of two wide characters only, or of zero-width ones inside, when inner elision is enabled; no compound is empty when aligned right or centered.) Without the last two guards fitting may panic, but a result still fits and has the right cached length; without inner elision, the panics are exactly for the composites which must be shortened to at least 2 columns and have an empty compound before the place up to which their start must be removed (excess + 1 columns aligned right, half of the excess + 1 centered), whatever the cached length.", "quantifier": "every composite, every width, every alignment, every character-width function for which the ellipsis takes one column", "why_tests_cant": "The elision loop works on byte offsets of the biggest compound or token and must be right for every Unicode text.", "anchors": ["src/fit/composite_fit.rs: Fitter::fit, Zone", "src/composite.rs: FmtComposite::fit_width, fill_width"]}
{"id": "C13", "title": "Fitting only removes text on the announced side", "statement": "With left alignment the fitted composite is a prefix of the original one followed by an ellipsis, with right alignment an ellipsis followed by a suffix, with centered alignment an infix with ellipses; remaining characters keep their style; with no alignment and inner elision, the result is the original text where some pieces are replaced with an ellipsis. (From a width of 2, with the same guards as C12.)", "quantifier": "every composite with non empty compounds, every width at least 2, every character-width function for which the ellipsis takes one column", "why_tests_cant": "Quantifies over all compounds and texts.", "anchors": ["src/fit/composite_fit.rs: Fitter::fit, Zone::cut"]}
{"id": "C14", "title": "Alignment paddings are exact", "statement": "For a spacing, left and right completions add up to exactly the missing columns, all on the right (left), all on the left (right), or balanced with at most one more on the right (center); they are zero when the content is too wide. print_counted and write_str output exactly the spacing's width in characters.", "quantifier": "every width, every content length, every alignment", "why_tests_cant": "Rounding of odd differences and too-wide contents.", "anchors": ["src/spacing.rs: Spacing::completions, completions_for, write_counted_str, write_str"]}
{"id": "C15", "title": "String truncation keeps the longest fitting prefix", "statement": "StrFit::make_string returns a prefix of the string (on a character boundary) with tabs replaced, with a width of at most the maximum, and adding the next character would not fit; count_fitting returns the corresponding byte and column counts.", "quantifier": "every string, every maximum width, every character-width function for which a space takes one column", "why_tests_cant": "Combination of wide, zero width, tab and backspace characters at every boundary.", "anchors": ["src/fit/str_fit.rs: StrFit::from, make_string, make_cow, count_fitting"]}
{"id": "C16", "title": "A crop writer never writes more columns than allowed", "statement": "Over any sequence of operations on a CropWriter, the total of the columns written and of the remaining allowance is at most the initial allowance; the allowance never underflows; once full nothing more is written. Each call keeps what was written before and adds, taking their columns from the allowance: for a string its longest prefix which fits (tabulations replaced), for a gentle string as many characters as allowed, for a filling as many repetitions as asked and allowed, for a single char this char when it's strictly narrower than the allowance (a tabulation given as unstyled char being the string replacing it).", "quantifier": "every sequence of queue_char/queue_str/queue_g_string/fill/repeat operations (no raw tabulation passed as a single char, filling characters of one column), every allowance, every character-width function for which a space takes one column", "why_tests_cant": "It is an invariant over unbounded histories of operations.", "anchors": ["src/fit/crop_writer.rs: CropWriter"]}
{"id": "C17", "title": "Fillings have the exact length asked for", "statement": "Filling::queue_unstyled and queue_styled write exactly len times the filling character, whatever the length and the byte size of the character.", "quantifier": "every length and every character", "why_tests_cant": "The chunked loop must be right for lengths around each multiple of the internal buffer, for all lengths.", "anchors": ["src/fit/filling.rs: Filling"]}
{"id": "C18", "title": "Area geometry", "statement": "For areas whose right and bottom edges are below 65536, contains holds exactly for the cells of the rectangle (for other areas, it's also right or else panics, exactly when it must compute an edge which isn't a u16); pad shrinks symmetrically or panics; pad_for_max_width gives a centered sub-area of width at most the maximum and does nothing if the area is already narrow enough.", "quantifier": "every area, point and padding in the u16 range", "why_tests_cant": "Boundary and overflow cases over the whole u16 range.", "anchors": ["src/area.rs: Area::contains, pad, pad_for_max_width, right, bottom"]}
{"id": "C19", "title": "Scrollbar position is consistent", "statement": "compute_scrollbar returns None exactly when the content fits; otherwise for every valid scroll the thumb starts inside the track and is never lower than one row after it, the first row is in the thumb exactly if the scroll is 0, the thumb moves monotonically with the scroll and when the scroll is maximal it covers the last row; its place is proportional to the scroll (rounded down, but not at the first row when scrolled) and its extent to the visible part of the content (rounded down, and stopping before the last row when the end isn't visible in more than 3 rows). It panics exactly when the content doesn't fit and the end of the thumb isn't a u16.", "quantifier": "every content height, available height of at least 2, valid scroll and top", "why_tests_cant": "Integer division rounding over all heights and scrolls.", "anchors": ["src/area.rs: compute_scrollbar, Area::scrollbar"]}
{"id": "C20", "title": "Input field content is always valid", "statement": "After any sequence of edits, moves and selections, the content has at least one line, the cursor and the selection tail are on existing positions, no line contains a newline, and no operation panics. line_saturating gives the line of its index, or the last one. The only restriction is on set_selection_tail (which an InputField doesn't expose): its argument must be on the line of the cursor, after the last line, or an existing position, as it is otherwise bounded by the wrong line.", "quantifier": "every sequence of editing operations with any arguments", "why_tests_cant": "It is an invariant over unbounded operation histories.", "anchors": ["src/views/input_field_content.rs: InputFieldContent"]}
{"id": "C21", "title": "Setting then reading the content of an input round trips", "statement": "After set_str(s) or set_content(s), get_content returns s without its carriage returns and backspaces; is_str(s) is true exactly when the string of the content is s; the character iterator yields exactly this string.", "quantifier": "every string and every previous state of the input", "why_tests_cant": "All strings, including those with consecutive or trailing newlines.", "anchors": ["src/views/input_field_content.rs: set_str, insert_str, is_str, IntoIterator, Display", "src/views/input_field.rs: set_content, get_content, is_content"]}
{"id": "C22", "title": "Editing refines a plain text with a cursor", "statement": "Seen as the text before and after the cursor, insert_char/insert_new_line/insert_str append to the left part, del_char_left removes the last character of the left part, del_char_below the first of the right part, moves shift the boundary, and nothing else changes. One exception: del_char_below on the empty last line of a content with several lines removes this line.", "quantifier": "every valid content and every operation", "why_tests_cant": "Refinement over all contents; in particular at line starts and ends.", "anchors": ["src/views/input_field_content.rs: insert_char, insert_new_line, insert_str, del_char_left, del_char_below, move_left, move_right"]}
{"id": "C23", "title": "Copying and cutting the selection are consistent", "statement": "selection_string is exactly the text between the two ends of the selection (both included); cut_selection returns this text, and removes exactly it from the content when the selection lies inside a line (not up to its end unless it's the last one) or is made of whole lines (not the last of several ones). For other selections some selected characters may stay, but nothing is lost out of the selection except the newline before removed last lines. Range::contains and contains_pos are true exactly for the positions between the two ends in the reading order, both included.", "quantifier": "every valid content, cursor and selection tail", "why_tests_cant": "Quantifies over all pairs of positions in all texts.", "anchors": ["src/views/input_field_content.rs: selection, selection_string, cut_selection, del_selection, Range, Chars"]}
{"id": "C24", "title": "Line moves and swaps permute lines", "statement": "swap_lines, move_current_line_up and move_current_line_down only exchange two lines: all the lines are kept; the cursor follows its line, at the same column if the other line is long enough; up then down restores the text.", "quantifier": "every valid content", "why_tests_cant": "All contents and cursor positions.", "anchors": ["src/views/input_field_content.rs: swap_lines, move_current_line_up, move_current_line_down"]}
{"id": "C25", "title": "Word operations and column conversions", "statement": "Word deletions remove only a contiguous part of the current line next to the cursor; word moves stay in the line: to the left, over a character then only over alphanumeric ones, until just after another kind of character or at the start of the line; to the right, by at least one position and as long as the second next character is alphanumeric (the character just after the starting one isn't examined, so a separator may be passed), ending on the last alphanumeric character before another kind of character or before the end of the line, or at the end; vertical moves keep the column as far as possible; the column of a character index converts back to this index when characters have a positive width.", "quantifier": "every valid content and every character classification", "why_tests_cant": "All texts and classifications.", "anchors": ["src/views/input_field_content.rs: move_word_left, move_word_right, del_word_left, del_word_right, select_word_around, col_to_char_idx, char_idx_to_col"]}
{"id": "C26", "title": "The cursor of an input field stays visible", "statement": "After any operation which adjusts the scroll (all but the deletion keys, clicks and the wheel), the column of the cursor of a focused field is displayed, with two more columns at its left when the line is scrolled and one more at its right unless the end of the line is displayed (with at least 4 text columns), its row is displayed too, unless the cursor went below the previously displayed rows without being on the last line, in which case it is on the row just after the displayed ones; the vertical scroll never shows empty rows while there are more lines than rows. The displayed rows move only as much as needed: not at all when they have the cursor, up to the cursor when it's above them (or up to the row before it in a field of more than 4 rows), and down by the smallest move otherwise. In a line too long to be displayed, in at least 4 columns, the displayed columns too: not at all when they have two columns before the cursor (or start with the line) and one after it, to the left to have exactly two columns before it, or to the right to have exactly one after it, without going further than one column after the end of the line. The horizontal scroll is not used for a line which fits, and shows at most one column after the end of a longer one; with less than 4 text columns, the cursor is in the displayed columns or just after the last one, and the character before it is displayed if the line is scrolled and there are 2 columns (when the characters of the line have one column). When the cursor is in the displayed window of a focused field without wide selection (and, in password mode, with characters as wide as the stars), exactly one cell is drawn with the cursor style, and it shows the character under the cursor or an ellipsis. Giving a focus or an area changes only this and the scroll.", "quantifier": "every content, every area with a text column (4 for the full claim) and 1 row high, every previous scroll", "why_tests_cant": "The scroll depends on the whole history.", "anchors": ["src/views/input_field.rs: fix_scroll, apply_keycode_event"]}
{"id": "C27", "title": "An input field is drawn in its area", "statement": "display_on writes exactly area.width columns per row, for every row of the area (for contents without tabs, or in password mode), with the scrollbar in the last column exactly when there are more lines than rows; the returned terminal position is in the area; a line which fits is shown whole, with the selected characters in the cursor style; in password mode, what's displayed only depends on the lengths of the lines. In an area on the screen, whatever the content and the scroll, the display panics exactly when there's a scrollbar (more lines than rows, counted on 16 bits) and no column for it, or one which can't be computed (C19); when only its rows go past the largest coordinate, or also its columns for a field without focus, it panics in these cases or when a row isn't a u16.", "quantifier": "every content of less than 65536 lines, scroll (which added to the bottom of the area is below 65535), area of the screen with a column for the text, focus and password modes; spaces, ellipsis and scrollbar characters of one column", "why_tests_cant": "All texts with wide characters and all scrolls.", "anchors": ["src/views/input_field.rs: display_on, apply_click_event"]}
{"id": "C28", "title": "Text view scroll stays in range and rows show the right lines", "statement": "Starting from 0, after any sequence of scroll operations (with line counts other than the least i32, and numbers of pages which don't make, in f64, less than -2147483647 lines: exactly those panic) the scroll is at most the maximum (content height minus view height, or zero), and each operation brings the scroll to the requested value bounded by 0 and this maximum (for a number of pages, the product by the height in f64, rounded away from zero: exact for whole numbers of pages, and otherwise the exact product rounded away from zero but for an error of less than a millionth of a line before this rounding); in a view with at least a row, line and page operations and keys return true exactly when the scroll changed, and paging down from the start shows every line. The written rows are the lines from the scroll on, one per row of the area, then spaces, and for less than 65536 lines the scrollbar is shown when the lines don't all fit; each row takes exactly the width of the area when lines fit in it and the characters drawn by the skin take one column. For lines which can be displayed, the display panics exactly when a row isn't a u16 or when there's a scrollbar (more lines than rows, counted on 16 bits) and no column for it, or one which can't be computed (C19).", "quantifier": "every sequence of scroll operations, every content, skin, area and height", "why_tests_cant": "Histories and contents are unbounded.", "anchors": ["src/views/text_view.rs: TextView"]}
{"id": "C29", "title": "MadView keeps a valid scroll and fills its area", "statement": "After any sequence of scroll operations and resizes of a MadView, the scroll is at most the number of lines in the current width, and it's valid for the current size unless the height was increased in the same width; changing the width brings it back to 0. A key or a scroll panics exactly when the area has no column, when the text can't be formatted in its width less one, or when the number of lines asked for is the least i32 or can't be counted by an i32; the display of a parsed text panics exactly in the first two cases, when a row isn't a u16, or when the scrollbar (which write_in_area doesn't have) can't be computed. A text which can be formatted in the width of the area less one, in less than 65536 lines, is written, by a MadView with a valid scroll or by write_in_area, on exactly the rows and columns of the area (which has a row), unless the margins of a line style plus 3 are exactly the width, when the characters drawn by the skin take one column.", "quantifier": "every sequence of operations and sizes, every text, skin and area of width at least 4", "why_tests_cant": "Histories and texts are unbounded.", "anchors": ["src/views/mad_view.rs: MadView::resize, try_scroll_lines, try_scroll_pages, write_on", "src/skin.rs: MadSkin::write_in_area_on"]}
{"id": "C30", "title": "List view rows, counts and selection are consistent", "statement": "After any sequence of row additions, filterings, sorts, selections and clears, the number of displayed rows is the number of rows accepted by the filter, and the selection, if any, is an existing row; the selected row does not change unless asked, except by a clear or by an addition in a sorted list; rows are in the order of their additions, or sorted (by a stable sort) after an addition if an order is given.", "quantifier": "every sequence of operations, every filter and order", "why_tests_cant": "Histories are unbounded.", "anchors": ["src/views/list_view.rs: add_row, clear_rows, set_filter, remove_filter, sort, select_first_line, select_last_line, try_select_next, unselect"]}
{"id": "C31", "title": "Selection moves cycle over the displayed rows", "statement": "try_select_next moves to the next (previous) displayed row in cyclic order, skipping filtered rows (with no selection, to the first displayed one from the scroll on); hence the next row of the previous one is the selected one again, and calling it as many times as there are displayed rows goes through each of them once and comes back. select_first_line and select_last_line go to the first and last displayed rows, and the selection is then visible, if the area has at least 5 rows and the list isn't both scrolled and shorter than the area.", "quantifier": "every history, list of rows and filter", "why_tests_cant": "All patterns of displayed rows.", "anchors": ["src/views/list_view.rs: try_select_next, make_selection_visible, select_first_line, select_last_line"]}
{"id": "C32", "title": "List view scrolling never panics and stays in range", "statement": "Scrolling a list view panics exactly when it's downwards and the list is shorter than the area, when it makes unscrolled a list too long whose selection is the last row of the first page, or for the least i32; selecting the next or first row panics exactly when the list is too long for the area, isn't scrolled, and when the row to select is the last one of the first page, which has at least two rows (selecting the last row never panics); displaying doesn't panic when area and number of rows fit together in u16, and panics exactly when a column or row of the area isn't a u16, the scroll is after the rows of an area of more than 2 rows or the scrollbar can't be computed (C19), the scroll and number of rows being truncated to u16. Whatever the history the scroll isn't more than the number of rows, nor more than a row after the last page if the area doesn't change.", "quantifier": "every sequence of operations, every filter, order, area", "why_tests_cant": "Histories are unbounded.", "anchors": ["src/views/list_view.rs: try_scroll_lines, try_scroll_pages, scroll_to_bottom, make_selection_visible, write_on"]}
{"id": "C33", "title": "List view columns fit the area", "statement": "For columns whose minimums are at most their maximums, with sums of minimums and differences fitting in i32, update_dimensions gives each column a width between its minimum and its maximum, the total with separators being at most the area's width minus one when the minimums fit; the leftover space is used up if some column is below its maximum, the first columns being served first; when the minimums don't fit the widths are the minimums. With widths fitting in i32 it panics exactly when a column has a maximum lower than its minimum and the area is larger than the minimums with separators and scrollbar.", "quantifier": "every list of columns and every area width", "why_tests_cant": "All column sets; integer distribution of the excess.", "anchors": ["src/views/list_view.rs: update_dimensions"]}
{"id": "C34", "title": "The event source neither loses nor reorders nor duplicates events", "statement": "Any input is cut in one way only in single events, complete escape sequences (ALT-_, keys with neither ALT nor CTRL, ALT-\\) and sequences broken by an event which can't be in them. The events emitted are, in order and each once, those of the single events and of the broken sequences (their keys, then the breaking event) which the options keep (mouse moves and drags may be discarded, as the keys giving no combination), with the combination of the key; an event answers to a key exactly when it's a key event whose combination, or own key, is this one; none is missing when the source reads the next one. The escape sequences received, then those pending in their channel, are complete ones, in order and each once; none is missing if fewer than ten are pending at any time. The event counter is the number of emitted events, or one more just before the emission. The text of a sequence is made of its unmodified characters.", "quantifier": "every sequence of terminal events, every behavior of the key combiner, all options and every interleaving with the calls of the user", "why_tests_cant": "Unbounded event histories with sequences interrupted at any point.", "anchors": ["src/events/event_source.rs: EventSource::with_options", "src/events/escape_sequence.rs: EscapeSequence"]}
{"id": "C35", "title": "Double clicks are detected exactly", "statement": "An emitted event is marked double click exactly when it is a left button up (or down) on the cell of the most recent emitted left button release and less than 700ms after it; a click is an unmodified left button up which isn't a double click.", "quantifier": "every history of mouse events and times", "why_tests_cant": "Depends on the whole history.", "anchors": ["src/events/event_source.rs", "src/events/timed_event.rs: TimedEvent"]}
{"id": "C36", "title": "One event at a time until unblocked", "statement": "The event source never has emitted more events than one plus the number of unblock(false) calls before the first unblock(true); it emits nothing after an unblock(true) called when an event is received and not yet answered (an unblock(true) in advance lets one event pass), and then ends; unblock doesn't panic while it hasn't been called with true; the source isn't stuck unless an emitted event isn't answered by a call to unblock. The thread comes back to reading the terminal after at most three actions per read event, and when it does with every emitted event answered by unblock(false), all the events it had to emit have been emitted.", "quantifier": "every interleaving of input events and unblock calls", "why_tests_cant": "Quantifies over all schedules.", "anchors": ["src/events/event_source.rs: EventSource::unblock, with_options"]}
{"id": "C37", "title": "Tick beams send exactly the asked ticks", "statement": "A beam of count n sends at most n ticks, all with its payload, and exactly n if it is never stopped (its thread then ends); an infinite beam never ends unless stopped; tick_once asks for one tick, tick_several_times for the given number and tick_infinitely for ticks without end; the n-th started beam has id n; a beam which is stopped (by its id, with the others, or by the drop of the ticker) sends at most one more tick, none if it was awaiting, and its thread ends; stopping a beam by its id, as the work of a beam, doesn't change the others; stopping beams never waits, even if they're stopped already, as the channel of a beam which can be stopped always has room for the message.", "quantifier": "every interleaving of the beam threads and of ticker operations", "why_tests_cant": "Quantifies over all thread schedules.", "anchors": ["src/events/tick_beam.rs: Ticker, TickBeam, TickBeamHandle"]}
{"id": "C38", "title": "Questions return only a valid answer", "statement": "Question::ask returns for the first acceptable line, whose trailing whitespace is ignored: the default answer for a blank line if there is one, otherwise the typed key of the question; every line before it is answered by a message. It returns an error exactly when the input can't be read before an acceptable line. The ask! macro, when its default is a key, runs the block of the first answer having the returned key and never reaches its unreachable code. (At the end of the input, without default, ask loops forever.) Before anything is read, the text of the question and all the answers are shown in the order they were added, the keys equal to the last default in bold; the returned answer is a key which was shown or the last default.", "quantifier": "every set of answers, every default, every sequence of user inputs", "why_tests_cant": "All input histories.", "anchors": ["src/ask.rs: Question::ask, ask!"]}
{"id": "C39", "title": "Styles survive being written and parsed again", "statement": "Parsing the string written for a compound style, a styled char or a line style never fails and gives the same style, but for what the notation can't tell: Reset colors are dropped (a background then becomes the foreground), DarkGrey, DarkYellow, DarkBlue and DarkCyan are read as their light variants, Black and White as fixed colors of the palette, only the attributes bold, dim, italic, underlined, reverse, crossed out, encircled and overlined are kept, the underline color and margins over 65535 are lost, and whitespace, parentheses and digits aren't read as characters (the default char is used). A compound style is the same after reading if and only if it has none of these. As tokens, two different attributes are never written in the same way, but those which aren't written (Reset and the special underlines), and the attributes read as themselves are exactly those eight and the two blinking ones (NoBold, NoItalic, NoReverse, NotCrossedOut, NotOverLined and NotFramedOrEncircled are read as the attribute they remove).", "quantifier": "every color, attribute set, character, alignment and margins", "why_tests_cant": "The domain (all RGB colors, all attribute sets, all characters) is too large, and the ordered unanchored regexes interact.", "anchors": ["src/parse/mod.rs: parse_style_tokens, StyleToken", "src/parse/parse_color.rs", "src/parse/parse_attribute.rs", "src/parse/parse_compound_style.rs", "src/parse/parse_line_style.rs", "src/parse/parse_styled_char.rs"]}
{"id": "C40", "title": "Skins survive serialization", "statement": "Deserializing the serialization of a skin never fails, whatever the order in which the entries are given back, and gives the same skin but for what isn't written: what the notation of styles can't tell (C39), custom characters for tables, special chars, the indentation mode of list items, and, for a scrollbar with one character and no background, all but its colors. A skin is the same after deserialization if and only if it has none of these; the skins built by the crate are. Whatever its colors, a skin read back displays all texts with the same characters if it has none of the losses about characters, margins and alignments. In data given by a user: what isn't specified is as in the default skin, the value given last for a field is taken, under any of its names, a single style for headers is added to all levels while a list gives the first levels, and a skin is read exactly when every entry is accepted: a string, which is a style for the fields which are styles, a list of styles for the headers, or the two styles of the track and the thumb (each once) for the scrollbar.", "quantifier": "every skin", "why_tests_cant": "All skins; fields forgotten in one direction only show for skins using them.", "anchors": ["src/serde/serde_skin.rs", "src/serde/serde_scrollbar_style.rs", "src/scrollbar_style.rs"]}
{"id": "C41", "title": "Style overlay laws", "statement": "overwrite_with takes the foreground and the background of the second style if it has them and else keeps those of the first one, merges the attributes, and is idempotent and associative (the underline color of the second style is ignored); setters and attribute operations only change what they say; overwriting with a style made of a color or of an attribute sets it and nothing else; a compound which isn't an ellipsis has the line style overridden by the italic, strikeout, bold and code styles, in this order, and an ellipsis has its own style; blending a style changes nothing but its foreground, which is blended twice.", "quantifier": "every styles", "why_tests_cant": "Algebraic laws over all styles.", "anchors": ["src/compound_style.rs: CompoundStyle", "src/skin.rs: MadSkin::compound_style", "src/line_style.rs"]}
{"id": "C42", "title": "A styled char always draws what its accessors say", "statement": "After any sequence of setters, and after any history (blends included) ending with a setter, the character and style drawn by a StyledChar are those returned by its accessors; this is so for all the styled characters of the skins of the crate after any sequence of skin setters. Blending is the exception: until the next setter, the single character is still drawn with the former color.", "quantifier": "every sequence of setters", "why_tests_cant": "Histories are unbounded.", "anchors": ["src/styled_char.rs: StyledChar"]}
{"id": "C43", "title": "A rectangle is drawn inside its area", "statement": "For a rectangle of at least 2 columns and 2 rows in the screen, after Rect::draw each cell of the border has the character of its side or corner in the style of the rectangle, the inside is blanked with fill and unchanged without, and all the cells out of the area are unchanged, whatever was on the terminal. A new rectangle has no fill and a blank border. Drawing panics exactly when the row after the first one or after the last one isn't a u16, when the rectangle has no row and is at the top of the screen or, without fill and with more than 2 rows, when its right column isn't a u16.", "quantifier": "every area and border style", "why_tests_cant": "All sizes, positions and previous contents of the screen.", "anchors": ["src/rect.rs: Rect::draw"]}
{"id": "C44", "title": "A progress bar never overflows its length", "statement": "Displaying a ProgressBar never panics, whatever its part and length. For a length up to 2^24 and a part in [0,1], it writes full cells and at most one partial cell at the end, at most its length in characters, drawing the number of eighths of cell which is the nearest of the product of its length and part, computed in f32 (so with an error of at most one part in 2^24, the result of the arithmetic being the nearest f32, ties going to the even one); it's empty at 0, full at 1, and a greater part never gives a shorter bar. With a part which is negative or not a number it's empty (but an infinite one fills the memory). Formatted with a width at least its length in cells, it's padded to exactly this width, the cells being at the side asked for.", "quantifier": "every length and part", "why_tests_cant": "All values of the part, in particular those where rounding reaches 8 eighths.", "anchors": ["src/views/progress.rs: ProgressBar"]}
{"id": "C45", "title": "Events of an input field", "statement": "No sequence of operations or events makes an input field panic when its areas have a column and are in the screen (for any area, a call panics exactly when it adjusts the scroll of a field which ends without column and with more lines than rows, or when it's about the mouse and the area goes past the largest coordinate, as said by C18), and the cursor and the selection stay on existing positions; keys are ignored without focus, mouse events are ignored out of the area, a first click only gives the focus; a typed character or a pasted string is inserted at the cursor and replaces the wide selection when it's exactly removed, Backspace and Delete remove the selection or a character, movement keys move the cursor without changing the text and extend the selection with shift or else remove it; new line keys insert a line break, other key combinations with modifiers do nothing. The mouse never changes the text. Only the functions made for this change the area, the password mode and the new line keys; the focus is changed only by its setter, and given by a click in the area.", "quantifier": "every sequence of operations and events, every content, area, scroll", "why_tests_cant": "Histories are unbounded.", "anchors": ["src/views/input_field.rs: apply_event, apply_key_combination, apply_keycode_event, put_char, replace_selection, cut_selection"]}
{"id": "C46", "title": "Clicks of an input field hit the displayed character", "statement": "A click in a focused field puts the cursor on the first character starting at or after the clicked column in the clicked row (or else at the end of the line, or in the last line), hence on the displayed character for characters of one column; dragging selects from the previous position to the cell, a double click selects the word of the cell; the wheel changes the scroll by a row, within the text, scroll_up and scroll_down telling exactly whether something changed.", "quantifier": "every content, scroll, area and cell", "why_tests_cant": "All texts, scrolls and cells.", "anchors": ["src/views/input_field.rs: apply_click_event, apply_mouse_event, scroll_up, scroll_down, display_on"]}
{"id": "C47", "title": "List view display is aligned and shows the right rows", "statement": "A list view writes a title line, a rule, then the displayed rows in order from the scroll on, each in its row of the area, clearing the remaining ones: a row is written exactly when it's visible. Titles are centered over the maximal groups of successive columns of same title, the rule has tees in these groups and crosses between them, and title line, rule and rows have all the same number of characters. The columns stay those the list was created with but for their widths, each cell showing what its column extracts with the alignment given to it. Titles are in the style of the first level headers, the bars and the rule in the one of tables. Cells are in their style, with the selection's background in the selected row only. A scrollbar is drawn in the column after the area exactly if there are more displayed rows than rows in the body; in areas at the top of the screen its thumb is consistent with the scroll.", "quantifier": "every history in areas having a row, columns, rows, skin, area on the screen", "why_tests_cant": "All lists and histories.", "anchors": ["src/views/list_view.rs: ListView::new, write_on, scrollbar", "src/spacing.rs: Spacing::write_str, write_counted_str"]}
{"id": "C48", "title": "Color setters of a skin reach everything drawn", "statement": "After set_bg, every character displayed for a text without code has this background. After set_fg, every character displayed for a text without code has this foreground, except the borders of tables which keep the table style. set_bg also changes the scrollbar, set_fg doesn't; neither changes the colors defined by the code styles. set_headers_fg and set_headers_bg change the color of headers of all levels, and nothing in a text without headers. After set_global_bg, when bold, italic and strikeout define no background, every character displayed for a text without code has this background, except bullets, quote marks, special characters, borders of tables and ellipsis, which keep their style; foregrounds, attributes, code styles, tables and scrollbar are unchanged.", "quantifier": "every skin, color, text and width", "why_tests_cant": "All the skins, the texts and the places where a style can come from.", "anchors": ["src/skin.rs: MadSkin::set_fg, set_bg, set_headers_fg, set_headers_bg, set_global_bg, write_fmt_line", "src/line_style.rs", "src/table_border_chars.rs"]}
{"id": "C49", "title": "Colors never change the text", "statement": "Skins differing only by colors and attributes show the same characters for the same text; no sequence of color setters and blends changes the characters shown; with the skin without style, nothing displayed has a color or an attribute.", "quantifier": "every skin, sequence of color operations, text and width", "why_tests_cant": "All skins, histories of color operations and texts.", "anchors": ["src/skin.rs: MadSkin::no_style, blend_with, write_fmt_line", "src/text.rs: FmtText::from_text"]}
{"id": "C50", "title": "Displayed characters come from the source or the skin", "statement": "Every character displayed for a text is a character of its source or a character of the skin (bullet, quote mark, rule, table border, replacement of a special character) or a space. After limit_to_ascii, a skin without special characters shows an ASCII source with ASCII characters only.", "quantifier": "every skin, text and width", "why_tests_cant": "All the texts and skins.", "anchors": ["src/skin.rs: MadSkin::limit_to_ascii, write_fmt_line", "src/table_border_chars.rs: ASCII_TABLE_BORDER_CHARS"]}
{"id": "C51", "title": "Formatting keeps the content of a text", "statement": "The formatted text holds the content of the source, in order: each line of source is replaced by lines which read as it, each table row by rows in which each column reads as its cell, only whitespace may have disappeared, no character is added, moved or changes style; columns are missing only if the width cannot hold them.", "quantifier": "every text, skin and width (or no width)", "why_tests_cant": "All texts and widths, through table fitting, wrapping and justification of code.", "anchors": ["src/text.rs: FmtText::from_text", "src/tbl.rs: fix_all_tables", "src/fit/wrap.rs: hard_wrap_lines", "src/code.rs: justify_blocks"]}
{"id": "C52", "title": "Strings denote the expected colors", "statement": "The function gray gives the 24 grays of the palette of 256 colors, from 232 to 255, and the last one for greater levels, without overflow. parse_color reads ansi(v) as the color of the palette for v under 256, gray(n), grey(n), grayscale(n) and greyscale(n) as the nth gray for n under 24 and as an invalid gray level over it (in a style too, where a level over 255 is an unknown word), rgb(r, g, b) as the RGB color for components under 256 whatever the spaces after commas, #rrggbb and #rgb with hexadecimal digits in any case as the RGB color, and the names as their colors (darkblue, darkcyan, darkyellow and darkgrey excepted, which are read as the light ones); other numbers are refused.", "quantifier": "every number, every spacing and every hexadecimal digit", "why_tests_cant": "All numbers and digits can't be tried, and the regexes are tried in order, unanchored for names.", "anchors": ["src/parse/parse_color.rs: parse_color", "src/color.rs: gray"]}
{"id": "C53", "title": "Case and spacing don't matter in styles", "statement": "Two strings which differ only by the case of ASCII letters give the same color, compound style or line style (or are both refused), and the same styled char but for the case of its character. The tokens of a string are those of its words in order, whatever the whitespace around and between them; whatever the order of the words, the first color is the foreground (the word none counts as a first color, and leaves no foreground), the last of the following colors is the background, the attributes are those of the attribute words, the last alignment word gives the alignment of a line style, the first number its left margin and the last of the following numbers its right margin, and the first character word is the one of a styled char.", "quantifier": "every string, every spacing", "why_tests_cant": "All strings and spacings can't be tried.", "anchors": ["src/parse/mod.rs: parse_style_tokens, parse_style_token", "src/parse/parse_compound_style.rs: parse_compound_style", "src/parse/parse_line_style.rs: parse_line_style", "src/parse/parse_styled_char.rs: parse_styled_char"]}
{"id": "C54", "title": "Lines are broken only where needed", "statement": "When a line is wrapped, it is ended only if what follows doesn't fit in it: the first compound of the next line (with the blank compound dropped between them when a line of three compounds is cut around its blank middle) would make it wider than the width. Each line after the first one starts at the start of a compound, after a blank of a compound, or inside a part without blank which is wider than the room left by the indentation: no word of a compound which fits is cut. A line after the first one starts with a blank only if it's the last one of two or three compounds, put whole in the second line.", "quantifier": "every line (compounds, styles and kind), skin, width, and character widths", "why_tests_cant": "All lines, styles and widths: unit tests look at the lengths of a few wrapped lines.", "anchors": ["src/fit/wrap.rs: hard_wrap_composite", "src/tokens.rs: tokenize"]}
{"id": "C55", "title": "A composite written in a width fills it", "statement": "write_composite_fill writes exactly the asked width after the left margin of the line style: a composite which fits is written whole, in blanks distributed as the alignment says; a larger one is written with an ellipsis for its end (left), its start (right), its end and maybe its start (center), or inner parts (unspecified). write_composite and print_composite write the left margin, the bullet, quote mark or indentation and all the characters, and nothing else.", "quantifier": "every composite, skin, width and alignment", "why_tests_cant": "All composites, widths and alignments.", "anchors": ["src/skin.rs: MadSkin::write_composite, print_composite, write_composite_fill", "src/composite.rs: FmtComposite::fill_width", "src/inline.rs: FmtInline"]}
{"id": "C56", "title": "A displayed text reads as its source", "statement": "What is displayed of a text shows the lines of the source in order: each line by rows made of blanks, its bullet, quote mark or indentation, and a part of its text; each row of a table by rows of cells between borders; rules as rules. The parts put end to end (cell by cell in a table) read as the source: only whitespace may have been dropped, nothing is added, and columns are missing only if the width cannot hold them.", "quantifier": "every skin without special characters, width of at least 3 and text whose lines can have a place in this width", "why_tests_cant": "All texts and widths, through formatting and rendering.", "anchors": ["src/text.rs: FmtText::from_text, Display", "src/skin.rs: write_fmt_line"]}
{"id": "C57", "title": "The rendering width only moves lines, and the content width is the one of the widest line", "statement": "Whatever the rendering width set on a text, what is displayed for each line is the same content, starting at the column given by its margins and alignment in this width; only horizontal rules depend otherwise on the width, which they fill. The content width of a text whose tables all have a rule is the number of columns of its widest line, without margins, and rendering the text in at least this width, plus the margins, keeps all lines in it. So with a skin without margins, a text whose rendering width is its content width is aligned on its content: rules are exactly as wide as the widest line, and every other line is on the left, in the middle or on the right of this width. (In a table without rule the borders and the widths of the columns are not counted.)", "quantifier": "every skin, every text made for any width or without width, and every rendering width", "why_tests_cant": "All texts, widths and skins.", "anchors": ["src/text.rs: FmtText::set_rendering_width, content_width, Display", "src/line.rs: FmtLine::visible_length", "src/skin.rs: write_fmt_line"]}
{"id": "C58", "title": "The cells of an input field have the style it was given, and the cursor is the only reversed one", "statement": "Whatever the calls to set_normal_style and set_unfocused_style, the displayed text is in the last style given for the current focus; the cursor and the selection are in the normal style with the Reverse attribute added; the scrollbar is the default one, on the background of the normal style when the field is focused. A field without focus is all in its unfocused style, shows no cursor and returns no cursor position. In a focused field whose normal style isn't reversed, without wide selection and with the cursor in the displayed part, exactly one piece is reversed: the character under the cursor. (With a reversed normal style the cursor can't be seen.)", "quantifier": "every sequence of style settings, every field, every content, scroll and area", "why_tests_cant": "All histories of style changes and all contents.", "anchors": ["src/views/input_field.rs: InputField::new, set_normal_style, set_unfocused_style, display_on"]}
{"id": "C59", "title": "A displayed text has the styles of its markers", "statement": "Each character of the source which is displayed is in the style the skin gives to its markers in a line of its kind: the colors of the strongest of the line, italic, strikeout, bold and inline code styles having one, the attributes of all those which apply (an ellipsis alone between markers has the style of the ellipsis of the skin). Bullets, quote marks, borders and rules have their own styles, blanks the style of the line or of the paragraphs. With the default skins, what is bold is what is bold in the source and the main title, italic what is in italic, crossed out what is striked out, underlined the headers, and nothing has another attribute; code is the only text in color with the default skin, code and the headers of the three first levels with those for dark and light terminals; the main title is centered and there's no margin. Nothing displayed for a text without code has a background with the default skins and, with the main one, only bullets, quote marks, rules and borders have a foreground, which is a gray level.", "quantifier": "every skin without special characters, every text and every width, or no width, and every rendering width set later", "why_tests_cant": "All texts, widths, skins and combinations of markers.", "anchors": ["src/skin.rs: write_fmt_line, write_fmt_composite, compound_style, line_style, Default, default_dark, default_light", "src/text.rs: FmtText::from_text, Display"]}
{"id": "C60", "title": "Whatever the keys, an input field is a plain text editor", "statement": "Whatever the sequence of keys given to a focused input field without selection (characters, the keys of line breaks, Backspace, Delete, arrows, Home, End, Page Up and Page Down, ignored keys), as long as none of them is pressed with Shift to select, the content and the cursor are those of a plain text cut in two by a cursor to which the same keys are given: a character is added before the cursor, Backspace removes the character before it and Delete the one after it (or, at the end of the text, the line break which is just before), arrows go over a character or to the nearest column of the previous or next line, Home and End to the ends of the line. Hence typing a text in a new field gives this text, and typing then erasing it changes nothing. (A key with Shift which isn't otherwise used starts a selection, even if it does nothing: the second character typed after it replaces the first one.)", "quantifier": "every sequence of keys, every set of keys for line breaks, every area with a column, every content and cursor", "why_tests_cant": "All histories of keys.", "anchors": ["src/views/input_field.rs: apply_key_combination, apply_keycode_event", "src/views/input_field_content.rs: InputFieldContent"]}
{"id": "C61", "title": "A text with enough room is displayed line by line", "statement": "When the columns of a table have their place, with the borders, in the width, all the rows stay on one row with the whole content of their cells, columns take exactly the width of their widest cell (at least 3), missing cells are added empty, cells are aligned as the last rule above them says, and the first and last rules become borders. A text whose lines and tables all have their place (any text when there's no width, but for tables as wide as the largest usize) is formatted and displayed without panic, one row for each line of source, in order, each one with all its text, whitespace included; without width, horizontal rules are empty.", "quantifier": "every list of lines of source, with or without width, every skin without special characters, every width of characters", "why_tests_cant": "All texts; the layout depends on all the cells of a table.", "anchors": ["src/text.rs: FmtText::from_text, Display", "src/tbl.rs: Table::fix_columns, fix_all_tables", "src/fit/tbl_fit.rs: TblFit::fit", "src/fit/wrap.rs: hard_wrap_lines"]}
{"id": "C62", "title": "The borders of a table are aligned", "statement": "In a text formatted for a width (as in C11), each table has columns of at least 3 columns of terminal such that, whatever the width the text is then rendered with, all the lines of the table are drawn with their borders at the same columns: vertical bars on rows; on rules, by position in the table, corners at both ends, junctions or crosses at the other borders and horizontal bars everywhere between. The table is placed in the rendering width as the alignment of tables of the skin says, and isn't larger than the width it was formatted for.", "quantifier": "every list of lines of source which fits, every width of at least 3, every rendering width, every skin whose decorations take one column, every width of characters", "why_tests_cant": "All tables, with all contents of cells, wide characters and wrapped cells included.", "anchors": ["src/skin.rs: MadSkin::write_fmt_line", "src/tbl.rs: Table::fix_columns", "src/text.rs: FmtText::from_text, set_rendering_width"]}
{"id": "C63", "title": "Whatever the keys, a field of one line is a line editor with selection", "statement": "Whatever the sequence of keys (with or without Shift) and of cut and replace-selection commands given to a focused input field of one line, none of which adds a line break, nothing panics, there's still one line, and the text, the cursor, the selection and the texts which are cut are those of a plain line editor to which the same things are given: a line, the index of the cursor and the other end of the selection. Moves with Shift extend the selection, or start one, other moves end it; the selected text goes from one end to the other, both characters at the ends included; characters, pasted texts, Backspace and Delete replace or remove it when the ends differ; otherwise they act at the cursor, and the other end, if there's one, stays where it is, inside the text.", "quantifier": "every sequence of keys and commands, every content of one line with or without selection, every area with a column", "why_tests_cant": "All histories of keys and commands.", "anchors": ["src/views/input_field.rs: apply_key_combination, apply_keycode_event, cut_selection, replace_selection", "src/views/input_field_content.rs: InputFieldContent, Chars"]}
{"id": "C64", "title": "Views change exactly the cells of their areas", "statement": "On a terminal where printing a character replaces as many cells as it has columns, writing a text view (of lines formatted for its width), a markdown view, a text in an area or an input field changes all the cells of the area, into the characters of the rows at these columns, and leaves all the other cells of the screen as they were. Views whose areas have no common cell can thus be written in any order with the same result, and writing again the same view changes nothing. A list view whose table fits its area changes the columns of its table, in the rows of the title, of the rule and of the displayed data, clears the rows without data up to the end of the lines of the terminal, and draws its scrollbar in the column after its area; it leaves all other cells as they were, those of the area at the right of the table included.", "quantifier": "every view (text view, markdown view at least 4 columns wide whose text fits, input field without tab, list view of one-column characters in all its histories), with fewer than 65536 lines and a scroll in its bounds, skin of one-column characters, non empty area in the screen, initial content of the screen", "why_tests_cant": "All contents, areas and screens.", "anchors": ["src/views/text_view.rs: TextView::write_on", "src/views/mad_view.rs: MadView::write_on", "src/skin.rs: write_in_area_on", "src/views/input_field.rs: display_on"]}
{"id": "C65", "title": "No style leaks on what is printed next", "statement": "The commands queued for a formatted line, a text view, an input field, a list view or a rectangle print each of their characters in its own style (with the background of the selection for the cells and separators of the selected row of a list) whatever was printed before, and leave the terminal with its default colors and attributes, so that what is printed next isn't changed. This supposes that the terminal has its default colors and attributes before (an input field also resets the background), and that no style has a color of underline without attribute. On the contrary fill_bg and the functions setting a color leave it on the terminal: queue_fg and queue_bg change this color, if the style has one, and nothing else, and clear also empties the line from the cursor on.", "quantifier": "every view, line and rectangle, skin, screen", "why_tests_cant": "All sequences of commands sent to a terminal, which tests don't interpret.", "anchors": ["src/views/text_view.rs: TextView::write_on", "src/views/list_view.rs: ListView::write_on", "src/views/input_field.rs: display_on", "src/compound_style.rs: queue, queue_bg, queue_fg, clear", "src/rect.rs: Rect::draw", "src/fit/mod.rs: fill_bg"]}
{"id": "C66", "title": "What is selected with the mouse and highlighted is what is copied", "statement": "In a focused input field, pressing the left button on a cell, without shift, then dragging (through any cells, in the area or not, with any wheel events and in any direction) up to another cell of the area makes copy_selection return exactly the text from the character hit by the press to the one hit by the last drag, both included, without changing the text; after a double click it returns the whole word around the hit character (or this character if it isn't in a word). When the lines fit, the characters displayed in the cursor style in each row are exactly the part of the copied text which is in the line of this row (plus a space for a cursor at the end of the line).", "quantifier": "every content, scroll, area, cells, and sequence of mouse events between the press and the end of the drag", "why_tests_cant": "All histories of mouse events and all contents; the display and the copy are computed by different functions.", "anchors": ["src/views/input_field.rs: apply_mouse_event, copy_selection, display_on", "src/views/input_field_content.rs: make_selection, unselect, set_cursor_pos, select_word_around, selection_string"]}
{"id": "C67", "title": "A skin file means what it says, in any order", "statement": "In a skin deserialized from data written by a user, each style, character and line style is the default one when it isn't given, or else what is parsed of the last value given for it, whatever its accepted spelling and the other entries; the same holds for the scrollbar (one styled char giving both colors, or a track and a thumb) and for the characters of tables (entries with an unknown name being ignored); a string for headers is added to all levels as they are after the previous entries, a list replaces the first levels. Data are accepted exactly if every value is valid for its key (unknown keys are ignored if their value is a string, and are an error otherwise), and the order of entries about different settings doesn't matter.", "quantifier": "every list of entries (keys and values of any kind)", "why_tests_cant": "All data a user can write, in all orders.", "anchors": ["src/serde/serde_skin.rs: Deserialize for MadSkin, visit_map", "src/serde/serde_scrollbar_style.rs: ScrollBarStyleDef", "src/table_border_chars.rs: by_key"]}
{"id": "C68", "title": "The mode of the terminal is restored", "statement": "In a program which creates an event source only when it has none and meets no error when enabling the combination of keys, the terminal is in raw mode exactly when there's a source: it's in raw mode after a creation, and out of it once the source is dropped, for any number of sources created one after the other; a creation which fails because raw mode can't be enabled changes nothing. A source says it combines keys exactly if this was asked for and the terminal can do it. (Needed guards: an error when enabling the combination of keys leaves the terminal in raw mode without source; with two sources, dropping one ends raw mode for both.)", "quantifier": "every history of creations and drops, with every outcome of the calls to the terminal", "why_tests_cant": "All histories and failure points.", "anchors": ["src/events/event_source.rs: EventSource::with_options, Drop for EventSource, supports_multi_key_combinations"]}
{"id": "C69", "title": "Edits of an input can be undone", "statement": "In an input, what was inserted (typed, pasted, newlines included) is removed by as many removals on the left as it has stored characters, the text and the cursor being then exactly what they were; a character removed on either side can be typed again to the same effect; inserting a text is the same as inserting successively its parts, however it's cut; a move by one character is undone by the opposite one; pasting a cut selection restores the text (for the selections which are exactly cut, C23).", "quantifier": "every valid content, inserted text and cutting of this text", "why_tests_cant": "All contents and texts.", "anchors": ["src/views/input_field_content.rs: insert_str, insert_new_line, del_char_left, del_char_below, move_left, move_right, del_selection, selection_string"]}
{"id": "C70", "title": "Wrapping uses as few lines as possible", "statement": "A wrapped line takes as few lines as possible: any other way to lay it out on lines fitting the width, breaking only at blanks or between compounds, and even without counting the blanks around the breaks, takes at least as many lines. When the spaces of the text are alone, when its words fit and when it doesn't end with a space, a greater width never needs more lines, and this holds for a whole text of such lines when there are no margins. Both guards are needed: with several spaces between words, or with margins (dropped only in small widths), one more column may give one more line.", "quantifier": "every line (kind, compounds, styles), skin, width, character widths, and every other layout of the line", "why_tests_cant": "All layouts of all texts.", "anchors": ["src/fit/wrap.rs: hard_wrap_composite, hard_wrap_lines", "src/tokens.rs: tokenize", "src/line_style.rs: margins_in"]}
{"id": "C71", "title": "Formatting panics in exactly two cases", "statement": "Formatting a text (with headers of levels 1 to 8 and depths less than 255) panics if and only if: either, in a table which has too many columns for the width (4 for each, and 1), a row has cells for only a part of the columns which are kept and one of these cells takes several lines when wrapped in 3 columns; or the width is at least 3 and the indentation and bullet of a list item, which must then be at least of depth 2, don't hold in the width left by the margins. A text whose tables have full rows and whose list items are at most of depth 1 is thus formatted in any width, including 0. And once formatted, a text can be displayed with any rendering width.", "quantifier": "every text, skin, width (or none), character widths, and every rendering width set later", "why_tests_cant": "All texts, all widths.", "anchors": ["src/text.rs: FmtText::from_text, set_rendering_width", "src/tbl.rs: fix_columns, fix_all_tables", "src/fit/wrap.rs: hard_wrap_composite, hard_wrap_lines", "src/skin.rs: write_fmt_line, write_fmt_composite"]}
{"id": "C72", "title": "A markdown view can always be written and entirely read", "statement": "Whatever was done to a markdown view before (keys, scrolls, changes of area), writing it succeeds and covers exactly the rows of its area if its text can be formatted in the width of the area minus 1, and panics only if this formatting does. From any state, enough page up keys (the scroll divided by the height, plus 1) then i / height page down keys display the line i of the formatted text in the area: nothing is unreachable, and the whole source, with its styles (as in C59), can be read page after page. In the same way, in a list without filter nor selection and with its scroll at the top, each row is displayed after i / (height - 2) pages down.", "quantifier": "every text which has headers of levels 1 to 8 and depths less than 255, skin, area on the screen with a width of at least 1, every history of the view, every line or row index", "why_tests_cant": "All histories, all heights, all positions.", "anchors": ["src/views/mad_view.rs: MadView::write_on, apply_key_event, try_scroll_pages", "src/views/text_view.rs: TextView::write_on, try_scroll_lines, try_scroll_pages", "src/views/list_view.rs: ListView::try_scroll_pages, try_scroll_lines"]}
{"id": "C73", "title": "A failure of the writer damages nothing out of the area, and can be repaired", "statement": "If the writer fails while a text view, a markdown view or an input field is written, wherever it is (between two commands or in the middle of a text): the terminal has the final cells before some place, in the order of reading, and the cells it had before from this place; no cell out of the area was changed; and writing the view again later, the style having been reset, gives exactly what would be there without the failure. While a list view is written, nothing above, under or at the left of its area is changed; while a rectangle is drawn, nothing out of it is changed, nor inside if it isn't filled. Whatever is written (any text view, even too wide for its area, list view or rectangle, and more generally any commands starting with a move of the cursor), a cell which wouldn't be changed without the failure isn't changed, and writing again after the failure, the style having been reset, gives what would be there without it. Whatever the calls on a crop writer whose underlying writer may fail during each of them, and even if the caller goes on after the errors: there's no panic, the limit in columns isn't passed, a call which returns Ok wrote everything, and a call which returns an error wrote the part of its text that the writer took. (Not so if the texts have backspaces: those which weren't written are counted.) A failure may let a style on the terminal.", "quantifier": "every content, state and place of the views (those of C64 for the order), every rectangle, every place of the failure, every sequence of calls on the crop writer and of failures, every state of the terminal", "why_tests_cant": "All the places where a writer can fail, for all contents, and all sequences of failures.", "anchors": ["src/views/text_view.rs: TextView::write_on", "src/views/mad_view.rs: MadView::write_on", "src/views/input_field.rs: InputField::display_on", "src/views/list_view.rs: ListView::write_on", "src/fit/crop_writer.rs: CropWriter", "src/fit/filling.rs: queue_styled, queue_unstyled"]}
{"id": "C74", "title": "The event loop of an application handles every event once, in order, and ends properly", "statement": "For an application which loops on the events it receives, handles each of them, calls unblock(quit) and leaves on quit, whatever the schedule of its thread and of the event source's one: the events handled are, in order and each once, those the source has to emit for what was read on the terminal (C34), up to the first one on which the application quits; when the terminal can be read, all of them are handled; nothing is read nor handled after the quit; unblock never panics; something can always happen until both threads have ended; and there are at most five actions for an event read. So when a text is typed in such an application with an input field, which uses the default options, the content of the field is at any time the start of the text typed, and all of it when the terminal is read; when the key to quit comes after the text, nothing more is read and the field has exactly the text when the loop is left.", "quantifier": "every application, combiner, option, sequence of events of the terminal and schedule; for the typed text, every text, area of at least a column, width function and quit key with a modifier other than shift", "why_tests_cant": "All the interleavings of two threads on unbounded sequences of events.", "anchors": ["examples/inputs/main.rs: run_app", "src/events/event_source.rs: EventSource", "src/events/timed_event.rs: TimedEvent::is_key", "src/views/input_field.rs: InputField::apply_key_combination"]}
{"id": "C75", "title": "Elisions are in the middle of the longest word", "statement": "When a composite which is too wide is fitted with elisions in words, and its widest word (the last of the widest ones, with single column characters) has at least five characters and is long enough to absorb the excess while keeping its ends, then only this word is changed: exactly the characters in excess and one more are replaced by an unstyled ellipsis in its middle, as many characters being kept before it as after it, but for one. The same is true of the widest styled part when elisions are only in parts, or when no word is large enough to be cut.", "quantifier": "every composite, fitter, width of at least 2, width function and whitespace predicate", "why_tests_cant": "All texts, and all the positions of the words in them.", "anchors": ["src/fit/composite_fit.rs: Fitter::fit, Zone::token, Zone::biggest_token, Zone::compounds, Zone::biggest_compound, Zone::cut"]}
{"id": "C76", "title": "Which columns of a table are narrowed", "statement": "When the columns of a table are too wide, the ones with exceptionally wide cells are narrowed first: if what the columns have over the mean width of their cells (counted up to 4 per column, and for columns at least 2 over their mean) is enough to make the table fit, and the means of the columns with wider cells are at least 4, then no column is made narrower than the mean width of its cells, and columns whose cells all have the same width, or whose width is at most 4, keep it. Otherwise columns are narrowed to 3 one after the other, the widest first and from left to right: if a regular column is narrowed, or if any column is narrowed to 3, all the wider ones have a width of 3.", "quantifier": "every number of columns, available width and sequence of cells seen by the table fitter", "why_tests_cant": "All the combinations of cell widths and available widths.", "anchors": ["src/fit/tbl_fit.rs: TblFit::new, TblFit::see_cell, TblFit::fit, ColData::avg_width, div_ceil"]}
{"id": "C77", "title": "A password field shows nothing of the characters but their number and widths", "statement": "An input field in password mode shows only stars, spaces, ellipses and the characters of the scrollbar. If two users do the same gestures on it (keys, edits, selections, clicks, drags, wheel, resizes, changes of focus), but with other characters of the same widths, then what is seen (rows, styles, cursor, scroll) is the same at every moment, the calls return the same booleans, and they panic together; so two passwords of the same length can't be told apart by looking at the field. This excludes the gestures which look at the characters: moves, deletions and selections by words (among them the double click), and set_str, which keeps the cursor when the content is the same; and fields in which a key typing a character has been set to insert a line break.", "quantifier": "every field, every pair of histories of operations which are the same but for characters of the same widths (line breaks and ignored characters being at the same places), every character width function", "why_tests_cant": "It's about pairs of histories of any length: no test can compare all contents.", "anchors": ["src/views/input_field.rs: InputField::display_on, InputField::password_mode, InputField::apply_event, InputField::apply_key_combination, InputField::apply_mouse_event, InputField::fix_scroll", "src/views/input_field_content.rs: InputFieldContent"]}
{"id": "C78", "title": "An application redrawing its view after each event shows exactly this view", "statement": "An application made as the scrollable example (a MadView on the whole terminal, with a maximal width of 120 columns; keys scroll it by lines and pages; a change of size clears the screen and resizes the view; the view is written after each event) shows after any events exactly its text: the whole screen is the one obtained by writing on an empty terminal the lines wrapped for the present size, from the present scroll, and nothing of what was shown before is left, whatever the terminal does to its cells when it's resized. The scroll is moved by one line or by the height of the terminal, is never before the first line nor (by the keys) after the start of the last page, is kept by a resize which keeps the width of the text, and comes back to the start otherwise. No event makes it panic, and any other key quits.", "quantifier": "every markdown text which can be wrapped in the sizes of the terminal, every skin with characters of one column, every history of keys, resizes (terminals of at least 4 columns and one row) and other events, every state of the cells after a resize", "why_tests_cant": "It's about what is left on the screen after any history: a test compares a screen after a few events.", "anchors": ["examples/scrollable/main.rs: view_area, run_app", "src/views/mad_view.rs: MadView::from, MadView::write_on, MadView::try_scroll_lines, MadView::try_scroll_pages, MadView::resize", "src/views/text_view.rs: TextView::write_on", "src/area.rs: Area::full_screen, Area::pad_for_max_width"]}
{"id": "C79", "title": "What changed when a view says that an event wasn't used", "statement": "When a call on an input field (an event, a timed event, an edition, a change of focus, a paste or a cut) returns false, the field is exactly as before, except that a key which doesn't edit may have removed the selection (or started one from the cursor, with shift). So, unless part of the text was selected, what is displayed is the same as before, and an application redrawing only after true isn't late. The wheel returns true exactly when the scroll changed. A text view or a markdown view with at least one row returns true for a key exactly when its scroll changed, and a key changes nothing else.", "quantifier": "every input field, every call with every arguments, every width function; every text view and markdown view of at least one row, every key", "why_tests_cant": "Each of the many keys has its own returned value, and there are many reasons for which each may do nothing: tests don't check all the pairs.", "anchors": ["src/views/input_field.rs: InputField::apply_key_combination, InputField::apply_keycode_event, InputField::apply_mouse_event, InputField::apply_timed_event, InputField::set_focus, InputField::replace_selection, InputField::cut_selection", "src/views/text_view.rs: TextView::apply_key_combination, TextView::try_scroll_lines, TextView::try_scroll_pages", "src/views/mad_view.rs: MadView::apply_key_combination", "src/views/input_field_content.rs: InputFieldContent"]}
{"id": "C80", "title": "A form made of several widgets gives each event to the right widget, and shows all of them", "statement": "The form of the `inputs` example, made of a scrollable markdown text, three input fields with labels, one of them in password mode and one with several lines, never panics (in terminals of less than 65000 rows and columns, for texts which can be wrapped), whatever the sequence of keys, mouse events, changes of size and answers of the clipboard. After any sequence: the focus is the one given by the last mouse event (the field it was on, or else the text), escape (the text) or tab (the next widget), and only this widget is focused; each field is exactly as if it had been alone and had received only the keys hit when it had the focus, the mouse events which were on it and the changes of focus and area, and the text as if it had received only the keys hit when it had the focus and the changes of area; the other fields aren't changed by an event, and mouse events and changes of size never change a text. The widgets are placed according to the last size of at least 20 columns and 15 rows: they are in the screen (but for the bottom of the last label) and no two of them overlap. Ctrl-c puts in the clipboard exactly the selected text of the focused field, which isn't changed; ctrl-x removes it too and ctrl-v replaces it by the content of the clipboard, for the selections which are exactly removed (as in C45); nothing else is ever put in the clipboard. What is drawn, on any previous screen, is exactly each widget in its area, as it would be drawn alone, and blank cells elsewhere; in a smaller terminal (of 4 columns at least) only a message is shown. After an event for which false is returned the same would be drawn, unless there was a selection or the clipboard refused what was cut.", "quantifier": "every texts and skins (without margins) and styles of the form, every sequence of keys, mouse events, changes of size and answers of the clipboard, every previous screen, every width function; for what is drawn, as long as there's no tabulation and as the numbers of lines, and the sums of the scrolls and of the height of the terminal, are less than 65536", "why_tests_cant": "An application is a composition: the number of interleavings of focus changes, events and sizes has no bound, and unit tests of the widgets don't see the routing.", "anchors": ["examples/inputs/view.rs: View::new, View::set_focus, View::resize, View::apply_key_combination, View::apply_mouse_event, View::apply_timed_event, View::queue_on, Focus::next", "examples/inputs/clipboard.rs: copy_from_input, cut_from_input, paste_into_input", "src/views/input_field.rs: InputField", "src/views/mad_view.rs: MadView", "src/skin.rs: MadSkin::write_in_area_on"]}
{"id": "C81", "title": "A live markdown editor always shows its text and the rendering of exactly this text", "statement": "In the editor of the `render-input-markdown` example, made of an input field and of the rendering of its content, no key, mouse event or change of size panics (in terminals of less than 65000 rows and columns), and the field, which always has the focus, is exactly as if it had been alone and had received all the keys (ctrl-c, ctrl-x and ctrl-v being copying, cutting and pasting), all the mouse events and the areas given by the changes of size. Ctrl-c and ctrl-x give exactly the selected text to the clipboard, if it accepts it, and nothing else is ever given; ctrl-x removes it from the text and ctrl-v replaces it with what the clipboard gives, when several characters are selected in a line or as whole lines. In terminals of at least 20 columns and 15 rows the field and the rendering are in the screen, on halves separated by a blank row. What is drawn then, on any previous screen, is exactly the field in its area, the rendering of the current content in its area as a view of this fixed text would draw it, at its start, and blank cells elsewhere; in smaller terminals the screen is blank. Drawing panics in exactly two cases: what has been typed contains a table with too many columns for the width and a row having cells for only some of the kept ones, one of them taking several lines, or a list item which is too deep for the width. After an event for which false is returned the same would be drawn, unless there was a selection or the clipboard refused what was cut.", "quantifier": "every initial text, parser, skin (without margins) and styles, every sequence of keys, mouse events, changes of size and answers of the clipboard, every previous screen, every width function; for what is drawn, as long as there's no tabulation and as the numbers of lines, and the sum of the scroll and of the height of the terminal, are less than 65536", "why_tests_cant": "What is drawn depends on everything which has been typed: all the histories of edition and sizes are to be considered.", "anchors": ["examples/render-input-markdown/view.rs: View::new, View::resize, View::apply_key_event, View::apply_mouse_event, View::apply_timed_event, View::queue_on", "examples/render-input-markdown/clipboard.rs: copy_from_input, cut_from_input, paste_into_input", "src/text.rs: FmtText::from", "src/views/text_view.rs: TextView::write_on", "src/views/input_field.rs: InputField"]}
{"id": "C82", "title": "An application shows its current state whenever it waits, and gives the terminal back", "statement": "For the applications of the `inputs` and `render-input-markdown` examples, whose `main` is the same around their view (whatever the system does with their output: commands are sent when flushed or before, and any write may fail). Whenever the application waits for an event, it has received all the previous ones, none of which is ctrl-q, everything it wrote has been sent, the terminal is on the alternate screen, in raw mode, with the mouse captured and without cursor, the screen of the user is unchanged, and the alternate screen shows the state of the view when it was last drawn, that is before the last events, for which false was returned (unless something else wrote on it since then). So, when there was no selection, no cut refused by the clipboard and nothing else written on the screen at the events for which false is returned, the form (or the editor with its rendering) is on the screen exactly as it results from all the events. When nothing fails the application ends at the first ctrl-q and not before, or when the event source is closed, and then the terminal has all its modes and its screen as before. It's the same, with an error, when writes fail while it's running, if the calls of the start and of the end are done without error. Whatever the failures of the writer, even after a panic, the raw mode is off when the application doesn't run any more, if at least an event was received and if raw mode can be changed. But a panic leaves the terminal on the alternate screen, without cursor and with the mouse captured, and in raw mode too when it comes before the loop on events.", "quantifier": "every view (as functions giving its state and its drawing), every sequence of events with what other processes write on the screen at these times, every succession of successes and failures of the writer and of the changes of mode, and every size of the pieces in which the buffered commands are sent; for the two examples, every text, skin and style as in C80 and C81", "why_tests_cant": "What the user sees depends on when the buffer is flushed, on failures which can happen at any call and on the whole history of events: tests can't enumerate them.", "anchors": ["examples/inputs/main.rs: main, run_in_alternate", "examples/render-input-markdown/main.rs: main, run_in_alternate", "src/events/event_source.rs: EventSource::with_options, Drop for EventSource", "examples/inputs/view.rs: View", "examples/render-input-markdown/view.rs: View"]}
{"id": "C83", "title": "The lines of the borders of tables and rectangles join", "statement": "In a text formatted for a width (as in C11), with one of the predefined sets of border characters (standard, ASCII, rounded), and whatever the width it's then rendered with, the borders of each table make a drawing in one piece: there are columns, the same for all the lines of the table, where each line has a stroke going down to the stroke going up of the next line, and each rule is a line without hole from the first of these columns to the last one. With the standard and rounded sets no stroke goes out of the table by its left and right borders, by its first line when it's a rule, nor by its last one. The border of a drawn rectangle of at least 2 columns and rows is a closed line with the middle line styles: each cell of the border has strokes exactly towards its neighbours on the same side, with arcs at the corners for the round one only (as for the rounded set of tables); it's the outside half of the cells with the half width style (a quarter of a cell is filled exactly when it touches the edge of the rectangle) and blank with the default style.", "quantifier": "every text, skin (with a predefined set of border characters of one column), width of formatting of at least 3 columns, width of rendering; every rectangle in the screen, whatever was on it", "why_tests_cant": "The position of a rule depends on the table it's in, which is itself found in any text and cut in any number of rows: tests look at a few tables.", "anchors": ["src/table_border_chars.rs: STANDARD_TABLE_BORDER_CHARS, ASCII_TABLE_BORDER_CHARS, ROUNDED_TABLE_BORDER_CHARS", "src/tbl.rs: Table::fix_columns", "src/skin.rs: MadSkin::write_fmt_line", "src/rect.rs: Rect::draw, BORDER_STYLE_HALF_WIDTH_OUTSIDE, BORDER_STYLE_MIDDLE_SQUARE_LINE, BORDER_STYLE_MIDDLE_ROUND_LINE, BORDER_STYLE_BLAND"]}
{"id": "C84", "title": "A scrolling application shows its text until a key leaves it, and then restores the terminal", "statement": "The application of examples/scrollable, run in a terminal in its usual modes, with a writer which may buffer, send and fail as it wants: as long as it waits for an event it has received all the events which came, none of which is a key other than the up, down, page up and page down ones, all that it wrote was sent, the terminal is in raw mode, on the alternate screen, without cursor, without capture of the mouse, the screen of the user isn't changed, and the alternate screen shows exactly the text, wrapped for the present size and from the line given by the events (as in C78), whatever the changes of size did to the cells. When nothing fails it never ends nor panics before such another key, and ends at this key without looking at the next events. When it ends normally the screen and the modes of the terminal are those of before. But when it stops with an error of the writer or a panic before a leaving key, the terminal stays in raw mode, and on the alternate screen without cursor.", "quantifier": "every list of events (keys, changes of size with what they do to the cells, other ones), every behaviour of the buffered writer and of the changes of raw mode, every text, skin and sizes as in C78", "why_tests_cant": "What the terminal has received depends on when the buffer is sent and on which call fails, at any time of any history; a test runs without a terminal or with one which never fails.", "anchors": ["examples/scrollable/main.rs: run_app, view_area", "src/views/mad_view.rs: MadView::write_on, MadView::resize, MadView::try_scroll_lines, MadView::try_scroll_pages"]}
{"id": "C85", "title": "A printed text takes one row of the terminal per line", "statement": "A text printed with print_text, write_text or an expander, in a terminal which breaks the rows by itself when they're full, takes exactly one row per line of the formatted text: when it's printed from the start of a row, each of its lines (as in C11, C61 and C62) is alone on a row, with its characters and their styles, the terminal breaks none of them and adds no empty row even for those which take the whole width, the rows already printed are unchanged and what is printed next starts on the next row with the default colors. What is printed by print_inline or print_composite is added to the current row when there's enough place for its margin, prefix and characters. If the size of the terminal is unknown, 50 columns are assumed.", "quantifier": "every text whose lines can have a place in the width (as in C11), every skin whose characters take one column, without control characters in the source and the skin, every terminal of at least the width known by the program, with anything already printed", "why_tests_cant": "Each line must be at most as wide as the terminal for every text, skin, margin and width: a single column more breaks the alignment of a whole table.", "anchors": ["src/skin.rs: MadSkin::print_text, MadSkin::term_text, MadSkin::print_expander, MadSkin::print_inline, MadSkin::print_composite, MadSkin::write_text_on", "src/text.rs: Display for FmtText", "src/inline.rs: Display for FmtInline", "src/area.rs: terminal_size"]}
{"id": "C86", "title": "The values filling a template are shown as they are", "statement": "mad_print_inline! and mad_write_inline! show the parts of their template in order, after the left margin of paragraphs. The n-th value, from 0, is shown at every place of this index, exactly as it is: none of its characters is taken for a marker. It's in the style of the markers which are around its place in the template (as in C41). A place without value shows its own mark, and a value without place changes nothing. Only a text which is exactly an ellipsis has the style of ellipses rather than the one of its markers. On a terminal the current row gets exactly this, if there's enough place and no control character.", "quantifier": "every template (as given by minimad: texts and places $0 to $9 with their markers), every list of values, every skin without replaced compounds, every console with anything already on its row", "why_tests_cant": "The values come from the user at run time: no test covers the texts which look like markers, places, or ellipses.", "anchors": ["src/macros.rs: mad_print_inline!, mad_write_inline!", "src/skin.rs: MadSkin::print_composite, MadSkin::write_composite"]}
{"id": "C87", "title": "A field of several lines is a text editor with selection", "statement": "Whatever the keys, cuts and pastes given one after the other to a focused input field of any number of lines, it's always in the state of a reference editor, and never panics: the same text, the same cursor, the same other end of the selection, and the same cut texts. In this editor the keys which move the cursor move it as in C60, extend or start the selection with shift, and end it without. What is typed or pasted replaces the selection, which has the characters at both of its ends; Backspace, Delete and a cut remove it; without selection a cut removes a character as Delete does, and returns the one at the cursor if there's one. A line break is inserted at the cursor even when there's a selection. When the text changes, the other end of the selection stays at the same line and column, or at the end of the line if it's shorter, or at the end of the text. A selection inside a line, one made of whole lines with their line breaks, and the whole text are removed exactly. Of the others: one which ends at the line break of its line and doesn't start at the start of this line leaves the line break; one of the whole last line removes also the line break before it; of one over several lines, what is before it in its first line and what is from its last character on in its last line stay as lines, and the lines wholly selected are removed only if there are at least two of them. The cursor is then at the start of the selection, or at the nearest place.", "quantifier": "every sequence of keys, cuts and pastes, with any pasted texts, keys of line breaks, size of area and widths of characters, from every valid content", "why_tests_cant": "The states of the selection depend on the whole history: no finite set of sequences of keys settles it.", "anchors": ["src/views/input_field.rs: InputField::apply_key_combination, InputField::cut_selection, InputField::replace_selection, InputField::insert_new_line, InputField::page_up, InputField::page_down", "src/views/input_field_content.rs: InputFieldContent::fix_selection, InputFieldContent::make_selection, InputFieldContent::unselect, InputFieldContent::del_selection, InputFieldContent::insert_str, InputFieldContent::selection_string"]}
{"id": "C88", "title": "Keyboard, clipboard and mouse work together in an input field", "statement": "Whatever the keys, cuts, pastes, mouse events, clicks, changes of focus and of area given one after the other to an input field, in any order, it never panics and it's always in the state of a reference: the same text, cursor, other end of the selection, focus and area, and the same cut texts. In this reference the keys, cuts and pastes do as in C87, the keys only with the focus. Mouse events do something only in the area. Without the focus, a press of the left button gives it and does nothing else, and so does a click. With the focus, a press moves the cursor to the place of the text under the mouse, without selection or, with shift, extending it; a drag extends the selection to this place; a second click selects the whole word of this place, if there's one; a click moves the cursor and keeps the other end of the selection; the wheel changes neither the text, nor the cursor, nor the selection. The place under the mouse is the one of the cell (as in C46) in the field as it's at the time of the event.", "quantifier": "every sequence of events, with any pasted texts, cells, areas with a column in the screen, keys of line breaks and widths of characters, from every valid content and scroll", "why_tests_cant": "What an event does depends on the selection, the focus and the scroll left by all the previous events: no finite set of sessions settles it.", "anchors": ["src/views/input_field.rs: InputField::apply_key_combination, InputField::apply_mouse_event, InputField::apply_click_event, InputField::cut_selection, InputField::replace_selection, InputField::set_focus, InputField::set_area", "src/views/input_field_content.rs: InputFieldContent::set_cursor_pos, InputFieldContent::make_selection, InputFieldContent::unselect, InputFieldContent::select_word_around"]}
{"id": "C89", "title": "Ticks never come before their time, and come on time when threads do", "statement": "The tick of rank k (from 1) of a beam is never sent before k times its period have elapsed since the start of the beam, and two successive ticks of a beam are separated by at least the period, whatever the delays of the threads and what happens to the other beams. When the threads run at once, the ticks are sent exactly at the multiples of the period counted from the start, whatever the other beams: there's none missing as long as the beam isn't ended, a beam of n ticks which isn't stopped has ended when more than n periods have elapsed, and no tick is sent later than the stop of its beam. When threads are late the delays add up (there's no catching up), and a tick may be sent after the stop.", "quantifier": "every run with any number of beams, periods, counts, stops and durations between actions", "why_tests_cant": "The times depend on the interleaving of the threads and on their delays: a test sees only some schedules of one machine.", "anchors": ["src/events/tick_beam.rs: Ticker::start_beam, Ticker::stop_beam, Ticker::stop_all_beams, TickBeam"]}
{"id": "C90", "title": "An application shown on the error stream prints only what its user chose, once the terminal is restored", "statement": "The application of examples/stderr, run in a terminal in its usual modes, with a writer which may send and fail as it wants: as long as it waits for an event it has received all the events which came, none of which is a key without modifiers other than the up, down, page up and page down ones, nothing was printed on the standard output, the terminal is in raw mode, on the alternate screen, without cursor, the screen of the user isn't changed, and the alternate screen shows the text, from the line given by the events, on the area in the middle of the screen with a margin of one, and around it what was there, even when another program wrote on the screen. When nothing fails it never ends nor panics before such another key, and ends at this key without looking at the next events: it prints exactly `..` for 1, `/` for 2, `~` for 3, and the formatted text for any other one. When something is printed the screen and the modes of the terminal are those of before the launch. Nothing is printed when there was an error or a panic.", "quantifier": "every list of events (keys with or without modifiers, other ones, with what other programs do to the cells), every behaviour of the writer and of the changes of raw mode, every size, text and skin for which the text can be displayed", "why_tests_cant": "What is printed, and the state of the terminal at this time, depend on the whole history of events and on which call fails.", "anchors": ["examples/stderr/main.rs: run_app, main", "src/views/mad_view.rs: MadView::write_on, MadView::try_scroll_lines, MadView::try_scroll_pages", "src/area.rs: Area::pad, Area::pad_for_max_width", "src/skin.rs: MadSkin::print_text"]}
{"id": "C91", "title": "Through a crop writer a terminal is changed only in the allowed columns, each call in its own style", "statement": "Whatever the sequence of calls on a crop writer (styled and unstyled strings, characters, gentle strings, fillings, colors), none panics, and what the terminal gets is one piece by writing call, one after the other from the cursor: the part of the text which fits in the columns still allowed (C16), with the look of the style of the call over the colors of the terminal, or with the colors set before when the call has no style; a call which has no room left changes neither the cells nor the colors. Whatever the styles and the colors of the terminal, with no backspace and characters of one column in gentle strings and fillings, the cells which change are those of the columns taken from the limit, on the row of the cursor, which is then just after them; the new content of these cells doesn't depend on what was there; when the last call is a filling they are exactly the columns of the limit.", "quantifier": "every limit, every list of calls with their styles and texts, every width function, every terminal content, cursor and pen (for the looks: a limit of at most 1000 columns, or no color set apart and a default pen)", "why_tests_cant": "Where a call writes and how it looks depend on all the calls before it.", "anchors": ["src/fit/crop_writer.rs: CropWriter::queue_str, CropWriter::queue_unstyled_str, CropWriter::queue_char, CropWriter::queue_unstyled_char, CropWriter::queue_g_string, CropWriter::queue_unstyled_g_string, CropWriter::queue_fg, CropWriter::queue_bg, CropWriter::fill, CropWriter::fill_unstyled, CropWriter::fill_with_space, CropWriter::repeat, CropWriter::repeat_unstyled", "src/fit/filling.rs: Filling::queue_styled, Filling::queue_unstyled", "src/compound_style.rs: CompoundStyle::queue, CompoundStyle::queue_fg, CompoundStyle::queue_bg"]}
{"id": "C92", "title": "Special characters replace their compounds, whatever the wrapping", "statement": "The compounds of a drawn line are written in order, each one as the character the skin has for it, in the style of this character, if the skin has one, and as its text in its own style otherwise. Wrapping a composite to any width cuts each compound in parts which have its style and, but for whitespace, its text; a compound made of one visible character is kept as it is, so that a compound with a special character is drawn as this character in the lines of any width.", "quantifier": "every skin with its special characters, every drawable composite, every outer width, with and without completion and margins, every wrapping width, width function and whitespace test", "why_tests_cant": "The compounds drawn are the ones of the wrapped lines, which depend on the width and on all the text before them.", "anchors": ["src/skin.rs: MadSkin::special_chars, MadSkin::write_compound, MadSkin::write_fmt_composite", "src/fit/wrap.rs: hard_wrap_composite", "src/tokens.rs: tokenize, Token::to_compound"]}
{"id": "C93", "title": "Release builds format the same, and panic less", "statement": "In a release build, where subtractions wrap and debug assertions do nothing: a text which a debug build formats is formatted the same; formatting panics in exactly one case, a table with too many columns for the width in which a row with missing cells has a cell on several lines; the formatted text always holds the content of the source, line by line and cell by cell, as in C51, and can always be displayed; a line which isn't a table one and is larger than the width has one word at most. The list items too deep for the width, on which a debug build panics, are formatted in lines larger than the width.", "quantifier": "every skin, every text which can be read in a source, every width or no width, every width function and whitespace test (64 bits target)", "why_tests_cant": "The wrapped subtraction only changes the result for some depths, margins and widths, and its effect goes through the cutting in tokens.", "anchors": ["src/fit/wrap.rs: hard_wrap_composite, hard_wrap_lines", "src/tbl.rs: Table::fix_columns, fix_all_tables", "src/text.rs: FmtText::from_text"]}
{"id": "C94", "title": "A part of a skin has the last color it was given", "statement": "Whatever is called on a skin (set_fg, set_bg, set_headers_fg, set_headers_bg, set_global_bg, limit_to_ascii, blend_with, or set_fg and set_bg on any of its parts), in any order and number, the foreground of each part is the one given by the last call reaching it, mixed by the later blends, or else the one it had; the same holds for its background, which no blend reaches; attributes never change. Only the order of the calls reaching the same color of the same part matters. Whatever was done before a call of set_bg, and whatever is done after it except giving a background, every character displayed for a text without code has this background; the same holds for set_fg, except for the borders of tables.", "quantifier": "every skin, every list of calls, every part, text and width", "why_tests_cant": "A test checks a call at a time; here parts reached by one setter may be missed by another one, and styled characters have a redundant field, so that the history matters.", "anchors": ["src/skin.rs: MadSkin::set_fg, MadSkin::set_bg, MadSkin::set_headers_fg, MadSkin::set_headers_bg, MadSkin::set_global_bg, MadSkin::blend_with, MadSkin::limit_to_ascii", "src/styled_char.rs: StyledChar", "src/line_style.rs: LineStyle", "src/compound_style.rs: CompoundStyle"]}
{"id": "C95", "title": "The methods of an input follow a reference editor, in any order", "statement": "Whatever the methods called on an input content (set_cursor_pos, make_selection, unselect, set_selection_tail, push_char, clear, insert_new_line, insert_char, insert_str, set_str, del_char_left, del_char_below, del_selection, del_word_left, del_word_right, select_word_around, swap_lines, move_current_line_up, move_current_line_down and all the moves of the cursor, by characters, words, lines or pages), in any order and number, no call panics, and the text, the cursor and the selection are those of a reference editor, which is a text cut by a cursor with the line and column of the other end of the selection. The same holds for an input field when its methods are called by the application between the keys, cuts, pastes, mouse events, changes of focus and of area of a session: methods don't need the focus. Inserted text is the same as if typed character by character. A removed selection is the one of C87. Condition: set_selection_tail is called for a place of the text, for the line of the cursor, or for a line after the end.", "quantifier": "every valid content (and every field whose area has a column and is in the screen), every list of calls and events, every width function, every choice of alphanumeric characters", "why_tests_cant": "A test checks a few calls on a few texts; the number of sequences of thirty kinds of calls on texts with several lines and a selection is unlimited, and the selection end kept from earlier calls has to be adjusted by each later one.", "anchors": ["src/views/input_field_content.rs: InputFieldContent", "src/views/input_field.rs: InputField::set_str, InputField::insert_str, InputField::put_char, InputField::insert_new_line, InputField::clear, wrap_content_fun, InputField::page_up, InputField::page_down, InputField::scroll_up, InputField::scroll_down"]}
{"id": "C96", "title": "An application showing lines fitted in the width of the terminal always fills this width, whatever its size", "statement": "The application of examples/fit-width, run in a terminal in its usual modes, with a writer which may fail: as long as it waits for an event it has received all the events which came, none of which is a key, all that it wrote was sent, the terminal is in raw mode, on the alternate screen, without cursor, the screen of the user isn't changed, and the alternate screen shows exactly, from its first row and one per row, as many of its lines as it has rows. Each of these lines is what `write_composite_fill` writes for the width given by the last change of size and the alignment of the line (left, unspecified, right or center, see C55), and takes exactly this width, wide characters included. The rest of the screen is empty, whatever the changes of size did to the cells. When nothing fails it never ends nor panics before a key, whatever the sizes (even without columns or rows), and ends at the first key, whatever it is, without looking at the next events. When it ends normally the screen and the modes of the terminal are those of before.", "quantifier": "every list of events (keys, changes of size with what they do to the cells, other ones), every size, every behaviour of the writer and of the changes of raw mode, every text whose compounds aren't empty and whose tokens aren't larger than 3 columns because of only their first and last characters (as those of the application), every skin whose paragraphs have no left margin and whose characters have one column (as the one of the application)", "why_tests_cant": "The fitting of wide characters depends on the width, of which a terminal has any value, and what stays on the screen on the history of the changes of size; a test draws some texts in some widths, without a terminal.", "anchors": ["examples/fit-width/main.rs: run_app, make_all_lines, make_line, make_skin", "src/composite.rs: FmtComposite::fill_width", "src/inline.rs: FmtInline"]}
{"id": "C97", "title": "A skin without style prints characters and nothing else, and no other skin does", "statement": "With a skin whose styles are all empty (but the one of the scrollbar), as `MadSkin::no_style` is and stays after `limit_to_ascii` or changes of borders and indentation, what `print_text`, `print_inline`, `write_composite_fill` and the other printing functions write on the terminal is exactly the characters of the displayed lines, and an end of line after each line of a text: no escape sequence. Printing a text has thus the effect of printing these characters: they take the colors and attributes the terminal already has, and don't change them. An escape character is only written if it's in the source or is a character of the skin. With `no_style` and `limit_to_ascii`, an ASCII text gives ASCII characters. Conversely, if nothing a skin (without special renders) prints has an escape character which isn't in the source, then all its styles are empty: every style of a skin is used by some text (the color of underline of bold, italic, strikeout and inline code excepted, which is never used). The scrollbar of `no_style` has colors, which views write.", "quantifier": "every skin, every lines of minimad, every width of the terminal, every state of the terminal, every way of encoding styles which writes nothing for an empty one and an escape for the other ones", "why_tests_cant": "The styles are combined in the drawing of each part of each line; a test looks at the output for some texts, with a terminal whose colors are the default ones.", "anchors": ["src/skin.rs: MadSkin::no_style, limit_to_ascii, print_text, print_inline, write_composite, write_composite_fill, compound_style", "src/styled_char.rs: StyledChar::set_char", "examples/high-compatibility/main.rs"]}
{"id": "C98", "title": "A text can be displayed part by part", "statement": "Formatting a text made of two parts, when the boundary isn't inside a table nor inside a code block, gives the lines of the first part then the lines of the second one: displaying them, printing them with `print_text` on the same terminal and computing the content width (the greater one) can be done part by part, or fail when it fails for a part. So what is added at the end of a text doesn't change what is displayed for what precedes, a text in any number of such parts is displayed part by part, and one without tables and code line by line. The guard is needed: two tables one after the other have common columns, and two code blocks one after the other have a common width.", "quantifier": "every skin, every lines of minimad, every position of the boundary, every width", "why_tests_cant": "Tables and code blocks are found and changed over the whole text before the wrapping; that nothing else depends on other lines must be seen for all texts.", "anchors": ["src/text.rs: FmtText::from_text, FmtText::content_width", "src/tbl.rs: find_tables, fix_all_tables", "src/code.rs: find_blocks, justify_blocks", "src/fit/wrap.rs: hard_wrap_lines", "src/skin.rs: MadSkin::print_text"]}
{"id": "C99", "title": "Chained questions are a conversation: each line typed answers the question which is asked", "statement": "In a program made of questions asked one after the other and in the blocks of one another, with `Question::ask` or the `ask!` macro, each question is answered, in the order of the program, by the first acceptable line among those which follow the answer of the previous one; the blocks which run are those of the first answer with this key, and only their questions are shown. What is seen, the lines which are read and the value are determined by what was typed, and what is seen doesn't depend on what is typed after. A user who types the key of an answer at each question, in any way through the program, gets the value at the end of this way, with one line read by question. If the defaults of the macros are among their answers and the input can be read, there's no panic: the program ends with its value or is still asking. When a line can't be read, it ends there, with the error of `Question::ask` or with a panic of the macro. (A default which isn't an answer makes the program panic, even in a block.)", "quantifier": "every program made of chained questions (any depth, any answers, any default), every sequence of lines typed", "why_tests_cant": "Questions can be nested at any depth and the user may type anything; a test follows one way.", "anchors": ["src/ask.rs: Question::ask, ask! macro", "examples/ask/main.rs: run_app"]}
{"id": "C100", "title": "The event counter interrupts a background computation exactly when another event comes", "statement": "A computation in a background thread which notes the shared event count when it's started, while the application handles an event, and goes on as long as the count is the same: whatever the schedule of the threads, it's never interrupted before the application calls unblock, nor by anything but another event, which is sent or about to be sent; once another event is sent, it starts no other unit of work and its next test ends it; when it isn't interrupted it does all its work, and it ends after a bounded number of its actions. (Discarded events and escape sequences don't interrupt it. The count must be noted before the call to unblock: a computation started after it may miss an event which is already sent.)", "quantifier": "every sequence of terminal events, key combiner, options, any number of computations of any sizes started at any time, every interleaving of the threads", "why_tests_cant": "The counter is read by a thread while another one increments it: the bad cases depend on the schedule.", "anchors": ["src/events/event_source.rs: EventSource, EventSource::shared_event_count, EventSource::with_options, EventSource::unblock"]}
{"id": "C101", "title": "The texts edited in applications follow a reference editor, with the clipboard", "statement": "In an application with a text edited by the user whose rendering is displayed, and in one with a form of three fields, whatever the keys, mouse events, changes of size and answers of the clipboard: each edited text is, with its cursor, its selection, its focus and its area, the one of a reference editor (a text before and a text after the cursor, and the other end of the selection) to which only the events meant for this field are given; the texts put in the clipboard by copies and cuts are exactly those selected in the reference, in order, and nothing is put in it when it refuses.", "quantifier": "every initial text, every sequence of keys, mouse events, changes of size and clipboard answers, every size of terminal", "why_tests_cant": "The state depends on the whole history of events, and the fields on the place of each mouse event and on the focus then.", "anchors": ["examples/inputs/view.rs: View::new, View::apply_timed_event, View::apply_key_combination, View::apply_mouse_event, View::resize", "examples/inputs/clipboard.rs: copy_from_input, cut_from_input, paste_into_input", "examples/render-input-markdown/view.rs: View::new, View::apply_timed_event, View::resize", "examples/render-input-markdown/clipboard.rs: copy_from_input, cut_from_input, paste_into_input", "src/views/input_field.rs: InputField", "src/views/input_field_content.rs: InputFieldContent"]}
{"id": "C102", "title": "The selection of a list view follows a reference list, whatever the calls", "statement": "A list view behaves as a list split at its selected row: after any sequence of calls which return (additions, clears, filters, orders, selections, scrolls, changes of area and of widths), the selected row, all the rows, the displayed ones in their order and their counts are those of a reference made of the rows before the selected one, the selected one and the rows after it. Going down is to the first row accepted by the filter in the rows after, else in the rows before (and up to the last one in the rows before, else in the rows after); with no selection it's to the first accepted one from the scroll on, else to the first one; a filter never changes the selected row, even when it hides it; an addition in a list with an order sorts the rows by a stable sort and selects the row which has as many rows before it as the selected one had.", "quantifier": "every sequence of calls, every rows, filters and orders", "why_tests_cant": "What is selected depends on the whole history: hidden rows, changes of filters between the moves, additions between them.", "anchors": ["src/views/list_view.rs: ListView::add_row, clear_rows, set_filter, remove_filter, sort, select_first_line, select_last_line, try_select_next, unselect, get_selection, has_selection, row_counts"]}
{"id": "C103", "title": "A block of code is displayed as a rectangle", "statement": "In every text, at every width, the rows displayed for a block of code (consecutive lines of code, with no line of code just before or after them) all start at the same column and are all completed, in the style of code blocks, up to the same column: the rectangle has the columns of the longest line of the source, the blanks before it being in the style of paragraphs. It's at the left margin of the style of code blocks, or aligned between its margins in the width it's written in, when this width is enough. When no line of the block is too long for the width, the rows are the lines of the source, in order, unchanged; else the rows hold the same text, and the rectangle still has the columns of the longest line of the source (so that it doesn't fit).", "quantifier": "every text before and after the block, every block, skin (margins, alignments, styles, special characters), formatting width, rendering width and character width function", "why_tests_cant": "The columns depend on the lengths of all the lines of the block, on the wrapping, on the margins and on the alignment.", "anchors": ["src/code.rs: justify_blocks, find_blocks", "src/text.rs: FmtText::from_text", "src/fit/wrap.rs: hard_wrap_lines", "src/skin.rs: MadSkin::write_fmt_line, MadSkin::write_fmt_composite"]}
{"id": "C104", "title": "The rows of a displayed text are in the place given by their style, with hanging indentation", "statement": "Whatever the text, the width it's formatted in (or none) and the width it's rendered in, each row displayed for a line which isn't a line of a table nor of code is made of blanks in the style of paragraphs, then the bullet, quote mark or indentation of the line, then a part of its text, and nothing after it; the number of blanks is the left margin of the style of the line when it's aligned on the left, when there is no width or when the row is too long, and else places the row between the margins, on the right or centered (margins which wouldn't leave 3 columns are ignored). So, when paragraphs are aligned on the left, all the rows of a list item of depth d have their text in the same column, d + 2 columns after the left margin, and its bullet is d columns after this margin (with the indentation of the first line only, the text of the next rows starts at the left margin). The parts read as the source. (When paragraphs are centered each row is centered: the text isn't in one column.)", "quantifier": "every text, skin without special characters (margins, alignments, indentation modes, styles), formatting width, rendering width and character width function", "why_tests_cant": "The place depends on the kind, the length and the wrapping of each line, on the margins, alignments and widths.", "anchors": ["src/skin.rs: MadSkin::write_fmt_composite, MadSkin::write_fmt_line", "src/fit/wrap.rs: hard_wrap_lines, follow_up_composite", "src/line_style.rs: LineStyle::margins_in", "src/spacing.rs: Spacing::optional_completions"]}
{"id": "C105", "title": "In a release build a list view panics only when displayed after having been scrolled down while short", "statement": "In a release build, where operations on integers wrap, no operation on a list view panics, whatever the history; the rows, the counts and the selection are consistent as in a debug build, the next, previous, first and last rows are selected in the same way, a row selected by a function is visible in an area of at least 5 rows (when the list is too long for the area or isn't scrolled), including when it's the last row of the area, where a debug build panics; an operation which doesn't panic in a debug build gives the same list view. But scrolling down a list having at least two rows less than its height (which panics in a debug build) has no limit: rows may be hidden although there's room for all of them, and the display of a list in an area of at least 3 rows panics (index out of bounds) exactly when the scroll is more than the number of rows. As long as a list isn't scrolled down in this situation, and has a height, the scroll is at most the number of rows and the display doesn't panic.", "quantifier": "every list view, columns, filters, sort orders and finite history of additions, clearings, filters, sorts, scrolls, selections and changes of area, in a release build", "why_tests_cant": "The wrapped subtractions depend on the number of displayed rows, the height, the scroll and the selection, left by any history.", "anchors": ["src/views/list_view.rs: ListView::make_selection_visible, ListView::try_scroll_lines, ListView::try_scroll_pages, ListView::try_select_next, ListView::select_first_line, ListView::select_last_line, ListView::update_dimensions, ListView::write_on"]}
{"id": "C106", "title": "In a release build the fitting of a text either fits as in a debug build or gives a text which is too wide", "statement": "In a release build, where operations on integers wrap, fitting a composite to a width doesn't panic (except, exactly as in a debug build, for an empty part before the end of what must be removed at the start, when the text is right aligned or centered); it keeps its kind and its spacing and leaves it with its right cached length. When a debug build doesn't panic, the result is the same and fits. A debug build panics when it must shorten a word of wide characters with no column between the first and the last one; in this case, and only in this one, the result of a release build is too wide: by at least two columns, and at most one column more than the source, because a last ellipsis is added in the place of something having no column, after which the fitting stops.", "quantifier": "every composite with a right cached length (less than 2^64) and every width with room for the prefix, alignment, choice of elisions, width of characters where the ellipsis takes a column, and whitespace; no empty part when right aligned or centered", "why_tests_cant": "The wrapped subtraction is met after any number of elisions, depending on the words, their widths and the excess.", "anchors": ["src/fit/composite_fit.rs: Fitter::fit, Zone::cut, Zone::biggest_token, Zone::biggest_compound", "src/composite.rs: FmtComposite::fit_width"]}
{"id": "C107", "title": "In a release build an area which is out of the screen contains nothing, and a too big padding makes it larger", "statement": "In a release build, where operations on 16 bits integers wrap, the operations on areas don't panic, and give the same as in a debug build when it doesn't panic. A cell is said to be in an area exactly when it's one of its cells and the area doesn't go past the largest coordinate: an area which does contains nothing. The fields of a padded area are the expected ones up to multiples of 65536: a padding bigger than half the width or height (with which a debug build panics) gives an area larger than before, in which no cell is said to be, provided the padding is less than 32768, isn't more than the right and the bottom of the area and doesn't move its left and its top over 65535. Padding to a maximal width neither panics nor wraps for an area which is on the screen.", "quantifier": "every area, cell, padding and maximal width, in a release build", "why_tests_cant": "The wrapped values depend on sums and differences of all the fields.", "anchors": ["src/area.rs: Area::contains, Area::pad, Area::pad_for_max_width, Area::right, Area::bottom"]}
{"id": "C108", "title": "The keyboard protocol changed to combine keys is restored when the thread of the event source ends, not when the source is dropped", "statement": "When keys are combined and the terminal allows it, the keyboard protocol is changed as long as the thread of the event source lives, and restored when it has ended; otherwise it isn't changed. When the user answers unblock(true) to the event they received, or drops the source without answering, the thread can do nothing but end, so that the keyboard is restored without any other event. But while the thread is reading the terminal, nothing restores the keyboard before an event: neither unblock nor the drop of the source and receivers, contrary to what's documented. With no more receiver, the first event to be sent ends the thread and restores the keyboard, and isn't received. The end of the process doesn't wait for the thread: it may let the keyboard changed even after the proper ending.", "quantifier": "every list of read events, of calls of the user, drops, and interleaving with the thread, every point where the process ends", "why_tests_cant": "It depends on the interleaving of the thread and of the user, and a test ends with its process.", "anchors": ["src/events/event_source.rs: EventSourceOptions::combine_keys, EventSource::with_options, EventSource::unblock, Drop for EventSource"]}
{"id": "C109", "title": "In a release build text views write and scroll as in a debug build, but for areas without column and huge numbers of pages", "statement": "In a release build, text views, MadView and write_in_area write the same as in a debug build when it doesn't panic, and scroll to the same position. Scrolling a text view by the least i32, or by a number of pages asking for it, which panics in a debug build, goes to the top. A text view with a scrollbar in an area without column (a panic in a debug build) writes rows of at least 2^64 - 1 columns: it never ends; without scrollbar, the text isn't wrapped and is written out of the area. A MadView asked for a number of pages making more lines than an i32 counts may scroll the wrong way.", "quantifier": "every text, skin, area, scroll, number of lines and number of pages, in a release build", "why_tests_cant": "The differences between both builds depend on the overflow of sums and products of sizes, and unit tests run in debug builds.", "anchors": ["src/views/text_view.rs: TextView::write_on, TextView::try_scroll_lines, TextView::try_scroll_pages", "src/views/mad_view.rs: MadView::write_on, MadView::try_scroll_lines, MadView::try_scroll_pages", "src/skin.rs: MadSkin::area_text, MadSkin::write_in_area_on, MadSkin::write_fmt_line, MadSkin::write_fmt_composite"]}
{"id": "C110", "title": "In a release build no operation on an input field panics, and editing does not depend on the width of its area", "statement": "In a release build, an operation on an input field does what it does in a debug build when that one doesn't panic, and no operation panics, whatever the area of the field: without column, without row or out of the screen. What an operation other than a change of area, a scroll or a mouse event does to the text, the cursor, the selection and the focus, and what it returns, is what it is in a debug build in an area with any number of columns. Whatever the keys, cuts, pastes, mouse events, clicks, changes of focus and of area given to a field, even if its area sometimes has no column, it follows the reference editor of C88 (and so it does in a debug build, as long as it doesn't panic; on the screen it never does if, after each event, the area has a column or a row for each line). The display is the same as in a debug build when it doesn't panic; in an area without column, the display of a field with more lines than rows (a panic in a debug build, where such a field can't even be edited) writes rows of at least 2^64 - 1 columns: it never ends.", "quantifier": "every history of operations and events on an input field, every area, text and width of characters, in a release build", "why_tests_cant": "The differences between both builds depend on the overflow of sums and differences of sizes for degenerated areas, and unit tests run in debug builds.", "anchors": ["src/views/input_field.rs: InputField::fix_scroll, InputField::change_area, InputField::set_area, InputField::apply_key_combination, InputField::apply_mouse_event, InputField::apply_click_event, InputField::display_on"]}
{"id": "C111", "title": "In a release build the drawing of a rectangle always ends, in its rows if it has some", "statement": "In a release build, a rectangle is drawn as in a debug build when that one doesn't panic, and its drawing never panics and always ends, whatever its area. If the area has at least one row and ends at the last row a u16 can tell or before (but doesn't start there), something is written in each of its rows and in no other one. With at least two columns and two rows too, and an end at the last column or before, the cells are exactly those of C43, even in the last column and the last row (a panic in a debug build). If it has no row, two rows are written, the second one above the area (unless its top is the last row); at the top of the screen (a panic in a debug build) the 65536 rows are written. If it goes further than the last row (a panic too), its first row and another one, above it, are written. If its top is the last row a u16 can tell (a panic again), all the rows are written when it has no row or only one, otherwise this row and, from the top of the screen, as many rows as it has after its first one.", "quantifier": "every area, style of border and filling, in a release build", "why_tests_cant": "The differences between both builds are for areas at or over the limits of u16, for which no test is run in a release build.", "anchors": ["src/rect.rs: Rect::draw"]}
