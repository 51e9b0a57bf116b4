# Design of the formal model of termimad

Source: `/repo` (Rust, read as text only). Model: Lean 4.33.0, project `/verif/lean`, core library first,
single Mathlib modules only where needed.

## 1. Modelling conventions

* **Panics** are explicit. A Rust function that can panic (checked arithmetic of debug builds, slice/index out of
  bounds, `unwrap`, `expect`, `unreachable!`) is modelled by a function in the `Run` monad (`Run α := Option α`,
  `none` = the program panics). "Never panics" is the theorem "the result is `some _`". Release builds wrap instead
  of panicking on arithmetic overflow; when this matters it is said in the note of the property. The formatting of a
  text in a release build (Model/Release, C93), list views (Model/ReleaseList, C105), the fitting of composites (Model/ReleaseFit, C106), areas (Model/ReleaseArea, C107), text views (Model/ReleaseView, C109), input fields (Model/ReleaseField, C110) and rectangles (Model/ReleaseRect, C111) in a release build have their own models.
* **`usize`** is `Nat` with checked subtraction (`csub`). Overflow of `usize` *additions and multiplications*
  (beyond 2^64) is not modelled. **`u16`** values are `Nat` with explicit range checks where the code can overflow
  them (area arithmetic, `as u16` casts are `% 65536`). `i32` casts are modelled where they matter.
* **Text** is `List Char`. Byte offsets are modelled where the code uses them: slicing at a byte offset that is not
  a character boundary is a panic.
* **External functions are parameters**: the character width (`unicode-width`), `char::is_whitespace`,
  `char::is_alphanumeric`, the row filter and order of list views, the key combiner, color blending.
  Theorems hold for every such function satisfying the hypotheses written in the theorem.
* `unicode-width`: `UnicodeWidthStr::width` is taken to be the sum of the widths of the characters (true in
  unicode-width 0.1.11 and 0.1.12, the version declared in `Cargo.toml` being 0.1.11; from 0.1.13 on it is false for
  emoji sequences).
* **minimad** (`Composite`, `Compound`, `Text`…) is not in the repository. Its data types are re-declared in the
  model; its parser is not modelled: theorems quantify over every value the parser could produce (and more).
* **crossterm**: queued commands are modelled as the list of what is written (styled text, cursor moves), and in
  Model/Tty with the changes of colors. What the terminal does with them is specified: a cursor (Spec/Screen), cells
  (Spec/Cells), a pen (Spec/Tty, after the code of `PrintStyledContent`). Flushing is not modelled; failures of the writer
  are (Spec/Crash, Model/CropFail): what was queued before is written, the functions return the error.
* **Threads** (event source, ticker) are transition systems: one action per statement which other threads can observe,
  an inductive `Exec` for all the interleavings; channels are lists, time is a parameter of the actions.
* **Floats** (progress bar, scroll by pages): rationals, NaN and the infinites (Model/Float), with the rounding of IEEE 754, which is proved
  to be to the nearest and ties to even (Spec/Float, Props/Float); the two zeros are not distinguished.
* **Memory** is not modelled: allocations never fail.
* **Regexes** (style parser): functions on `List Char` written from the regex; `\s`, case folding and `\d` are
  parameters (`Classes`), assumed to agree with ASCII on ASCII characters (hypothesis of the theorems).
* `&mut self` methods return the new value. Loops are structural recursions, folds or fuel-free well-founded
  recursions.

## 2. Layout

* `Verif/Model/*.lean`: definitions only, each one citing file and lines of `/repo`.
* `Verif/Spec/*.lean`: small independent specifications.
* `Verif/Lemmas/*.lean`: helper lemmas.
* `Verif/Props/*.lean`: property theorems with non-vacuity examples and counterexamples.

When the code violates a property, the negation is proved on a concrete witness (theorem named `..._counterexample`
or `..._bug`), the strongest true part is proved with suffix `_partial`, and the disagreement is listed in section 5.

## 3. Properties: what is modelled, how it is proved

| id | modelled | proof | module of the theorems |
|----|----------|-------|-----|
| C01 | `hard_wrap_composite`, `tokenize`, `composite_kind_widths`, `follow_up_composite`, `add_compound` | invariant of the fold over tokens: current line ≤ width, emitted lines ≤ width | Props/Wrap |
| C02 | same | invariant: emitted ++ current = non-blank characters of consumed tokens | Props/Wrap |
| C03 | same + `visible_composite_length` | invariant of the fold | Props/Wrap |
| C04 | `hard_wrap_lines`, `margins_in` | induction on lines, with C01 for stability | Props/Wrap |
| C05 | `tokenize` | invariant of the fold over characters | Props/Wrap |
| C06 | `TblFit` | algebra of the three steps; sort is a permutation | Props/TblFit |
| C07 | `Table::fix_columns` | step by step postconditions; counterexample for ragged rows in narrow tables | Props/Table |
| C08 | `find_tables`, `fix_all_tables` | induction on the tables in reverse order, C02 for cells | Props/Table |
| C09 | `find_blocks`, `justify` | invariant of the scan: maximal runs | Props/Code |
| C10 | `write_fmt_composite`, `write_fmt_line` as lists of styled characters | computation of the width of the output | Props/Render |
| C11 | `FmtText::from_text` | composition of C01, C06, C07, C10 | Props/FmtText |
| C12, C13 | `Fitter::fit`, `Zone` with byte offsets, `fill_width` | loop invariants on the excess and on the text | Props/Fitter, Props/FitterPanics |
| C14 | `Spacing` | arithmetic | Props/Spacing |
| C15 | `StrFit` | induction on the string | Props/Fit |
| C16 | `CropWriter` as a state machine; what each call writes is in `Spec/Crop.lean` | invariant over operation lists, exact output of each call | Props/Fit |
| C17 | `Filling` | induction on the length | Props/Fit |
| C18 | `Area` | arithmetic | Props/Area |
| C19 | `compute_scrollbar` | integer division lemmas, equivalence for the panics | Props/Area |
| C20–C25 | all of `InputFieldContent` | invariant preserved by each operation; abstraction to (left, right) texts; permutations; induction on lines | Props/Input |
| C26, C27, C45, C46 | `InputField`: scroll, display, events | case analysis, invariants over event lists, induction on the characters of a row, equivalences for the panics of the display and of the calls | Props/InputField, Props/FieldPanics, Props/FieldOpPanics, Props/Setters |
| C28, C29 | `TextView`, `MadView` (Model/Float for the numbers of pages) | invariant over operation lists, simulated screen rows; the rounding of `f64` is to the nearest; equivalences for the panics of the display and of the scrolls | Props/TextView, Props/ScrollPanics |
| C30–C32 | `ListView` operations | invariants over histories; the cycle of selections by rotation of the list of displayed rows; equivalences for all panics of scrolls, selections and display | Props/ListView, Props/ListViewCycle, Props/ListViewSelect, Props/ListViewDisplay |
| C33 | `update_dimensions` | induction on columns, equivalence for the panics | Props/ListViewWidths |
| C47 | `ListView::write_on` | induction on columns and rows | Props/ListViewDisplay, Props/Setters |
| C34–C36 | event source thread and its user as a transition system | invariants over executions; parsing of the input in segments, proved unique; bound on the actions of the thread, delivery when idle | Props/EventSource, Props/EventSourceLive |
| C37 | ticker and beams as a transition system | invariants over executions | Props/Ticker |
| C38 | `Question::ask` over a list of lines, the `ask!` macro | induction on the lines | Props/Ask, Model/AskShow, Props/AskShow |
| C39, C52, C53 | style writer and parser (regexes as functions) | induction on words, case analysis on tokens | Props/Parse, Props/ColorParse, Props/StyleLayout, Props/AttributeWords |
| C54 | `tokenize`, `hard_wrap_composite` | position of each token in the source, induction over tokens | Props/WrapBreaks |
| C55 | `write_composite`, `write_composite_fill` | composition of C10, C12 and C13 | Props/Write |
| C40 | serialization as lists of key/value entries | fold over the entries, permutation invariance; the characters displayed don't depend on the colors of the skin; entries accepted, names of a field and last value by cases on the keys | Props/Serde, Props/SerdeText, Props/SerdeEntries |
| C41, C42 | `CompoundStyle`, `StyledChar`, skin setters | algebra, invariants over lists of setters | Props/Style |
| C43 | `Rect::draw` on a terminal model (cursor + cells) | induction on rows, equivalence for the panics | Props/Rect, Props/Setters |
| C44 | `ProgressBar` over rationals with abstract rounding, and over all floats with the rounding of `f32` (Model/Float, Model/ProgressFloat); `Formatter::pad` as an external definition | arithmetic; the rounding is to the nearest, so monotonic and exact on small integers | Spec/Float, Props/Float, Props/Progress, Props/ProgressFloat |
| C48–C50 | skin setters, rendering of whole texts | provenance of every displayed character, relation between skins kept by the whole pipeline | Props/SkinRender |
| C51 | whole `FmtText::from_text` | composition of C02, C08, C09 | Props/WholeText |
| C56 | `FmtText::from_text` then `Display` | composition of C10, C11 and C51 | Props/Displayed |
| C57 | `FmtText::set_rendering_width`, `content_width`, `FmtLine::visible_length` | each line is written as blanks and a content which doesn't depend on the width; lines come from spaced code, tables or wrapped lines | Spec/Rendering, Props/Rendering, Spec/ContentAlign, Props/ContentAlign |
| C58 | the styles of `InputField`, their setters and the styled pieces of `display_on` | induction on the setters; the cells without focus never have the cursor style; C26 for the cursor | Model/FieldStyle, Spec/FieldStyle, Props/FieldStyle |
| C59 | the writing of a whole text, as characters with styles; the default skins | as C56, on styled characters, with the layers of C41; case analysis on kinds, markers and attributes for the default skins | Spec/StyledDisplay, Props/StyledDisplay |
| C60 | the keys of an input field, against a reference editor (Spec/Editor) | simulation: one key (from C22, C25, C45), then induction on the sequence | Spec/Editor, Props/Editor |
| C61 | `from_text` and `Display` with enough room, or no width | the widths of the fitter are the needed ones (C06), so no cell is wrapped; index by index result of the alignment pass; one row per line | Spec/WholeLines, Props/WholeLines |
| C62 | lines of a table drawn by `write_fmt_line` | the tables of the output are those made rectangular by the table pass (justification and wrapping keep table lines); prefix widths of the drawn rows | Spec/Borders, Props/Borders |
| C63 | keys, cut and replace in a field of one line, with selection | simulation: the content of the field is a function of the state of a reference line editor; induction on histories | Spec/LineEditor, Props/LineEditor |
| C64 | cells of the terminal before and after views are written, any order | semantics of printing on a grid of cells with wide characters; induction on characters, pieces and rows; extensionality for the commutation; for lists, one row of cells at a time | Spec/Cells, Props/Cells, Props/ListCells |
| C65 | colors and attributes of the terminal during and after writes | queued commands and a terminal with a pen; invariant: the pen is the default one between pieces (only a background inside a selected row) | Model/Tty, Spec/Tty, Props/Tty |
| C66 | sequences of mouse events, `copy_selection` and the display of the selection | invariant of the events (the start of the selection doesn't move before a press); the copied string is cut in lines and compared with C27 | Model/FieldCopy, Spec/FieldCopy, Props/FieldCopy |
| C67 | deserialization of skins from any entries | induction on the entries from the end; entries of different settings commute, hence any permutation gives the same skin | Model/Serde, Spec/SkinFile, Props/SkinFile |
| C68 | raw mode of the terminal as sources are created and dropped, with failures | invariant on the histories | Model/RawMode, Props/RawMode |
| C69 | edits followed by their opposite | a content is determined by its text before and after the cursor (injectivity of the joining of lines), then C22 and C23 | Props/Undo |
| C70 | wrapping against all other layouts | a layout is seen as a sequence of moves on tokens (`Way`); the greedy loop is never behind (induction); tokens and layouts are compared through cells which can't be separated | Spec/FewestLines, Lemmas/FewestLines, Props/FewestLines |
| C71 | which texts make the formatting panic | each loop is proved total (or failing) on all inputs, without any condition on the widths of characters; both directions of the equivalence | Spec/Panics, Lemmas/Panics, Props/Panics |
| C72 | writing a markdown view after any history; reading all of it by pages | totality of the formatting (C71) and of the rows; induction on the number of pages | Props/ReadAll |
| C73 | the terminal after a failure of the writer; crop writers on failing writers | a failure is a number of written commands and a number of characters of the next one; induction on rows and pieces for the order, the cells of C64 for the area; for the repair of anything, each sequence of commands is a map of changed cells which depends only on the place and pen it starts with; the invariant of C16 on cut texts | Spec/Crash, Model/CropFail, Props/Crash, Props/CrashRepair, Props/CropFail |
| C74 | the loop of an application on the events of its source | two threads as interleaved actions; an invariant relates them to an execution of C34 and C36; typed texts by C60 | Model/EventLoop, Spec/EventLoop, Props/EventLoop |
| C75 | where fitters elide | the zones of a text around a token are those of the texts before and after it; the invariant of the cut keeps it in the middle | Props/FitterMiddle |
| C76 | which columns of a table are narrowed | the gains of the first step are proportional, rounded up, so that their sum reaches the excess and none is over the difference to the mean; the second step is greedy on a list sorted by a stable sort | Props/TblFitFair, Spec/TblFitFair |
| C77 | a password field shows nothing of the characters typed | a relation on fields: same positions, scroll and line lengths, characters of the same widths; all operations keep it and return the same booleans (simulation), then C27_password | Props/Password, Spec/Password |
| C78 | an application redrawing its view shows exactly it | the loop of the scrollable example over the terminal of C65; invariant: the pen is reset, cells outside of the area of the view are blank; each drawing fills the area (C64), each resize clears | Props/Pager, Spec/Pager |
| C79 | what the booleans returned by the views say | all operations of the model of C45, by cases on the operation and on the key; the display by C27's functions | Props/Used, Spec/Used |
| C80 | the form of examples/inputs: routing of events, layout, clipboard, screen | invariant relating the view to a small automaton (Spec/Form: focus, sizes), induction on the events; each widget simulates the same one alone; the screen by composing C64/C76 for areas without common cell | Model/Form, Spec/Form, Props/Form, Props/FormClip, Props/FormScreen, Props/FormLate |
| C81 | the editor of examples/render-input-markdown: events, layout, clipboard, screen, panics | invariant on the events, the field simulating the same one alone (lemmas of C80); screen by composition in areas without common cell; panics by C71 and totality of the writing of formatted lines | Model/LiveEdit, Spec/LiveEdit, Props/LiveEdit, Props/LiveClip |
| C82 | `main` and the loop of the two applications, with a buffered writer which may fail at any call and a terminal with two screens and modes | trace of all that the terminal receives; the terminal after the trace and the buffer as a function of the calls; induction on the events with the last drawing as invariant; composition with C80 and C81 | Model/AppMain, Spec/AppMain, Props/AppMain, Props/AppShown |
| C83 | predefined border characters of tables and rectangles | specification of the strokes of the characters; positions of the rules of the tables of a formatted text, with the columns of C62; cells of a rectangle of C43 | Spec/Strokes, Props/Strokes |
| C84 | the run of examples/scrollable, with errors | the process and terminal of C82; induction on the loop, giving a run of the application of C78 with the same events | Model/PagerMain, Spec/PagerMain, Props/PagerMain |
| C85 | the printing functions on a terminal which breaks rows | specification of such a terminal; C11 for the widths, C50 for the characters, C65 for the styles, induction on the pieces and on the lines | Model/Print, Spec/Print, Props/Print |
| C86 | the filling of inline templates and their printing | induction on the values, with the index of the first one; C41 for the styles, C85 for the terminal | Model/Template, Spec/Template, Props/Template |
| C87 | the keys and the clipboard of an input field of several lines with selection, against a reference editor (Spec/SelectEditor) | simulation: the positions are put in correspondence with numbers of characters, one command (from C22, C23, C25), then induction on the sequence | Spec/SelectEditor, Lemmas/SelectEditor, Props/SelectEditor |
| C88 | sessions of keys, clipboard, mouse, focus and area in an input field, against a reference (Spec/FieldSession) | simulation: one event (from C87, C46, C25), then induction on the session | Spec/FieldSession, Props/FieldSession |
| C89 | the ticker of C37 with a clock: `recv_timeout` gives up only when the period has elapsed (Model/TickerTime) | invariant on the last tick of a beam and the start of its wait | Spec/TickerTime, Props/TickerTime |
| C90 | examples/stderr: the loop of C84 with another view, and the standard output | induction on the loop; a drawing changes the cells of the area and no others | Model/Chooser, Spec/Chooser, Props/Chooser |
| C91 | the crop writer with the styles, as commands on the terminal of C65 | what each call queues, induction on the calls, cells of the row as a function | Model/CropTty, Spec/CropTty, Props/CropTty |
| C92 | the special characters of the skin, in the model of the rendering and of the wrapping | a line is the map of the compounds; the lines are the tokens without some blanks, induction on the tokens | Spec/Special, Props/Special |
| C93 | `hard_wrap_composite` and what calls it, with wrapping subtraction and no debug assertion | equality with the debug build for the tables, whose cells have a short prefix; induction on the tokens for the items too deep | Model/Release, Spec/Release, Props/Release |
| C94 | histories of the setters of `MadSkin` and of its parts | one step by cases on the call and the part, then induction on the history; what is displayed by an invariant on the skin | Spec/SkinHistory, Props/SkinHistory |
| C95 | all the methods of `InputFieldContent`, and those of `InputField` between events | each method against a function on a text cut by a cursor (words, exchanged lines, end of the selection kept at the nearest place), then induction on the history | Spec/ContentHistory, Lemmas/ContentHistory, Props/ContentHistory |
| C96 | examples/fit-width: the loop of C84 with lines filling the width | the written rows are those of C55, one under the other; a drawing changes the cells of the rows and no others; induction on the loop | Model/FitApp, Spec/FitApp, Props/FitApp |
| C97 | Model/Print with what reaches the terminal (the encoding of styles is a parameter) | each piece of a line has the style of a part of the skin; for the converse, a text per part of the skin, on a terminal too narrow for wrapping | Spec/Plain, Props/Plain |
| C98 | Model/FmtText, Model/Table, Model/Print | the passes (table fixing, code justification, wrapping) each commute with the concatenation of separated lists of lines | Spec/Chunks, Props/Chunks |
| C99 | Model/Dialog: programs as trees of questions, over Model/AskShow | induction on the program, equivalence with an inductive specification of conversations | Spec/Dialog, Props/Dialog |
| C100 | Model/Background: the event source (Model/EventSource) with computations testing its counter | the counter is bounded by the answers given, invariants of a computation by induction on the schedule | Spec/Background, Props/Background |
| C101 | Model/Form, Model/LiveEdit, InputField | the operations given to each field are the events of a session (C88), by induction on the events | Spec/AppEditor, Props/AppEditor |
| C102 | Model/ListView: all operations | simulation: the index of the selection is the number of rows before it, cyclic search by C31_next | Spec/ListCursor, Props/ListCursor |
| C103 | Model/FmtText, Model/Code, Model/Wrap, Model/Render | the text is split with C98_lines, then each step computed on the block | Spec/CodeRect, Props/CodeRect |
| C104 | Model/FmtText, Model/Wrap, Model/Render | only code lines get a spacing, lengths are right, then case analysis on the alignment | Spec/Hanging, Props/Hanging |
| C105 | `ListView` with wrapping operations on `usize` and `i32` | equality with the debug build when it returns; invariants over histories of the release build | Model/ReleaseList, Spec/ReleaseList, Props/ReleaseList |
| C106 | `Fitter::fit` with the wrapping subtraction of `Zone::cut` | induction on the elisions of tokens, next to those of the debug build; the elisions of compounds and the truncation are those of the debug build | Model/ReleaseFit, Spec/Fitter, Props/ReleaseFit |
| C107 | the operations of `Area` with wrapping operations on `u16` | linear arithmetic with remainders | Model/ReleaseArea, Spec/Area, Props/ReleaseArea |
| C108 | the event source with the protocol of the keyboard, restored when the closure which owns the combiner returns, and the end of the process | invariant over executions | Model/Keyboard, Props/Keyboard |
| C109 | the writing of lines, text views and `MadView` with wrapping operations | both builds are compared operation by operation; the widths by C10 and C17 | Model/ReleaseView, Props/ReleaseView |
| C110 | input fields with wrapping operations | both builds are compared operation by operation; the fields of both builds are kept alike (same content and settings) | Model/ReleaseField, Spec/ReleaseField, Lemmas/ReleaseField, Props/ReleaseField, Props/FieldOpPanics |
| C111 | `Rect::draw` with wrapping operations | both builds are compared operation by operation; induction on the rows | Model/ReleaseRect, Spec/ReleaseRect, Props/ReleaseRect |

Each theorem is followed by an `example` on a concrete non-trivial case meeting its hypotheses.

## 4. Trusted base

* Lean's kernel, and nothing compiled: no `native_decide`, no `bv_decide`, no axiom of ours, no `sorry`.
* Axioms on which theorems depend: at most `propext`, `Classical.choice`, `Quot.sound`.
* The faithfulness of `Verif/Model` to `/repo`, definition by definition, as told by the comments (file, lines,
  simplifications), and the conventions of section 1.
* That `Verif/Spec` says what the English statements of `properties.jsonl` say, and that terminals and crossterm do what
  `Spec/Screen`, `Spec/Cells` and `Spec/Tty` say.
* `Verif/Conformance.lean` runs the model on the inputs of the unit tests of the repository (these are tests of the
  model, not proofs of properties).

### Modelled

| source | model | left out |
|---|---|---|
| area.rs | Model/Area, Model/ReleaseArea, Model/Print | `full_screen`; what the system answers to `terminal_size` is a parameter |
| ask.rs | Model/Ask, Model/AskShow, Model/Dialog | how `print_text` and the inline template print (modelled elsewhere, or minimad) |
| code.rs, composite.rs, composite_kind.rs, line.rs, list_indentation.rs | Model/Code, Model/Composite | — |
| color.rs | Model/Parse (`gray`) | `rgb` and `ansi` constructors are the constructors of colors |
| compound_style.rs, line_style.rs, styled_char.rs | Model/Style | escape codes; the `Display` of `StyledChar` is its cached styled char |
| scrollbar_style.rs, table_border_chars.rs | Model/Style, Model/SkinOps | — |
| displayable_line.rs, inline.rs, text.rs | Model/Render, Model/FmtText | the parser of minimad |
| events/*.rs, examples/inputs/main.rs | Model/EventSource, Model/EventLoop, Model/Background, Model/Ticker, Model/TickerTime, Model/RawMode, Model/Keyboard | start of threads; crokey's combiner is a parameter, and what it does to the keyboard is taken from its documentation |
| examples/inputs/view.rs, examples/inputs/clipboard.rs | Model/Form | the texts, skins and styles are parameters; the clipboard's answers are part of the events; codes of keys without role in a field are numbered |
| examples/render-input-markdown/view.rs, clipboard.rs | Model/LiveEdit | the parser, the skin, the styles and the initial text are parameters; conversion of key events to combinations |
| examples/inputs/main.rs, examples/render-input-markdown/main.rs | Model/AppMain (and Model/EventLoop for the unblocking of the source) | the cutting of a command when a write fails in the middle of it; logging; abort on a double panic |
| examples/scrollable/main.rs | Model/Pager, Model/PagerMain | the errors of `event::read` are other events; a command is sent whole or not at all |
| examples/stderr/main.rs | Model/Chooser (with the loop of Model/PagerMain) | the markdown text and the skin are parameters; what is printed before a panic of the printing |
| examples/fit-width/main.rs | Model/FitApp (with the loop of Model/PagerMain) | the parsing of the texts, which are parameters; the unbuffered writer is one of the answers of a buffered one; logging |
| fit/*.rs | Model/Wrap, Model/TblFit, Model/Fit, Model/Fitter, Model/CropFail, Model/CropTty, Model/Release, Model/ReleaseFit | kinds of IO errors |
| macros.rs | Model/Template | the parsing of the template and the turning of values into strings (minimad, std) |
| parse/*.rs | Model/Parse | messages of errors |
| rect.rs | Model/Rect, Model/ReleaseRect | — |
| serde/*.rs | Model/Serde | the data format (json, toml…), reduced to key/value entries |
| skin.rs | Model/Composite, Model/Style, Model/SkinOps, Model/Render, Model/Write, Model/Print | minimad's parser |
| spacing.rs | Model/Spacing | — |
| tbl.rs, tokens.rs | Model/Table, Model/Wrap | — |
| views/*.rs | Model/Input, Model/InputField, Model/ReleaseField, Model/TextView, Model/ReleaseView, Model/ListView, Model/ReleaseList, Model/Progress, Model/FieldStyle, Model/FieldCopy, Model/Tty | flush, kinds of IO errors |

Not modelled at all: errors.rs and fit/fit_error.rs (error enums), the
documentation, the other examples, minimad, crossterm, coolor (color blending is a parameter), crokey, lazy_regex.

## 5. Disagreements found between the code and what its users may expect

Each one is proved on a concrete witness, by the theorem named in parentheses. The English statements of
`properties.jsonl` say the exceptions explicitly; a theorem about the code as it is must have them.

Wrapping, tables, texts
* No room after the indentation: lines too wide, or a panic (`C01_no_room_counterexample`, `C01_deep_panic_counterexample`).
* Two words may be glued when the blank between them is dropped and the next word is shorter than this blank (`C02_glued_words_counterexample`).
* Formatting a table with a short row in a narrow width panics (index out of bounds in `fix_columns`) when a cell of this row must be wrapped; a deep list item panics in a width smaller than its bullet (`C71_format` says exactly when).
* A line may be broken inside a partly styled word, and the second of two compounds keeps its leading spaces when it's put whole in the second line (`C54_styled_word_counterexample`, `C54_leading_space_counterexample`).
* One more column may give one more line, with several spaces between words or with margins (`C70_wider_counterexample`, `C70_margins_counterexample`).
* `TblFitResult::reduced` is false for a reduced single column (`C06_reduced_counterexample`).
* A ragged row in a too large table panics (`C07_ragged_panic_counterexample`).
* A content larger than its spacing, a rule without column, a list item of depth 255 (`C10_spacing_counterexample`, `C10_empty_rule_counterexample`, `C10_depth_counterexample`).
* Too long code lines and tables without columns overflow the width; below 3 columns nothing is wrapped (`C11_code_counterexample`, `C11_empty_table_counterexample`, `C11_small_width_counterexample`).

Fitting
* A token of two wide characters, an empty compound, make the fitter panic; the cached length ignores the quote mark when one column is available (`C12_token_counterexample`, `C12_empty_counterexample`, `C12_prefix_counterexample`). Which empty compounds do it is `C12_aligned_panics`.
* `Spacing::write_str` counts characters, not columns (`C14_wide_counterexample`).
* `write_composite_fill` adds the left margin to the asked width (`C55_margin_counterexample`).
* `content_width` ignores borders and column widths in tables without rule (`C57_no_rule_counterexample`).
* Margins are not in `content_width`: a line with a margin may end after it (`C57_margin_counterexample`).
* A background computation which notes the event count after the call to `unblock` may miss an event already sent (`C100_late_counterexample`).
* A raw tab overflows a crop writer; `queue_char` never uses the last column (`C16_tab_counterexample`, `C16_last_column_counterexample`).

Areas and scrollbars
* `contains` panics for areas out of u16 (`C18_contains_counterexample`).
* In a release build, padding by 2 an area of 3 columns, as an application may do in a small terminal, gives an area of 65535 columns (`C107_too_much`).
* In a release build, a rectangle in an area without row at the top of the screen is drawn on 65536 rows; one which is out of `u16` is drawn above its area, and one starting at the last row is drawn on the first rows too (`C111_no_row`, `C111_below`, `C111_last_top`).
* The thumb may end one row after the track, start out of it with a height of 1, touch the last row before the end (`C19_bottom_counterexample`, `C19_height_one_counterexample`, `C19_last_row_counterexample`).

Input fields
* `set_selection_tail` bounds the column by the wrong line; removing the selection then panics (`C20_tail_counterexample`).
* `del_char_below` with nothing after the cursor may remove an empty last line (`C22_delete_below_counterexample`).
* Cutting a selection over several lines leaves characters or newlines (`C23_cut_lines_counterexample`, `C23_cut_newline_counterexample`, `C23_cut_last_counterexample`).
* Moving a line doesn't always keep the column (`C24_column_counterexample`); zero-width characters share their column (`C25_columns_counterexample`).
* The Down key puts the cursor out of the displayed rows; narrow fields and deletion keys lose it too (`C26_row_counterexample`, `C26_narrow_counterexample`, `C26_backspace_counterexample`).
* Tabs are written raw but counted as 2 columns; the returned position is off by one after a left ellipsis (`C27_tab_counterexample`, `C27_position_counterexample`).
* An area without column panics (`C45_width_counterexample`, exactly when: `C45_panics`); a click on the second column of a wide character goes after it (`C46_wide_counterexample`).
* An input field with more lines than rows in an area without column panics in a debug build (`C110_debug_counterexample`); in a release build it can be edited, but its display never ends (`C110_no_column`).
* C79: when a key which only moves (as Left at the start of the content) can't move, the input field returns false, but the selection was removed before: an application which redraws only when the returned value is true goes on showing a selection which isn't there any more (`C79_selection_counterexample`).
* C80: in examples/inputs, the area of the last label is higher than what remains of the screen (`area.height - 1 - h` from row `h + 7`): with a longer label rows would be written under the last row (`C80_label_counterexample`). A terminal would put them on its last row; the model has no last row.
* C80: in examples/inputs, when the clipboard refuses what ctrl-x gives, the text was removed but false is returned: the text is lost and the screen isn't redrawn (`C80_cut_lost_counterexample`, `C80_late_counterexample`).
* C80: ctrl-c in a field in password mode copies the clear text (`C80_password_copied_counterexample`): `InputField::copy_selection` doesn't look at the mode.
* C81: in examples/render-input-markdown, typing `|a|b|c|d|e`, enter, `|abcd` in a terminal of 20 columns panics in `FmtText::from`, which leaves the terminal in the alternate screen (`C81_panic_counterexample`, `C82_panic_counterexample`): the rows of tables aren't completed when columns are removed.
* C82: in examples/inputs and examples/render-input-markdown, `main` returns early when an error occurs in its first or last calls, which leaves the terminal on the alternate screen (`C82_error_counterexample`); a panic leaves it there too, with the mouse captured and the cursor hidden (`C82_panic_counterexample`). A `Resize` event with the size the view already has isn't followed by a redraw, even if the terminal changed its cells (`C82_same_size_counterexample`).
* C84: examples/scrollable returns at the first error of its writer without restoring anything: the user is left in raw mode, on the alternate screen and without cursor (`C84_error`, `C84_error_counterexample`).
* C90: examples/stderr doesn't handle the changes of size (the area is computed at the start), and panics on a terminal of less than 2 columns or rows, leaving it in raw mode and on the alternate screen (`C90_small_counterexample`).
* C91: a filling of more than 1000 columns is queued in several parts; a style with attributes resets everything after each part, so a color set with `queue_bg` or `queue_fg` is behind the first 1000 columns only (`C91_long_filling_counterexample`). `queue_char` never uses the last allowed column (`C91_last_char_counterexample`, see C16).
* C92: a word which is a key of `special_chars` but only a part of a compound isn't replaced in a line which fits, and may be replaced once the line is wrapped, because each word is then a compound (`C92_word_counterexample`); whether it's replaced depends on the width of the terminal. The keys of several characters have the reverse problem (`C92_long_counterexample`), which the comment of the field warns of. Widths are counted with the text which is replaced (`C92_width_counterexample`).
* C93: an item too deep for the width panics in a debug build (C71); in a release build, the subtraction `width - first_width` wraps: the words of the item aren't cut and each one has its own line, larger than the width (`C93_deep_counterexample`).
* C85: a line of code wider than the terminal gives lines which are completed to its whole length, and broken by the terminal (`C85_code_counterexample`).
* With paragraphs which are centered, the rows of a list item or of a quote are centered separately: bullets and quote marks are not in one column (`C104_centered_counterexample`).
* A too long line of code makes the whole block of code too wide: the other lines of the block are completed to its length too (`C103_too_long_counterexample`).
* C86: a value which is exactly `…` is shown in the style of ellipses, whatever the markers around its place (`C86_ellipsis_counterexample`).
* C87: the removal of a selection of parts of several lines keeps some of it (as in C23), so the reference editor keeps the same parts; only some removals are exact (`C87_removed`, `C87_lines_counterexample`).
* C95: `set_selection_tail` for another line may set a place which doesn't exist (`C95_tail_counterexample`), which limits the histories of methods. The removal of parts of several lines keeps some of them (`C95_lines_counterexample`).

Text views
* With the arithmetic of `f64`, 0.07 page of 100 rows are 8 lines, not 7 (`C28_float_counterexample`); a negative infinite
  number of pages panics (`C28_min_counterexample`).
* Without row, paging says that it moved; the least i32 panics; no scrollbar for 65536 lines (`C28_height_counterexample`, `C28_min_counterexample`, `C28_bar_counterexample`).
* A greater height keeps a scroll out of range; margins plus 3 equal to the width draw out of the area; no column or too many pages panic (`C29_taller_counterexample`, `C29_margins_counterexample`, `C29_panic_counterexample`).
* In a release build, a scrollable text in an area without column (as a small terminal may give after padding) makes `width -= 1` wrap: the view writes spaces for ever (`C109_no_column`). A huge number of pages may scroll a `MadView` the wrong way (`C109_pages_counterexample`).

List views
* An addition in a sorted list changes the selected row (`C30_order_counterexample`).
* Low areas and filters hide the selection (`C31_height_counterexample`, `C31_filter_counterexample`).
* Selecting the next row of a long unscrolled list panics in debug; scrolling down a short list panics; some filtered rows can't be reached (`C32_select_counterexample`, `C32_scroll_counterexample`, `C32_filter_counterexample`).
* In a release build, scrolling down a list having at least two rows less than its height has no limit: its rows are hidden and its display panics (`C105_short_counterexample`).
* In a release build, fitting `一曰` in 3 columns gives `一…曰`, 5 columns: the gain of the cut, `0 - 1`, wraps, and the fitting stops after having added an ellipsis and removed nothing (`C106_wide_counterexample`).
* `usize::MAX` as maximal width, maximum lower than the minimum (`C33_max_counterexample`, `C33_order_counterexample`).
* The scrollbar is out of the area, its thumb counts the top twice (`C47_bar_counterexample`, `C47_thumb_counterexample`, `C64_list_counterexample`); rows without data clear the lines after the area (`C64_clear_counterexample`).

Events
* The eleventh pending escape sequence is lost; `ALT-_` breaking a sequence doesn't start one; shifted characters aren't in the text of sequences (`C34_sequences_counterexample`, `C34_restart_counterexample`, `C34_text_counterexample`).
* `unblock(true)` in advance lets an event pass; `unblock` panics after the end of the thread (`C36_quit_counterexample`, `C36_unblock_counterexample`).
* An error when enabling the combination of keys leaves the terminal in raw mode; dropping one of two sources ends raw mode (`C68_error_counterexample`, `C68_two_counterexample`).
* A tick may follow a stop (`C37_stop_counterexample`).
* The delays of the ticks of a beam add up when its thread is late, as each period is counted from the end of the work for the previous tick (`C89_exact_counterexample`).
* `ask` loops forever at the end of the input; keys ending with whitespace can't be chosen; a default which isn't a key panics in the macro (`C38_end_of_input_counterexample`, `C38_blank_key_counterexample`, `C38_macro_counterexample`).

Styles and skins
* Some colors, attributes, characters and margins aren't kept by writing and parsing; `write_style_tokens` writes separators at the wrong place (`C39_dark_counterexample`, `C39_blink_counterexample`, `C39_digit_counterexample`, `C39_margin_counterexample`, `C39_write_style_tokens_counterexample`).
* Indentation mode, special characters, table borders and attributes of simple scrollbars aren't serialized (`C40_lost_counterexample`, `C40_scrollbar_counterexample`).
* Overwriting loses the underline color; blending ignores the background and blends the foreground twice (`C41_underline_counterexample`, `C41_blend_counterexample`, `C41_blend_twice_counterexample`).
* Blending leaves the drawn character of styled chars with their former color (`C42_blend_counterexample`, `C42_skin_blend_counterexample`).
* Rectangles with one column, one row or none (`C43_narrow_counterexample`, `C43_flat_counterexample`, `C43_empty_counterexample`).
* Progress bars of more than 2^24 cells may be too long (`C44_long_counterexample`); with an infinite part,
  or an overflow, `usize::MAX` cells are written (`C44_infinite_counterexample`).
* The cursor of an input field with a reversed normal style can't be seen (`C58_reversed_counterexample`).
* An ellipsis of the source which is alone between markers loses its style (`C59_ellipsis_counterexample`).
* A key pressed with Shift starts a selection even if it isn't used (function keys, Shift-Enter), and typing doesn't remove the start of the selection: the second character typed then replaces the first one (`C60_selection_counterexample`).
* `set_fg` doesn't change table borders nor the scrollbar (part of the statement of C48).
* `fill_bg` and `CompoundStyle::clear` leave their background on the terminal; a color of underline without attribute stays on it too (`C65_fill_counterexample`, `C65_underline_counterexample`).
* After a failure of the writer, a style may stay on the terminal (`C73_style_counterexample`), and a crop writer whose texts have backspaces may pass its limit (`C73_backspace_counterexample`).
* An application with an input field which asks not to discard the raw key events gets every typed key twice on terminals reporting releases (`C74_typed_counterexample`); `ALT-_` withholds the keys typed after it (`C74_withheld_counterexample`).
* The documentation of `combine_keys` says that the standard behaviour of the terminal is restored on drop. The combiner isn't owned by the source but by its thread: dropping the source while the thread reads doesn't restore anything (`C108_drop_counterexample`), and nothing joins the thread before the end of the process (`C108_exit_counterexample`).
* In a password field, a double click highlights a word, and the field is scrolled according to the widths of the hidden characters although all stars have a width of 1: both tell something of the content (`C77_double_click_counterexample`, `C77_width_counterexample`). They're excluded from C77.
* The second step of the table fitter is commented as removing the excess proportionally. As the total potential gain is capped by the excess before being used as the divisor, each column in turn gives all it can: of two columns of width 20 in 26 columns, the first one gets a width of 3 and the second one keeps 20 (`C76_proportional_counterexample`). The documentation of the crate doesn't say anything about the widths, so the property states what the code does.
* `limit_to_ascii` lets special characters and the scrollbar as they are (`C50_special_counterexample`, `C50_scrollbar_counterexample`).
* Dark variants read as light ones; unknown names containing a known one and 4 or 5 hexadecimal digits are accepted (`C52_dark_counterexample`, `C52_contains_counterexample`, `C52_four_hex_counterexample`).
* Names of attributes are searched anywhere in a word: NoBold, NoItalic, NoReverse, NotCrossedOut, NotOverLined and NotFramedOrEncircled, written as tokens, are read as the attribute they remove (`C39_removal_counterexample`).

## 6. Seeded wrong programs

`seeded/LOG.jsonl` has one line per edit of the model: the definition, the edit, the claim it breaks, the theorems
which no longer prove, the theorems tightened. An empty list of failed theorems means that the edit survived; the
tightened theorems, or the claim field, then say what was done about it.

When both lists are filled, the failed theorems are those of a run made after the named theorems were added or tightened. When a lemma fails, the
modules which import it aren't built: the theorems which rest on it aren't in the list.
