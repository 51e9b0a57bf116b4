import Verif.Lemmas.Input2
import Verif.Spec.InputOps
/-! Properties C20 to C25: contents of input fields. -/
namespace Verif.Props
open Verif Verif.Content

/-- A content of three lines, with a selection over two of them. -/
private def sample : Content := ⟨⟨1, 2⟩, some ⟨0, 1⟩, ["ab c".toList, "def".toList, "g".toList]⟩

private theorem sample_valid : sample.Valid := by
  refine ⟨by simp [sample], ⟨_, rfl, by simp [sample]⟩, ?_, ?_⟩
  · intro t h
    cases h
    exact ⟨_, rfl, by simp⟩
  · simp [sample, NotStored]

/-- A content whose last line is empty, with the cursor there. -/
private def lastEmpty : Content := ⟨⟨1, 0⟩, none, ["ab".toList, []]⟩

private theorem lastEmpty_valid : lastEmpty.Valid := by
  refine ⟨by simp [lastEmpty], ⟨_, rfl, by simp [lastEmpty]⟩, by simp [lastEmpty], ?_⟩
  simp [lastEmpty, NotStored]

/-- A content with some selected characters of a line. -/
private def inLine : Content := ⟨⟨0, 3⟩, some ⟨0, 1⟩, ["abcdef".toList]⟩

private theorem inLine_valid : inLine.Valid := by
  refine ⟨by simp [inLine], ⟨_, rfl, by simp [inLine]⟩, ?_, ?_⟩
  · intro t h
    cases h
    exact ⟨_, rfl, by simp⟩
  · simp [inLine, NotStored]

/-! ### C20 -/

/-- C20: no operation panics and they all keep the content valid. -/
theorem C20_step (cw : Char → Nat) (alnum : Char → Bool) {c : Content} (h : c.Valid) (op : ContentOp) (ha : op.Allowed c) :
    ∃ c', op.exec cw alnum c = some c' ∧ c'.Valid := by
  cases op with
  | setCursorPos p => obtain ⟨c', h1, h2, _⟩ := setCursorPos_ok h p; exact ⟨c', h1, h2⟩
  | makeSelection => exact ⟨_, rfl, makeSelection_ok h⟩
  | unselect => exact ⟨_, rfl, unselect_ok h⟩
  | setSelectionTail p => obtain ⟨c', h1, h2, _⟩ := setSelectionTail_ok h p ha; exact ⟨c', h1, h2⟩
  | pushChar ch => obtain ⟨c', h1, h2, _⟩ := pushChar_ok h ch; exact ⟨c', h1, h2⟩
  | clear => exact ⟨_, rfl, default_valid⟩
  | insertNewLine => obtain ⟨c', h1, h2, _⟩ := insertNewLine_ok h; exact ⟨c', h1, h2⟩
  | insertChar ch => obtain ⟨c', h1, h2, _⟩ := insertChar_ok h ch; exact ⟨c', h1, h2⟩
  | insertStr s => obtain ⟨c', h1, h2, _⟩ := insertStr_ok s h; exact ⟨c', h1, h2⟩
  | setStr s => obtain ⟨c', h1, h2, _⟩ := setStr_ok h s; exact ⟨c', h1, h2⟩
  | delCharLeft => obtain ⟨c', r, h1, h2, _⟩ := delCharLeft_ok h; exact ⟨c', by simp [ContentOp.exec, h1], h2⟩
  | selectWordAround => obtain ⟨c', r, l, h1, h2, _⟩ := selectWordAround_ok alnum h; exact ⟨c', by simp [ContentOp.exec, h1], h2⟩
  | delCharBelow => obtain ⟨c', r, h1, h2, _⟩ := delCharBelow_ok h; exact ⟨c', by simp [ContentOp.exec, h1], h2⟩
  | delSelection => obtain ⟨c', r, h1, h2, _⟩ := delSelection_ok h; exact ⟨c', by simp [ContentOp.exec, h1], h2⟩
  | swapLines i j => obtain ⟨c', r, h1, h2, _⟩ := swapLines_ok h i j; exact ⟨c', by simp [ContentOp.exec, h1], h2⟩
  | moveCurrentLineUp => obtain ⟨c', r, h1, h2, _⟩ := moveCurrentLineUp_ok h; exact ⟨c', by simp [ContentOp.exec, h1], h2⟩
  | moveCurrentLineDown => obtain ⟨c', r, h1, h2, _⟩ := moveCurrentLineDown_ok h; exact ⟨c', by simp [ContentOp.exec, h1], h2⟩
  | moveRight => obtain ⟨c', r, h1, h2, _⟩ := moveRight_ok h; exact ⟨c', by simp [ContentOp.exec, h1], h2⟩
  | moveLinesUp n => obtain ⟨c', r, h1, h2, _⟩ := moveLinesUp_ok cw h n; exact ⟨c', by simp [ContentOp.exec, h1], h2⟩
  | moveUp => obtain ⟨c', r, h1, h2, _⟩ := moveLinesUp_ok cw h 1; exact ⟨c', by simp [ContentOp.exec, moveUp, h1], h2⟩
  | moveLinesDown n => obtain ⟨c', r, h1, h2, _⟩ := moveLinesDown_ok cw h n; exact ⟨c', by simp [ContentOp.exec, h1], h2⟩
  | moveDown => obtain ⟨c', r, h1, h2, _⟩ := moveLinesDown_ok cw h 1; exact ⟨c', by simp [ContentOp.exec, moveDown, h1], h2⟩
  | moveLeft => obtain ⟨c', r, h1, h2, _⟩ := moveLeft_ok h; exact ⟨c', by simp [ContentOp.exec, h1], h2⟩
  | moveToEnd => obtain ⟨c', h1, h2, _⟩ := moveToEnd_ok h; exact ⟨c', by simp [ContentOp.exec, h1], h2⟩
  | moveToStart => obtain ⟨c', h1, h2, _⟩ := moveToStart_ok h; exact ⟨c', by simp [ContentOp.exec, h1], h2⟩
  | moveToLineEnd => obtain ⟨c', s, h1, h2, _⟩ := moveToLineEnd_ok h; exact ⟨c', by simp [ContentOp.exec, h1], h2⟩
  | moveToLineStart => obtain ⟨c', s, h1, h2, _⟩ := moveToLineStart_ok h; exact ⟨c', by simp [ContentOp.exec, h1], h2⟩
  | moveWordLeft => obtain ⟨c', r, h1, h2, _⟩ := moveWordLeft_ok alnum h; exact ⟨c', by simp [ContentOp.exec, h1], h2⟩
  | moveWordRight => obtain ⟨c', r, h1, h2, _⟩ := moveWordRight_ok alnum h; exact ⟨c', by simp [ContentOp.exec, h1], h2⟩
  | delWordLeft => obtain ⟨c', r, h1, h2, _⟩ := delWordLeft_ok alnum h; exact ⟨c', by simp [ContentOp.exec, h1], h2⟩
  | delWordRight => obtain ⟨c', r, h1, h2, _⟩ := delWordRight_ok alnum h; exact ⟨c', by simp [ContentOp.exec, h1], h2⟩

/-- Concrete case. -/
example := C20_step (fun _ => 1) Char.isAlphanum sample_valid (.setSelectionTail ⟨1, 7⟩) (.inr (.inl rfl))

/-- C20: all the contents which can be obtained are valid, and no operation panics on them. -/
theorem C20_reachable (cw : Char → Nat) (alnum : Char → Bool) {c : Content} (h : ReachableContent cw alnum c) :
    c.lines ≠ [] ∧ ValidPos c.lines c.pos ∧ (∀ t, c.tail = some t → ValidPos c.lines t) ∧ (∀ l ∈ c.lines, '\n' ∉ l) ∧
      ∀ op : ContentOp, op.Allowed c → op.exec cw alnum c ≠ none := by
  have hv : c.Valid := by
    induction h with
    | init => exact default_valid
    | step op _ ha he ih =>
      obtain ⟨c', h1, h2⟩ := C20_step cw alnum ih op ha
      rw [he] at h1
      cases h1
      exact h2
  refine ⟨hv.oneLine, hv.pos, hv.tail, ?_, ?_⟩
  · intro l hl hn
    exact hv.clean l hl _ hn (.inl rfl)
  · intro op ha
    obtain ⟨c', h1, _⟩ := C20_step cw alnum hv op ha
    rw [h1]
    simp

/-- Concrete case. -/
example := C20_reachable (fun _ => 1) Char.isAlphanum (c := ⟨⟨1, 2⟩, none, ["ab".toList, "cd".toList]⟩)
  (.step (.insertStr "ab\ncd".toList) .init trivial (by show insertStr _ _ = _; decide))

/-- C20: the functions reading a valid content don't panic. -/
theorem C20_queries {c : Content} (h : c.Valid) (s : Text) (p : Pos) (y : Nat) :
    c.currentLine ≠ none ∧ c.lineSaturating y ≠ none ∧ c.endPos ≠ none ∧ c.makeValidPos p ≠ none ∧ c.selectionString ≠ none ∧
      c.isStr s ≠ none ∧ c.chars ≠ none ∧ c.canMoveRight ≠ none := by
  obtain ⟨l, h1, h2⟩ := h.pos
  obtain ⟨e, h3, _, _, h4⟩ := endPos_ok h.oneLine
  obtain ⟨q, h5, _⟩ := makeValidPos_ok h.oneLine p
  obtain ⟨t, h6, _⟩ := selectionString_ok h
  have hlen : 0 < c.lines.length := List.length_pos_iff.2 h.oneLine
  have hcs : csub c.lines.length 1 = some (c.lines.length - 1) := by rw [csub, if_pos (by omega)]
  refine ⟨by simp [currentLine, h1], ?_, by simp [h3], by simp [h5], by simp [h6], by simp [isStr_ok h.oneLine], by
    simp [chars_ok h.oneLine], ?_⟩
  · have hl : c.lines[c.lines.length - 1]? = some (c.lines[c.lines.length - 1]'(by omega)) := List.getElem?_eq_getElem _
    simp [lineSaturating, hcs, hl]
  · simp [canMoveRight, h1, hcs]

/-- Concrete case. -/
example := C20_queries sample_valid "ab\ncd".toList ⟨7, 1⟩ 5

/-- C20: `line_saturating` gives the line of this index, or the last one when there's no such line. -/
theorem C20_line_saturating {c : Content} (h : c.Valid) (y : Nat) :
    (∀ l, c.lines[y]? = some l → c.lineSaturating y = some l) ∧
      (c.lines.length ≤ y → c.lineSaturating y = c.lines.getLast?) := by
  have hlen : 0 < c.lines.length := List.length_pos_iff.2 h.oneLine
  have hcs : csub c.lines.length 1 = some (c.lines.length - 1) := by rw [csub, if_pos (by omega)]
  have hl : c.lines[c.lines.length - 1]? = some (c.lines[c.lines.length - 1]'(by omega)) := List.getElem?_eq_getElem _
  refine ⟨fun l hy => ?_, fun hy => ?_⟩
  · simp [lineSaturating, hcs, hl, hy]
  · simp [lineSaturating, hcs, hl, List.getElem?_eq_none hy, List.getLast?_eq_getElem?]

/-- Concrete case. -/
example := C20_line_saturating sample_valid 4

/-- The guard on `set_selection_tail` is needed: the tail can be out of its line, and the removal of the selection then panics. -/
theorem C20_tail_counterexample (cw : Char → Nat) (alnum : Char → Bool) :
    ∃ c c' c'' : Content, ReachableContent cw alnum c ∧ c.setSelectionTail ⟨1, 5⟩ = some c' ∧
      (∀ t, c'.tail = some t → ¬ ValidPos c'.lines t) ∧
      c'.setCursorPos ⟨1, 0⟩ = some c'' ∧ c''.delSelection = none := by
  refine ⟨⟨⟨0, 0⟩, none, ["abcdef".toList, "g".toList]⟩, ⟨⟨0, 0⟩, some ⟨1, 5⟩, ["abcdef".toList, "g".toList]⟩,
    ⟨⟨1, 0⟩, some ⟨1, 5⟩, ["abcdef".toList, "g".toList]⟩, ?_, by decide, ?_, by decide, by decide⟩
  · refine .step .moveToStart (.step (.insertStr "abcdef\ng".toList) .init trivial (c' := ⟨⟨1, 1⟩, none, ["abcdef".toList, "g".toList]⟩)
      (by show insertStr _ _ = _; decide)) trivial (by show some (moveToStart _).1 = _; decide)
  · intro t ht
    cases ht
    rintro ⟨l, h1, h2⟩
    cases h1
    exact absurd h2 (by decide)

/-- A history going through the operations with cases: the theorem applies to its result. -/
example : ∃ c, ReachableContent (fun _ => 1) (fun ch => ch.isAlphanum) c ∧ c.lines = ["ab".toList, "d".toList] ∧ c.tail ≠ none := by
  refine ⟨⟨⟨1, 0⟩, some ⟨1, 1⟩, ["ab".toList, "d".toList]⟩, ?_, rfl, by decide⟩
  refine .step (.setSelectionTail ⟨1, 7⟩) (.step .delCharLeft (.step .moveLeft (.step (.insertStr "ab\ncd".toList) .init trivial
    (c' := ⟨⟨1, 2⟩, none, ["ab".toList, "cd".toList]⟩) ?_) trivial (c' := ⟨⟨1, 1⟩, none, ["ab".toList, "cd".toList]⟩) ?_) trivial
    (c' := ⟨⟨1, 0⟩, none, ["ab".toList, "d".toList]⟩) ?_) (.inr (.inl rfl)) ?_
  · show insertStr _ _ = _; decide
  · decide
  · decide
  · show setSelectionTail _ _ = _; decide

/-! ### C21 -/

/-- C21: setting the content. -/
theorem C21_set {c : Content} (h : c.Valid) (s : Text) :
    ∃ c', c.setStr s = some c' ∧ c'.Valid ∧ c'.toText = keptText s ∧
      (c.toText = s → c' = c) ∧ (c.toText ≠ s → c'.after = [] ∧ c'.tail = none) := by
  obtain ⟨c', h1, h2, h3, h4, h5⟩ := setStr_ok h s
  simp only [toText, fmtLines_eq]
  exact ⟨c', h1, h2, h3, h4, h5⟩

/-- Concrete case. -/
example := C21_set sample_valid "x\ry".toList

/-- C21: building a content from a string. -/
theorem C21_from (s : Text) : ∃ c, ofText s = some c ∧ c.Valid ∧ c.toText = keptText s ∧ c.after = [] := by
  obtain ⟨c', h1, h2, h3, h4⟩ := insertStr_ok s default_valid
  have ha : ({} : Content).after = [] := by decide
  have hb : ({} : Content).before = [] := by decide
  refine ⟨c', h1, h2, ?_, by rw [h4, ha]⟩
  rw [toText, fmtLines_eq, ← text_split h2.pos]
  show c'.before ++ c'.after = _
  rw [h3, h4, ha, hb]; simp

/-- C21: comparison with a string. -/
theorem C21_is_str {c : Content} (h : c.Valid) (s : Text) : c.isStr s = some (decide (c.toText = s)) := by
  rw [toText, fmtLines_eq]
  exact isStr_ok h.oneLine s

/-- Concrete case. -/
example := C21_is_str sample_valid "ab c".toList

/-- C21: iteration. -/
theorem C21_chars {c : Content} (h : c.Valid) : c.chars = some c.toText := by
  rw [toText, fmtLines_eq]
  exact chars_ok h.oneLine

/-- Concrete case. -/
example := C21_chars sample_valid

/-- C21: the string of a content is made of its lines with newlines between them. -/
theorem C21_text (c : Content) : c.toText = joinLines c.lines := fmtLines_eq c.lines

/-- C21: `is_empty` says whether the string is empty. -/
theorem C21_is_empty {c : Content} (h : c.Valid) : c.isEmpty = decide (c.toText = []) := by
  rw [toText, fmtLines_eq]
  unfold isEmpty
  rcases hl : c.lines with _ | ⟨l, _ | ⟨m, ls⟩⟩
  · exact absurd hl h.oneLine
  · cases l <;> simp [joinLines_one]
  · rw [joinLines_cons]
    simp [linesR]

/-- Concrete case. -/
example := C21_is_empty sample_valid

/-- C21: characters pushed at the end. -/
theorem C21_push {c : Content} (h : c.Valid) (ch : Char) :
    ∃ c', c.pushChar ch = some c' ∧ c'.Valid ∧ c'.pos = c.pos ∧ c'.toText = c.toText ++ keptText [ch] := by
  obtain ⟨c', h1, h2, h3, _, h5⟩ := pushChar_ok h ch
  simp only [toText, fmtLines_eq]
  exact ⟨c', h1, h2, h3, h5⟩

/-- Concrete case. -/
example := C21_push sample_valid '\n'

example : (ofText "a\r\n\n\x08bc\n".toList).map toText = some "a\n\nbc\n".toList := by decide

/-! ### C22 -/

/-- C22: insertions add to the text before the cursor. -/
theorem C22_insert {c : Content} (h : c.Valid) (s : Text) :
    ∃ c', c.insertStr s = some c' ∧ c'.Valid ∧ c'.before = c.before ++ keptText s ∧ c'.after = c.after :=
  insertStr_ok s h

/-- Concrete case. -/
example := C22_insert sample_valid "x\ny".toList

/-- C22: insertion of a character. -/
theorem C22_insert_char {c : Content} (h : c.Valid) (ch : Char) :
    ∃ c', c.insertChar ch = some c' ∧ c'.Valid ∧ c'.before = c.before ++ keptText [ch] ∧ c'.after = c.after :=
  insertChar_ok h ch

/-- Concrete case. -/
example := C22_insert_char sample_valid 'é'

/-- C22: insertion of a newline. -/
theorem C22_insert_new_line {c : Content} (h : c.Valid) :
    ∃ c', c.insertNewLine = some c' ∧ c'.Valid ∧ c'.before = c.before ++ ['\n'] ∧ c'.after = c.after :=
  insertNewLine_ok h

/-- Concrete case. -/
example := C22_insert_new_line sample_valid

/-- C22: deletion on the left. -/
theorem C22_delete_left {c : Content} (h : c.Valid) :
    ∃ c' r, c.delCharLeft = some (c', r) ∧ c'.Valid ∧ r = decide (c.before ≠ []) ∧
      c'.before = c.before.dropLast ∧ c'.after = c.after := by
  obtain ⟨c', r, h1, h2, ⟨h3, h4, h5⟩ | ⟨ch, h3, h4, h5⟩⟩ := delCharLeft_ok h
  · refine ⟨c', r, h1, h2, by simp [h3, h5], by rw [h4, h3]; rfl, by rw [h4]⟩
  · refine ⟨c', r, h1, h2, by simp [h3, h5], by rw [h3]; simp, h4⟩

/-- Concrete case. -/
example := C22_delete_left sample_valid

/-- C22: deletion below the cursor, unless the cursor is on the empty last line of a content with several lines. -/
theorem C22_delete_below {c : Content} (h : c.Valid) (hn : ¬ (c.after = [] ∧ ∃ t, c.before = t ++ ['\n'])) :
    ∃ c' r, c.delCharBelow = some (c', r) ∧ c'.Valid ∧ r = decide (c.after ≠ []) ∧
      c'.before = c.before ∧ c'.after = c.after.tail := by
  obtain ⟨c', r, h1, h2, ⟨h3, h4, h5, _⟩ | ⟨ch, h3, h4, h5⟩ | ⟨h3, h4, _⟩⟩ := delCharBelow_ok h
  · refine ⟨c', r, h1, h2, by simp [h3, h5], by rw [h4], by rw [h4, h3]; rfl⟩
  · refine ⟨c', r, h1, h2, by simp [h3, h5], h4, by rw [h3]; rfl⟩
  · exact absurd ⟨h3, _, h4⟩ hn

/-- Concrete case. -/
example := C22_delete_below sample_valid fun h => absurd h.1 (by decide)

/-- C22: deletion below a cursor on the empty last line of a content with several lines: this line is removed. -/
theorem C22_delete_below_last {c : Content} (h : c.Valid) (ha : c.after = []) {t : Text} (hb : c.before = t ++ ['\n']) :
    ∃ c', c.delCharBelow = some (c', true) ∧ c'.Valid ∧ c'.before = t ∧ c'.after = [] := by
  obtain ⟨c', r, h1, h2, ⟨h3, h4, h5, h6⟩ | ⟨ch, h3, h4, h5⟩ | ⟨h3, h4, h5, h6⟩⟩ := delCharBelow_ok h
  · exact absurd hb (h6 t)
  · rw [ha] at h3; simp at h3
  · subst h6
    refine ⟨c', h1, h2, ?_, h5⟩
    rw [hb] at h4
    exact (List.append_cancel_right h4).symm

/-- Concrete case. -/
example := C22_delete_below_last lastEmpty_valid (by decide) (t := "ab".toList) (by decide)

/-- The exception of C22: with nothing after the cursor, the deletion below may change the text. -/
theorem C22_delete_below_counterexample : ∃ c c' : Content, c.Valid ∧ c.after = [] ∧ c.delCharBelow = some (c', true) ∧
    c'.toText ≠ c.toText := by
  refine ⟨⟨⟨1, 0⟩, none, ["a".toList, []]⟩, ⟨⟨0, 1⟩, none, ["a".toList]⟩, ?_, by decide, by decide, by decide⟩
  refine ⟨by simp, ⟨[], rfl, by simp⟩, by simp, ?_⟩
  simp [NotStored]

/-- C22: moves to the right. -/
theorem C22_move_right {c : Content} (h : c.Valid) :
    ∃ c' r, c.moveRight = some (c', r) ∧ c'.Valid ∧ c'.lines = c.lines ∧ c'.tail = c.tail ∧ r = decide (c.after ≠ []) ∧
      c'.before = c.before ++ c.after.take 1 ∧ c'.after = c.after.tail ∧ c.canMoveRight = some r := by
  have hcan : ∀ r, (∃ c', c.moveRight = some (c', r)) → c.canMoveRight = some r := by
    rintro r ⟨c', hm⟩
    obtain ⟨l, h1, h2⟩ := h.pos
    simp only [moveRight, canMoveRight, h1, Option.bind_eq_bind, Option.bind_some] at hm ⊢
    have hlen : 0 < c.lines.length := List.length_pos_iff.2 h.oneLine
    have hcs : csub c.lines.length 1 = some (c.lines.length - 1) := by rw [csub, if_pos (by omega)]
    rw [hcs] at hm ⊢
    by_cases hx : c.pos.x < l.length
    · rw [if_pos hx] at hm
      simp only [Option.some.injEq, Prod.mk.injEq] at hm
      simp [hx, ← hm.2]
    · rw [if_neg hx] at hm
      simp only [Option.bind_some] at hm
      by_cases hy : c.pos.y < c.lines.length - 1
      · rw [if_pos hy] at hm
        simp only [Option.some.injEq, Prod.mk.injEq] at hm
        simp [hy, ← hm.2]
      · rw [if_neg hy] at hm
        simp only [Option.some.injEq, Prod.mk.injEq] at hm
        simp [hx, hy, ← hm.2]
  obtain ⟨c', r, h1, h2, h3, h4, ⟨h5, h6, h7⟩ | ⟨ch, h5, h6, h7⟩⟩ := moveRight_ok h
  · refine ⟨c', r, h1, h2, h3, h4, by simp [h5, h7], by rw [h6, h5]; simp, by rw [h6, h5]; rfl, hcan r ⟨c', h1⟩⟩
  · refine ⟨c', r, h1, h2, h3, h4, by simp [h5, h7], by rw [h6, h5]; simp, by rw [h5]; rfl, hcan r ⟨c', h1⟩⟩

/-- Concrete case. -/
example := C22_move_right sample_valid

/-- C22: moves to the left. -/
theorem C22_move_left {c : Content} (h : c.Valid) :
    ∃ c' r, c.moveLeft = some (c', r) ∧ c'.Valid ∧ c'.lines = c.lines ∧ c'.tail = c.tail ∧ r = decide (c.before ≠ []) ∧
      c'.before = c.before.dropLast ∧ c'.before ++ c'.after = c.before ++ c.after ∧ c.canMoveLeft = r := by
  have hcan : ∀ r, (∃ c', c.moveLeft = some (c', r)) → c.canMoveLeft = r := by
    rintro r ⟨c', hm⟩
    simp only [moveLeft, canMoveLeft] at hm ⊢
    by_cases hx : c.pos.x > 0
    · rw [if_pos hx] at hm
      simp only [Option.some.injEq, Prod.mk.injEq] at hm
      simp [hx, ← hm.2]
    · rw [if_neg hx] at hm
      by_cases hy : c.pos.y > 0
      · rw [if_pos hy] at hm
        cases hl : c.lines[c.pos.y - 1]? with
        | none => rw [hl] at hm; simp at hm
        | some l =>
          rw [hl] at hm
          simp only [Option.bind_eq_bind, Option.bind_some, Option.some.injEq, Prod.mk.injEq] at hm
          simp [hy, ← hm.2]
      · rw [if_neg hy] at hm
        simp only [Option.some.injEq, Prod.mk.injEq] at hm
        simp [hx, hy, ← hm.2]
  obtain ⟨c', r, h1, h2, h3, h4, ⟨h5, h6, h7⟩ | ⟨ch, h5, h6, h7⟩⟩ := moveLeft_ok h
  · refine ⟨c', r, h1, h2, h3, h4, by simp [h5, h7], by rw [h6, h5]; rfl, by rw [h6], hcan r ⟨c', h1⟩⟩
  · refine ⟨c', r, h1, h2, h3, h4, by simp [h5, h7], by rw [h5]; simp, by rw [h6, h5]; simp, hcan r ⟨c', h1⟩⟩

/-- Concrete case. -/
example := C22_move_left sample_valid

/-- C22: moves to the ends of the text. -/
theorem C22_move_ends {c : Content} (h : c.Valid) :
    (∃ c' r, c.moveToEnd = some (c', r) ∧ c'.Valid ∧ c'.lines = c.lines ∧ c'.tail = c.tail ∧ c'.after = [] ∧ r = decide (c' ≠ c)) ∧
      (∃ c' r, c.moveToStart = (c', r) ∧ c'.Valid ∧ c'.lines = c.lines ∧ c'.tail = c.tail ∧ c'.before = [] ∧ r = decide (c' ≠ c)) := by
  obtain ⟨c', h1, h2, h3, h4, h5⟩ := moveToEnd_ok h
  obtain ⟨d', k1, k2, k3, k4, k5⟩ := moveToStart_ok h
  exact ⟨⟨c', _, h1, h2, h3, h4, h5, rfl⟩, d', _, k1, k2, k3, k4, k5, rfl⟩

/-- Concrete case. -/
example := C22_move_ends sample_valid

/-- C22: moves to the ends of the line. -/
theorem C22_move_line_ends {c : Content} (h : c.Valid) :
    (∃ c' seg, c.moveToLineEnd = some (c', decide (c' ≠ c)) ∧ c'.Valid ∧ c'.lines = c.lines ∧ c'.tail = c.tail ∧
      c'.before = c.before ++ seg ∧ c.after = seg ++ c'.after ∧ '\n' ∉ seg ∧ (c'.after = [] ∨ ∃ t, c'.after = '\n' :: t)) ∧
      (∃ c' seg, c.moveToLineStart = (c', decide (c' ≠ c)) ∧ c'.Valid ∧ c'.lines = c.lines ∧ c'.tail = c.tail ∧
        c.before = c'.before ++ seg ∧ c'.after = seg ++ c.after ∧ '\n' ∉ seg ∧ (c'.before = [] ∨ ∃ t, c'.before = t ++ ['\n'])) :=
  ⟨moveToLineEnd_ok h, moveToLineStart_ok h⟩

/-- Concrete case. -/
example := C22_move_line_ends sample_valid

/-- The text is determined by the parts around the cursor, and the cursor by the text before. -/
theorem C22_parts {c : Content} (h : c.Valid) : c.before ++ c.after = c.toText := by
  rw [toText, fmtLines_eq]
  exact text_split h.pos

/-- Concrete case. -/
example := C22_parts sample_valid

/-- A content with a cursor at the start of a line between two others. -/
example : ∃ c : Content, c.Valid ∧ c.before = "ab\n".toList ∧ c.after = "c\nd".toList := by
  refine ⟨⟨⟨1, 0⟩, none, ["ab".toList, "c".toList, "d".toList]⟩, ⟨by simp, ⟨_, rfl, by simp⟩, by simp, ?_⟩, by decide, by decide⟩
  simp [NotStored]

/-! ### C23 -/

/-- C23: the ends of the selection are the cursor and the tail, in the order of the text. -/
theorem C23_selection {c : Content} (h : c.Valid) :
    ValidPos c.lines c.selection.min ∧ ValidPos c.lines c.selection.max ∧
      (c.selection.min.y < c.selection.max.y ∨
        (c.selection.min.y = c.selection.max.y ∧ c.selection.min.x ≤ c.selection.max.x)) ∧
      ((c.selection.min = c.pos ∧ c.selection.max = c.tail.getD c.pos) ∨
        (c.selection.max = c.pos ∧ c.selection.min = c.tail.getD c.pos)) := by
  obtain ⟨h1, h2, h3⟩ := selection_valid h
  rw [blt_false] at h3
  refine ⟨h1, h2, by omega, ?_⟩
  unfold selection
  cases c.tail with
  | none => exact .inl ⟨rfl, rfl⟩
  | some t =>
    simp only
    split
    · exact .inr ⟨rfl, rfl⟩
    · exact .inl ⟨rfl, rfl⟩

/-- Concrete case. -/
example := C23_selection sample_valid

/-- A range contains the positions between its ends, both included, in the reading order. -/
theorem C23_contains (r : Range) (p : Pos) :
    r.containsPos p = true ↔
      (r.min.y < p.y ∨ r.min.y = p.y ∧ r.min.x ≤ p.x) ∧ (p.y < r.max.y ∨ p.y = r.max.y ∧ p.x ≤ r.max.x) := by
  unfold Range.containsPos Range.contains
  repeat' split
  all_goals simp_all
  all_goals omega

example : (⟨⟨0, 3⟩, ⟨2, 1⟩⟩ : Range).containsPos ⟨1, 7⟩ = true ∧ (⟨⟨0, 3⟩, ⟨2, 1⟩⟩ : Range).containsPos ⟨2, 7⟩ = false := by decide

/-- C23: the string of the selection goes from the character at its start to the one at its end, both included. -/
theorem C23_string {c : Content} (h : c.Valid) :
    ∃ s, c.selectionString = some s ∧
      textBefore c.lines c.selection.min ++ s ++ (textAfter c.lines c.selection.max).drop 1 = c.toText ∧
      textBefore c.lines c.selection.min ++ s =
        textBefore c.lines c.selection.max ++ (textAfter c.lines c.selection.max).take 1 := by
  obtain ⟨s, h1, h2⟩ := selectionString_ok h
  refine ⟨s, h1, ?_, h2⟩
  rw [h2, List.append_assoc, List.take_append_drop, toText, fmtLines_eq]
  exact text_split (selection_valid h).2.1

/-- Concrete case. -/
example := C23_string sample_valid

private theorem wide_ne {c : Content} (hw : c.hasWideSelection = true) : c.selection.min ≠ c.selection.max := by
  intro h0
  revert hw h0
  unfold hasWideSelection selection
  cases c.tail with
  | none => simp
  | some t =>
    simp only
    split
    · intro h1 h2; simp at h1; exact h1 h2
    · intro h1 h2; simp at h1; exact h1 h2.symm

/-- The selections which are exactly removed: inside a line without its end, up to the end of the text but from the inside of the
last line, or made of whole lines (not the last ones of several). -/
def ExactlyCut (c : Content) : Prop :=
  ∃ l, c.lines[c.selection.max.y]? = some l ∧
    ((c.selection.min.y = c.selection.max.y ∧ c.selection.max.x < l.length) ∨
      (c.selection.min.y = c.selection.max.y ∧ c.selection.max.y + 1 = c.lines.length ∧ 0 < c.selection.min.x) ∨
      (c.selection.min.x = 0 ∧ c.selection.max.x = l.length ∧ (c.selection.max.y + 1 < c.lines.length ∨ c.selection.min.y = 0)))

/-- C23: the removal of a wide selection removes exactly its string, when the selection is inside a line or made of whole lines. -/
theorem C23_cut {c : Content} (h : c.Valid) (hw : c.hasWideSelection = true) (he : ExactlyCut c) :
    ∃ c' s, c.selectionString = some s ∧ c.delSelection = some (c', true) ∧ c'.Valid ∧ c'.tail = none ∧
      c.toText = c'.before ++ s ++ c'.after ∧ c'.before = textBefore c.lines c.selection.min := by
  have hne := wide_ne hw
  obtain ⟨s0, e1, e2, _⟩ := C23_string h
  obtain ⟨c', r, h1, h2, _, h3⟩ := delSelection_ok h
  obtain ⟨h4, h5, l, s, mid, h6, h7, h8, h9, h10⟩ := h3 hne
  obtain ⟨l', k1, k2⟩ := he
  rw [h6] at k1
  cases k1
  rw [h7] at e1
  cases e1
  subst h4
  have hmid : mid = [] := by
    by_cases hm : mid = []
    · exact hm
    · have := h10 hm
      split at this <;> omega
  rcases h9 with ⟨h9, h11⟩ | ⟨_, g1, g2, g3, g4, g5, _⟩
  · refine ⟨c', s0, h7, h1, h2, h5, ?_, h9⟩
    rw [h9, h11, hmid, ← e2, List.nil_append]
  · exfalso
    rcases k2 with ⟨_, k3⟩ | k3 | k3
    · rw [textAfter, joinLines_cons, h6, Option.getD_some] at g5
      have := congrArg List.length (List.append_eq_nil_iff.1 g5).1
      simp only [List.length_drop, List.length_nil] at this
      omega
    · omega
    · omega

/-- Concrete case. -/
example := C23_cut inLine_valid (by decide) ⟨_, rfl, .inl (by decide)⟩

/-- C23: whatever the wide selection, its removal doesn't lose anything out of it, except the newline before the last lines when
they are removed. -/
theorem C23_cut_outside {c : Content} (h : c.Valid) (hw : c.hasWideSelection = true) :
    ∃ c' s kept, c.selectionString = some s ∧ c.delSelection = some (c', true) ∧ c'.Valid ∧ c'.tail = none ∧ kept.Sublist s ∧
      ((c'.toText = textBefore c.lines c.selection.min ++ kept ++ (textAfter c.lines c.selection.max).drop 1 ∧
          c'.before = textBefore c.lines c.selection.min) ∨
        (textBefore c.lines c.selection.min = c'.toText ++ ['\n'] ∧ textAfter c.lines c.selection.max = [] ∧ c'.after = [])) := by
  obtain ⟨c', r, h1, h2, _, h3⟩ := delSelection_ok h
  obtain ⟨h4, h5, l, s, mid, h6, h7, h8, h9, h10⟩ := h3 (wide_ne hw)
  subst h4
  refine ⟨c', s, mid, h7, h1, h2, h5, h8, ?_⟩
  have ht : c'.toText = c'.before ++ c'.after := (C22_parts h2).symm
  rcases h9 with ⟨h9, h11⟩ | ⟨_, _, _, _, g4, g5, g6⟩
  · exact .inl ⟨by rw [ht, h9, h11, List.append_assoc], h9⟩
  · exact .inr ⟨by rw [ht, g6, List.append_nil, g4], g5, g6⟩

/-- Concrete case. -/
example := C23_cut_outside sample_valid (by decide)

/-- C23: without wide selection, the removal is the one of the character below the cursor. -/
theorem C23_cut_narrow {c : Content} (h : c.hasWideSelection = false) : c.delSelection = c.delCharBelow := by
  have : c.selection.min = c.selection.max := by
    revert h
    unfold hasWideSelection selection
    cases c.tail with
    | none => simp
    | some t =>
      simp only
      intro h
      have : t = c.pos := by simpa using h
      subst this
      split <;> rfl
  unfold delSelection
  simp only [this]
  simp

/-- A content with a wide selection inside of a line, and one with a selection of whole lines. -/
example : (⟨⟨0, 3⟩, some ⟨0, 1⟩, ["abcdef".toList]⟩ : Content).selectionString = some "bcd".toList ∧
    (⟨⟨0, 3⟩, some ⟨0, 1⟩, ["abcdef".toList]⟩ : Content).delSelection = some (⟨⟨0, 1⟩, none, ["aef".toList]⟩, true) ∧
    (⟨⟨1, 0⟩, some ⟨2, 1⟩, ["a".toList, "b".toList, "c".toList, "d".toList]⟩ : Content).selectionString = some "b\nc\n".toList ∧
    (⟨⟨1, 0⟩, some ⟨2, 1⟩, ["a".toList, "b".toList, "c".toList, "d".toList]⟩ : Content).delSelection =
      some (⟨⟨1, 0⟩, none, ["a".toList, "d".toList]⟩, true) := by decide

example : ExactlyCut ⟨⟨0, 3⟩, some ⟨0, 1⟩, ["abcdef".toList]⟩ := ⟨_, rfl, .inl (by decide)⟩

/-- Other selections aren't exactly removed: over several lines, the character at the end stays, newlines stay, and a line fully
selected may stay. -/
theorem C23_cut_lines_counterexample :
    (⟨⟨0, 1⟩, some ⟨2, 1⟩, ["ab".toList, "cd".toList, "ef".toList]⟩ : Content).selectionString = some "b\ncd\nef".toList ∧
    (⟨⟨0, 1⟩, some ⟨2, 1⟩, ["ab".toList, "cd".toList, "ef".toList]⟩ : Content).delSelection.map (fun r => r.1.toText) =
      some "a\ncd\nf".toList := by decide

/-- A newline at the end of a selection inside of a line is in the string but isn't removed. -/
theorem C23_cut_newline_counterexample :
    (⟨⟨0, 1⟩, some ⟨0, 2⟩, ["ab".toList, "c".toList]⟩ : Content).selectionString = some "b\n".toList ∧
    (⟨⟨0, 1⟩, some ⟨0, 2⟩, ["ab".toList, "c".toList]⟩ : Content).delSelection.map (fun r => r.1.toText) =
      some "a\nc".toList := by decide

/-- The removal of the whole last line also removes the newline before it. -/
theorem C23_cut_last_counterexample :
    (⟨⟨1, 0⟩, some ⟨1, 1⟩, ["a".toList, "b".toList]⟩ : Content).selectionString = some "b".toList ∧
    (⟨⟨1, 0⟩, some ⟨1, 1⟩, ["a".toList, "b".toList]⟩ : Content).delSelection.map (fun r => r.1.toText) =
      some "a".toList := by decide

/-! ### C24 -/

private theorem swapped_perm {ls ls' : List Text} {i j : Nat} (hi : i < ls.length) (hj : j < ls.length) (h : Swapped ls ls' i j) :
    ls'.Perm ls := by
  have h1 : ls' = (ls.set i ls[j]).set j ls[i] := by
    apply List.ext_getElem?
    intro k
    rw [h.2, (swapped_set (List.getElem?_eq_getElem hi) (List.getElem?_eq_getElem hj)).2]
  rw [h1]
  exact List.set_set_perm hi hj

/-- C24: the exchange of two lines. -/
theorem C24_swap {c : Content} (h : c.Valid) (i j : Nat) :
    ∃ c' r, c.swapLines i j = some (c', r) ∧ c'.Valid ∧ r = decide (i ≠ j ∧ i < c.lines.length ∧ j < c.lines.length) ∧
      (r = false → c' = c) ∧ c'.lines.Perm c.lines ∧
      (r = true → ∀ k, c'.lines[k]? = if k = i then c.lines[j]? else if k = j then c.lines[i]? else c.lines[k]?) ∧
      ∃ l, c'.lines[c.pos.y]? = some l ∧ c'.pos = ⟨c.pos.y, min c.pos.x l.length⟩ := by
  obtain ⟨c', r, h1, h2, h3, h4, h5⟩ := swapLines_ok h i j
  refine ⟨c', r, h1, h2, ?_, h3, ?_, fun hr => (h5 hr).1.2, ?_⟩
  · cases r with
    | false => exact (decide_eq_false (fun h0 => by simpa using h4.2 h0)).symm
    | true => exact (decide_eq_true (h4.1 rfl)).symm
  · cases r with
    | false => rw [h3 rfl]
    | true => exact swapped_perm (h4.1 rfl).2.1 (h4.1 rfl).2.2 (h5 rfl).1
  · cases r with
    | false =>
      rw [h3 rfl]
      obtain ⟨l, hl, hx⟩ := h.pos
      exact ⟨l, hl, by rw [Nat.min_eq_left hx]⟩
    | true => exact (h5 rfl).2.2

/-- Concrete case. -/
example := C24_swap sample_valid 0 2

/-- C24: the move of the current line up: the cursor follows it. -/
theorem C24_up {c : Content} (h : c.Valid) :
    ∃ c' r, c.moveCurrentLineUp = some (c', r) ∧ c'.Valid ∧ r = decide (0 < c.pos.y) ∧ (r = false → c' = c) ∧
      c'.lines.Perm c.lines ∧
      (r = true → c'.pos.y = c.pos.y - 1 ∧ c'.lines[c'.pos.y]? = c.lines[c.pos.y]? ∧
        c'.lines[c.pos.y]? = c.lines[c.pos.y - 1]? ∧ (∀ k, k ≠ c.pos.y → k ≠ c.pos.y - 1 → c'.lines[k]? = c.lines[k]?) ∧
        ∃ other, c.lines[c.pos.y - 1]? = some other ∧ c'.pos.x = min c.pos.x other.length) := by
  obtain ⟨c', r, h1, h2, h3, h4, h5⟩ := moveCurrentLineUp_ok h
  refine ⟨c', r, h1, h2, ?_, h3, ?_, ?_⟩
  · cases r with
    | false => exact (decide_eq_false (fun h0 => by simpa using h4.2 h0)).symm
    | true => exact (decide_eq_true (h4.1 rfl)).symm
  · cases r with
    | false => rw [h3 rfl]
    | true =>
      obtain ⟨l, hl, _⟩ := h.pos
      have := (List.getElem?_eq_some_iff.1 hl).1
      exact swapped_perm (by omega) this (h5 rfl).1
  · intro hr
    obtain ⟨hsw, _, l, hl, hp⟩ := h5 hr
    have := h4.1 hr
    rw [hp]
    refine ⟨rfl, by rw [hsw.2, if_pos rfl], by rw [hsw.2, if_neg (by omega), if_pos rfl], ?_, l, hl, rfl⟩
    intro k k1 k2
    rw [hsw.2, if_neg k2, if_neg k1]

/-- Concrete case. -/
example := C24_up sample_valid

/-- C24: the move of the current line down: the cursor follows it. -/
theorem C24_down {c : Content} (h : c.Valid) :
    ∃ c' r, c.moveCurrentLineDown = some (c', r) ∧ c'.Valid ∧ r = decide (c.pos.y + 1 < c.lines.length) ∧ (r = false → c' = c) ∧
      c'.lines.Perm c.lines ∧
      (r = true → c'.pos.y = c.pos.y + 1 ∧ c'.lines[c'.pos.y]? = c.lines[c.pos.y]? ∧
        c'.lines[c.pos.y]? = c.lines[c.pos.y + 1]? ∧ (∀ k, k ≠ c.pos.y → k ≠ c.pos.y + 1 → c'.lines[k]? = c.lines[k]?) ∧
        ∃ other, c.lines[c.pos.y + 1]? = some other ∧ c'.pos.x = min c.pos.x other.length) := by
  obtain ⟨c', r, h1, h2, h3, h4, h5⟩ := moveCurrentLineDown_ok h
  refine ⟨c', r, h1, h2, ?_, h3, ?_, ?_⟩
  · cases r with
    | false => exact (decide_eq_false (fun h0 => by simpa using h4.2 h0)).symm
    | true => exact (decide_eq_true (h4.1 rfl)).symm
  · cases r with
    | false => rw [h3 rfl]
    | true => exact swapped_perm (h4.1 rfl) (by have := h4.1 rfl; omega) (h5 rfl).1
  · intro hr
    obtain ⟨hsw, _, l, hl, hp⟩ := h5 hr
    rw [hp]
    refine ⟨rfl, by rw [hsw.2, if_pos rfl], by rw [hsw.2, if_neg (by omega), if_pos rfl], ?_, l, hl, rfl⟩
    intro k k1 k2
    rw [hsw.2, if_neg k2, if_neg k1]

/-- Concrete case. -/
example := C24_down sample_valid

/-- C24: up then down restores the lines and puts the cursor back on its line (at the same column if the other line is long
enough). -/
theorem C24_up_down {c c' : Content} (h : c.Valid) (hu : c.moveCurrentLineUp = some (c', true)) :
    ∃ c'', c'.moveCurrentLineDown = some (c'', true) ∧ c''.Valid ∧ c''.lines = c.lines ∧ c''.pos.y = c.pos.y ∧
      (∀ other, c.lines[c.pos.y - 1]? = some other → c''.pos.x = min c.pos.x other.length) := by
  obtain ⟨c1, r, h1, h2, h3, _, h4, h5⟩ := C24_up h
  rw [hu] at h1
  cases h1
  obtain ⟨p1, p2, p3, p4, other, p5, p6⟩ := h5 rfl
  obtain ⟨c'', r', k1, k2, k3, _, k4, k5⟩ := C24_down h2
  have hy : 0 < c.pos.y := by simpa using h3.symm
  obtain ⟨l, hl, _⟩ := h.pos
  have hlt := (List.getElem?_eq_some_iff.1 hl).1
  have hr : r' = true := by
    rw [k3, p1, h4.length_eq]
    simp
    omega
  subst hr
  obtain ⟨q1, q2, q3, q4, other', q5, q6⟩ := k5 rfl
  have e : c.pos.y - 1 + 1 = c.pos.y := by omega
  rw [p1, e] at q1 q3 q4 q5
  refine ⟨c'', k1, k2, ?_, q1, ?_⟩
  · apply List.ext_getElem?
    intro k
    by_cases k0 : k = c.pos.y
    · subst k0
      rw [q1, p1] at q2
      rw [q2, ← p1, p2]
    · by_cases k1 : k = c.pos.y - 1
      · subst k1
        rw [q3, p3]
      · rw [q4 k k1 k0, p4 k k0 k1]
  · intro o ho
    rw [p5] at ho
    cases ho
    rw [p3, p5] at q5
    cases q5
    rw [q6, p6]
    omega

/-- Concrete case. -/
example := C24_up_down (c' := ⟨⟨0, 2⟩, some ⟨0, 1⟩, ["def".toList, "ab c".toList, "g".toList]⟩) sample_valid (by decide)

/-- The column isn't always restored. -/
theorem C24_column_counterexample :
    (⟨⟨1, 3⟩, none, ["a".toList, "bcd".toList]⟩ : Content).moveCurrentLineUp = some (⟨⟨0, 1⟩, none, ["bcd".toList, "a".toList]⟩, true) ∧
      (⟨⟨0, 1⟩, none, ["bcd".toList, "a".toList]⟩ : Content).moveCurrentLineDown =
        some (⟨⟨1, 1⟩, none, ["a".toList, "bcd".toList]⟩, true) := by decide

/-! ### C25 -/

/-- C25: a move by a word to the left goes over alphanumeric characters (but for the first one) until it is just after another
kind of character or at the start of the line. -/
theorem C25_word_left (alnum : Char → Bool) {c : Content} (h : c.Valid) :
    ∃ c' r, c.moveWordLeft alnum = some (c', r) ∧ c'.Valid ∧ c'.lines = c.lines ∧ c'.tail = c.tail ∧ c'.pos.y = c.pos.y ∧
      ((c.pos.x = 0 ∧ c' = c ∧ r = false) ∨ (r = true ∧ ∃ l, c.lines[c.pos.y]? = some l ∧ c'.pos.x < c.pos.x ∧
        (∀ i, c'.pos.x ≤ i → i + 1 < c.pos.x → ∃ ch, l[i]? = some ch ∧ alnum ch = true) ∧
        (c'.pos.x = 0 ∨ ∃ ch, l[c'.pos.x - 1]? = some ch ∧ alnum ch = false))) :=
  moveWordLeft_ok alnum h

/-- Concrete case. -/
example := C25_word_left Char.isAlphanum sample_valid

/-- C25: a move by a word to the right goes right by at least one position. The characters from the second one after the start up to the new
position are alphanumeric, and the one after the new position isn't, or doesn't exist. -/
theorem C25_word_right (alnum : Char → Bool) {c : Content} (h : c.Valid) :
    ∃ c' r, c.moveWordRight alnum = some (c', r) ∧ c'.Valid ∧ c'.lines = c.lines ∧ c'.tail = c.tail ∧ c'.pos.y = c.pos.y ∧
      ∃ l, c.lines[c.pos.y]? = some l ∧ ((c.pos.x = l.length ∧ c' = c ∧ r = false) ∨ (r = true ∧ c.pos.x < c'.pos.x ∧
        c'.pos.x ≤ l.length ∧
        (∀ i, c.pos.x + 2 ≤ i → i ≤ c'.pos.x → ∃ ch, l[i]? = some ch ∧ alnum ch = true) ∧
        (l.length ≤ c'.pos.x + 1 ∨ ∃ ch, l[c'.pos.x + 1]? = some ch ∧ alnum ch = false))) :=
  moveWordRight_ok alnum h

/-- Concrete case. -/
example := C25_word_right Char.isAlphanum sample_valid

/-- The character just after the starting one isn't examined: a move by a word to the right may pass a separator, and end on the next word. -/
theorem C25_word_right_counterexample :
    ((⟨⟨0, 0⟩, none, ["a b c".toList]⟩ : Content).moveWordRight (· != ' ')) = some (⟨⟨0, 2⟩, none, ["a b c".toList]⟩, true) := by decide

/-- C25: the deletion of a word on the left removes a part `w` of the line, just before the cursor. -/
theorem C25_delete_left (alnum : Char → Bool) {c : Content} (h : c.Valid) :
    ∃ c' r, c.delWordLeft alnum = some (c', r) ∧ c'.Valid ∧
      ((c.pos.x = 0 ∧ c' = c ∧ r = false) ∨
        (r = true ∧ c'.pos.y = c.pos.y ∧ c'.after = c.after ∧ ∃ w, c.before = c'.before ++ w ∧ w ≠ [] ∧ '\n' ∉ w ∧
          (∀ ch ∈ w.dropLast, alnum ch = true) ∧
          (c'.pos.x = 0 ∨ ∀ t ch, c'.before = t ++ [ch] → alnum ch = false))) :=
  delWordLeft_ok alnum h

/-- Concrete case. -/
example := C25_delete_left Char.isAlphanum sample_valid

/-- C25: the deletion of a word on the right removes a part `w` of the line, just after the cursor: alphanumeric characters and the
first other one. At the end of the line the cursor goes back by one. -/
theorem C25_delete_right (alnum : Char → Bool) {c : Content} (h : c.Valid) :
    ∃ c' r, c.delWordRight alnum = some (c', r) ∧ c'.Valid ∧ c'.pos.y = c.pos.y ∧
      ((r = false ∧ c' = c ∧ c.pos.x = 0) ∨
        (∃ w, r = true ∧ w ≠ [] ∧ '\n' ∉ w ∧ c.after = w ++ c'.after ∧ c'.before = c.before ∧
          ∃ u ch, w = u ++ [ch] ∧ (∀ z ∈ u, alnum z = true) ∧ alnum ch = false) ∨
        (∃ w, r = true ∧ '\n' ∉ w ∧ (∀ z ∈ w, alnum z = true) ∧ (w = [] → 0 < c.pos.x) ∧
          (∃ rest, c.after = w ++ rest ∧ (rest = [] ∨ ∃ t, rest = '\n' :: t) ∧
            c'.before ++ c'.after = c.before ++ rest) ∧ c'.pos.x = c.pos.x - 1)) :=
  delWordRight_ok alnum h

/-- Concrete case. -/
example := C25_delete_right Char.isAlphanum sample_valid

/-- C25: the selection of the word around the cursor is exactly the word (with underscores), when there's one. -/
theorem C25_select (alnum : Char → Bool) {c : Content} (h : c.Valid) :
    ∃ c' r l, c.selectWordAround alnum = some (c', r) ∧ c'.Valid ∧ c'.lines = c.lines ∧ c.lines[c.pos.y]? = some l ∧
      ((r = false ∧ c' = c ∧ ∀ ch, l[c.pos.x]? = some ch → alnum ch = false ∧ ch ≠ '_') ∨
        (r = true ∧ ∃ start stop, c'.tail = some ⟨c.pos.y, start⟩ ∧ c'.pos = ⟨c.pos.y, stop⟩ ∧ start ≤ c.pos.x ∧ c.pos.x ≤ stop ∧
          (∀ i, start ≤ i → i ≤ stop → ∃ ch, l[i]? = some ch ∧ (alnum ch = true ∨ ch = '_')) ∧
          (start = 0 ∨ ∃ ch, l[start - 1]? = some ch ∧ alnum ch = false ∧ ch ≠ '_') ∧
          (stop + 1 = l.length ∨ ∃ ch, l[stop + 1]? = some ch ∧ alnum ch = false ∧ ch ≠ '_'))) := by
  have hT : ∀ ch, isWordChar alnum ch = true ↔ (alnum ch = true ∨ ch = '_') := by intro ch; simp [isWordChar]
  have hF : ∀ ch, isWordChar alnum ch = false ↔ (alnum ch = false ∧ ch ≠ '_') := by intro ch; simp [isWordChar]
  have := selectWordAround_ok alnum h
  simpa only [hT, hF] using this

/-- Concrete case. -/
example := C25_select Char.isAlphanum sample_valid

/-- Where a vertical move puts the cursor: on the given line, on the first character which is not before the column of the
cursor, or at the end of the line. -/
def OnSameColumn (cw : Char → Nat) (c c' : Content) (y : Nat) : Prop :=
  c'.lines = c.lines ∧ c'.tail = c.tail ∧ c'.pos.y = y ∧
    ∃ l l', c.lines[c.pos.y]? = some l ∧ c.lines[y]? = some l' ∧ c'.pos.x ≤ l'.length ∧
      (∀ j < c'.pos.x, inputCols cw (l'.take j) < inputCols cw (l.take c.pos.x)) ∧
      (c'.pos.x = l'.length ∨ inputCols cw (l.take c.pos.x) ≤ inputCols cw (l'.take c'.pos.x))

private theorem onSame {cw : Char → Nat} {c c' : Content} {y : Nat} (h' : c'.Valid) (h : VerticalMove cw c c' y) :
    OnSameColumn cw c c' y := by
  obtain ⟨h1, h2, h3, l, l', h4, h5, h6, h7⟩ := h
  obtain ⟨m, k1, k2⟩ := h'.pos
  rw [h1, h3, h5] at k1
  cases k1
  exact ⟨h1, h2, h3, l, l', h4, h5, k2, h6, h7⟩

/-- C25: moves up. -/
theorem C25_up (cw : Char → Nat) {c : Content} (h : c.Valid) (n : Nat) :
    ∃ c' r, c.moveLinesUp cw n = some (c', r) ∧ c'.Valid ∧
      ((c.pos.y = 0 ∧ c' = c ∧ r = false) ∨ (0 < c.pos.y ∧ OnSameColumn cw c c' (c.pos.y - n) ∧ r = true)) := by
  obtain ⟨c', r, h1, h2, h3⟩ := moveLinesUp_ok cw h n
  refine ⟨c', r, h1, h2, ?_⟩
  rcases h3 with h3 | ⟨h3, h4, h5⟩
  · exact .inl h3
  · exact .inr ⟨h3, onSame h2 h4, h5⟩

/-- Concrete case. -/
example := C25_up (fun _ => 1) sample_valid 3

/-- C25: moves down. -/
theorem C25_down (cw : Char → Nat) {c : Content} (h : c.Valid) (n : Nat) :
    ∃ c' r, c.moveLinesDown cw n = some (c', r) ∧ c'.Valid ∧
      ((c.pos.y + 1 = c.lines.length ∧ c' = c ∧ r = false) ∨
        (c.pos.y + 1 < c.lines.length ∧ OnSameColumn cw c c' (min (c.pos.y + n) (c.lines.length - 1)) ∧ r = true)) := by
  obtain ⟨c', r, h1, h2, h3⟩ := moveLinesDown_ok cw h n
  refine ⟨c', r, h1, h2, ?_⟩
  rcases h3 with h3 | ⟨h3, h4, h5⟩
  · exact .inl h3
  · exact .inr ⟨h3, onSame h2 h4, h5⟩

/-- Concrete case. -/
example := C25_down (fun _ => 1) sample_valid 3

/-- C25: the column of a character is the number of columns before it, and is converted back to the index of this character. -/
theorem C25_columns (cw : Char → Nat) (l : Text) (hw : ∀ ch ∈ l, ch = '\t' ∨ 0 < cw ch) (i : Nat) (hi : i ≤ l.length) :
    ∃ col, charIdxToCol cw l i = some col ∧ col = inputCols cw (l.take i) ∧
      colToCharIdx cw l col = if i < l.length then some i else none := by
  refine ⟨_, charIdxToCol_eq cw l i hi, rfl, ?_⟩
  have mono : ∀ (m : Text), (∀ ch ∈ m, ch = '\t' ∨ 0 < cw ch) → ∀ a b, a < b → b ≤ m.length →
      inputCols cw (m.take a) < inputCols cw (m.take b) := by
    intro m
    induction m with
    | nil => intro _ a b h1 h2; simp at h2; omega
    | cons ch m ih =>
      intro hm a b h1 h2
      obtain ⟨b, rfl⟩ : ∃ b', b = b' + 1 := ⟨b - 1, by omega⟩
      have hpos : 0 < (if ch = '\t' then 2 else cw ch) := by
        rcases hm ch (by simp) with h0 | h0
        · simp [h0]
        · split <;> omega
      cases a with
      | zero =>
        simp only [inputCols, List.take_zero, List.map_nil, List.sum_nil, List.take_succ_cons, List.map_cons, List.sum_cons]
        omega
      | succ a =>
        have := ih (fun ch h => hm ch (by simp [h])) a b (by omega) (by simpa using h2)
        simp only [inputCols, List.take_succ_cons, List.map_cons, List.sum_cons] at this ⊢
        omega
  have := colLoop_ok cw (inputCols cw (l.take i)) l 0 0
  rw [colToCharIdx]
  cases hr : colToCharIdxLoop cw (inputCols cw (l.take i)) 0 0 l with
  | none =>
    rw [hr] at this
    rw [if_neg]
    intro h0
    have := this i h0
    omega
  | some x =>
    rw [hr] at this
    obtain ⟨k, h1, h2, h3, h4⟩ := this
    have hx : x = i := by
      rcases Nat.lt_trichotomy k i with h0 | h0 | h0
      · have := mono l hw k i h0 hi
        omega
      · omega
      · have := h4 i h0
        omega
    rw [if_pos (by omega), hx]

/-- Concrete case. -/
example := C25_columns (fun c => if c = '漢' then 2 else 1) "a\t漢b".toList (by decide) 3 (by decide)

/-- The hypothesis on widths is needed: a combining character has the same column as the next one. -/
theorem C25_columns_counterexample : ∃ (cw : Char → Nat) (l : Text),
    (charIdxToCol cw l 2).bind (colToCharIdx cw l) = some 1 := by
  exact ⟨fun ch => if ch = 'b' then 0 else 1, "abc".toList, by decide⟩

/-- A word in the middle of a line. -/
example : (⟨⟨0, 4⟩, none, ["ab cd_e f".toList]⟩ : Content).selectWordAround Char.isAlphanum =
      some (⟨⟨0, 6⟩, some ⟨0, 3⟩, ["ab cd_e f".toList]⟩, true) ∧
    (⟨⟨0, 5⟩, none, ["ab cd e".toList]⟩ : Content).delWordLeft Char.isAlphanum = some (⟨⟨0, 3⟩, none, ["ab  e".toList]⟩, true) ∧
    (⟨⟨0, 3⟩, none, ["ab cd e".toList]⟩ : Content).delWordRight Char.isAlphanum = some (⟨⟨0, 3⟩, none, ["ab e".toList]⟩, true) := by
  decide

end Verif.Props
