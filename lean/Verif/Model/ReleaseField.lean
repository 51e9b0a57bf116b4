import Verif.Model.FieldCopy
import Verif.Model.Release
import Verif.Model.ReleaseArea
/-! Model of `src/views/input_field.rs` in a release build, for a 64 bits target. The functions which aren't here have no operation which may overflow
(those of `src/views/input_field_content.rs` are all the same in both builds: their subtractions are guarded). -/
namespace Verif.Release
open InputField

/-- The width for the characters and the vertical scroll in `fix_scroll`, src/views/input_field.rs 478-507, release build: the width wraps when there's no
column. The other subtractions are guarded. -/
def fieldFixY (f : InputField) : Run (Nat × Nat) :=
  if f.content.lines.length > f.area.height then do
    let s ← fixScrollY f.area.height f.content.lines.length f.content.pos.y f.focused f.scroll.y
    some (wsub f.area.width 1, s)
  else some (f.area.width, 0)

/-- `InputField::fix_scroll`, src/views/input_field.rs 477-542, release build. The sums of the horizontal part don't overflow for a line of less than
`2^64 - 1` columns: it's smaller than a width which wrapped. -/
def fieldFixScroll (cw : Char → Nat) (f : InputField) : Run InputField := do
  let p ← fieldFixY f
  let line ← f.content.currentLine
  let x ← fixScrollX cw p.1 line f.content.pos.x f.focused f.scroll.x
  some { f with scroll := ⟨p.2, x⟩ }

/-- The functions made with `wrap_content_fun!`, src/views/input_field.rs 61-72 and 232-249, release build. -/
def fieldWrap (cw : Char → Nat) (f : InputField) (r : Run (Content × Bool)) : Run (InputField × Bool) := do
  let p ← r
  if p.2 then do
    let f' ← fieldFixScroll cw { f with content := p.1 }
    some (f', true)
  else some ({ f with content := p.1 }, false)

/-- `InputField::change_area`, src/views/input_field.rs 119-126, release build. -/
def fieldChangeArea (cw : Char → Nat) (f : InputField) (x y w : Nat) : Run InputField :=
  if f.area.left ≠ x ∨ f.area.top ≠ y ∨ f.area.width ≠ w then
    fieldFixScroll cw { f with area := { f.area with left := x, top := y, width := w } }
  else some f

/-- `InputField::set_area`, src/views/input_field.rs 127-132, release build. -/
def fieldSetArea (cw : Char → Nat) (f : InputField) (area : Area) : Run InputField :=
  if f.area ≠ area then fieldFixScroll cw { f with area } else some f

/-- `InputField::set_focus`, src/views/input_field.rs 141-150, release build. -/
def fieldSetFocus (cw : Char → Nat) (f : InputField) (b : Bool) : Run InputField :=
  if f.focused = b then some f
  else if b then fieldFixScroll cw { f with focused := b } else some { f with focused := b }

/-- `InputField::cut_selection`, src/views/input_field.rs 180-185, release build. -/
def fieldCutSelection (cw : Char → Nat) (f : InputField) : Run (InputField × Text) := do
  let s ← f.content.selectionString
  let p ← f.content.delSelection
  let f' ← fieldFixScroll cw { f with content := p.1 }
  some (f', s)

/-- `InputField::replace_selection`, src/views/input_field.rs 190-196, release build. -/
def fieldReplaceSelection (cw : Char → Nat) (f : InputField) (s : Text) : Run InputField := do
  let f ← f.delWide
  let c ← f.content.insertStr s
  fieldFixScroll cw { f with content := c }

/-- `InputField::set_str`, src/views/input_field.rs 205-208, release build. -/
def fieldSetStr (cw : Char → Nat) (f : InputField) (s : Text) : Run InputField := do
  let c ← f.content.setStr s
  fieldFixScroll cw { f with content := c }

/-- `InputField::insert_new_line`, src/views/input_field.rs 209-213, release build. -/
def fieldInsertNewLine (cw : Char → Nat) (f : InputField) : Run (InputField × Bool) := do
  let c ← f.content.insertNewLine
  let f' ← fieldFixScroll cw { f with content := c }
  some (f', true)

/-- `InputField::put_char`, src/views/input_field.rs 216-220, release build. -/
def fieldPutChar (cw : Char → Nat) (f : InputField) (ch : Char) : Run (InputField × Bool) := do
  let c ← f.content.insertChar ch
  let f' ← fieldFixScroll cw { f with content := c }
  some (f', true)

/-- `InputField::clear`, src/views/input_field.rs 221-224, release build. -/
def fieldClear (cw : Char → Nat) (f : InputField) : Run InputField := fieldFixScroll cw { f with content := f.content.clear }

/-- `InputField::insert_str`, src/views/input_field.rs 227-230, release build. -/
def fieldInsertStr (cw : Char → Nat) (f : InputField) (s : Text) : Run InputField := do
  let c ← f.content.insertStr s
  fieldFixScroll cw { f with content := c }

/-- `InputField::page_up`, src/views/input_field.rs 251-258, release build. -/
def fieldPageUp (cw : Char → Nat) (f : InputField) : Run (InputField × Bool) :=
  fieldWrap cw f (f.content.moveLinesUp cw f.area.height)

/-- `InputField::page_down`, src/views/input_field.rs 260-267, release build. -/
def fieldPageDown (cw : Char → Nat) (f : InputField) : Run (InputField × Bool) :=
  fieldWrap cw f (f.content.moveLinesDown cw f.area.height)

/-- `InputField::apply_keycode_event` for a character, src/views/input_field.rs 326-334, release build. -/
def fieldCharKey (cw : Char → Nat) (f : InputField) (ch : Char) : Run (InputField × Bool) :=
  if f.content.hasWideSelection then do
    let p ← f.content.delSelection
    let q ← fieldPutChar cw { f with content := p.1 } ch
    let f' ← fieldFixScroll cw q.1
    some (f', true)
  else fieldPutChar cw f ch

/-- The last match of `InputField::apply_keycode_event`, src/views/input_field.rs 341-351, release build. -/
def fieldMoveKey (cw : Char → Nat) (f : InputField) : KeyCode → Run (InputField × Bool)
  | .home => fieldWrap cw f (some f.content.moveToLineStart)
  | .end => fieldWrap cw f f.content.moveToLineEnd
  | .up => fieldWrap cw f (f.content.moveUp cw)
  | .down => fieldWrap cw f (f.content.moveDown cw)
  | .left => fieldWrap cw f f.content.moveLeft
  | .pageUp => fieldPageUp cw f
  | .pageDown => fieldPageDown cw f
  | .right => fieldWrap cw f f.content.moveRight
  | _ => some (f, false)

/-- `InputField::apply_keycode_event`, src/views/input_field.rs 311-353, release build. -/
def fieldKeycode (cw : Char → Nat) (f : InputField) (code : KeyCode) (shift : Bool) : Run (InputField × Bool) :=
  match code with
  | .backspace => f.delKey f.content.delCharLeft
  | .delete => f.delKey f.content.delCharBelow
  | .char ch => fieldCharKey cw f ch
  | code =>
    fieldMoveKey cw { f with content := if shift then f.content.makeSelection else f.content.unselect } code

/-- The dispatch on the modifiers, src/views/input_field.rs 298-303, release build. -/
def fieldMods (cw : Char → Nat) (f : InputField) (key : KeyComb) : Run (InputField × Bool) :=
  match key.others, key.mods with
  | [], .none => fieldKeycode cw f key.code false
  | [], .shift => fieldKeycode cw f key.code true
  | _, _ => some (f, false)

/-- `InputField::apply_key_combination`, src/views/input_field.rs 289-304, release build. -/
def fieldKey (cw : Char → Nat) (f : InputField) (key : KeyComb) : Run (InputField × Bool) :=
  if !f.focused then some (f, false)
  else if f.newLineKeys.contains key then fieldInsertNewLine cw f
  else fieldMods cw f key

/-- The position in the content of a cell of the area, src/views/input_field.rs 359-364 and 385-390, release build. -/
def fieldCell (cw : Char → Nat) (f : InputField) (x y : Nat) : Run Pos := do
  let row := min (subU16 y f.area.top + f.scroll.y) (wsub f.content.lines.length 1)
  let line ← f.content.lines[row]?
  some ⟨row, (colToCharIdx cw line (subU16 x f.area.left + f.scroll.x)).getD line.length⟩

/-- `InputField::apply_click_event`, src/views/input_field.rs 356-373, release build. -/
def fieldClick (cw : Char → Nat) (f : InputField) (x y : Nat) : Run (InputField × Bool) :=
  if contains f.area x y then
    if f.focused then do
      let p ← fieldCell cw f x y
      let c ← f.content.setCursorPos p
      some ({ f with content := c }, true)
    else some ({ f with focused := true }, true)
  else some (f, false)

/-- `InputField::apply_mouse_event`, src/views/input_field.rs 376-427, release build. -/
def fieldMouse (cw : Char → Nat) (alnum : Char → Bool) (f : InputField) (kind : MouseKind) (x y : Nat) (mods : KeyMods) (double : Bool) :
    Run (InputField × Bool) :=
  if contains f.area x y then
    if f.focused then do
      let p ← fieldCell cw f x y
      let f' ← f.mouseAt alnum kind mods double p
      some (f', true)
    else some ({ f with focused := f.focused || kind == .downLeft }, true)
  else some (f, false)

/-- `InputField::apply_event`, src/views/input_field.rs 432-448, release build. -/
def fieldEvent (cw : Char → Nat) (alnum : Char → Bool) (f : InputField) (e : FieldEvent) (double : Bool) : Run (InputField × Bool) :=
  match e with
  | .mouse kind x y mods => fieldMouse cw alnum f kind x y mods double
  | .key code mods =>
    if f.focused then
      match mods with
      | .none => fieldKeycode cw f code false
      | .shift => fieldKeycode cw f code true
      | .other _ => some (f, false)
    else some (f, false)
  | .other => some (f, false)

/-- The position given to the terminal cursor, src/views/input_field.rs 621-624, 635-636 and 648-649, release build. -/
def fieldCursor (f : InputField) (displayed j : Nat) : Nat × Nat := (addU16 f.area.left (asU16 displayed), addU16 f.area.top j)

/-- The writing of a cell in the loop, src/views/input_field.rs 618-627 and 632-639, release build. -/
def fieldDrawCell (f : InputField) (selected : Bool) (ch : Char) (displayed j : Nat) : CellPiece × Option (Nat × Nat) :=
  if f.focused && selected then ((.cursor, [ch]), some (fieldCursor f displayed j)) else ((.normal, [ch]), none)

/-- The loop on the characters, src/views/input_field.rs 607-644, release build. -/
def fieldDrawChars (cw : Char → Nat) (f : InputField) (sel : Range) (y j skip width : Nat) : Nat → Text → Nat → Nat → Option (Nat × Nat) → Drawn
  | _, [], _, displayed, cur => ⟨[], displayed, cur⟩
  | i, c :: rest, skipped, displayed, cur =>
    let c := if f.passwordMode then '*' else c
    let w := inputCharWidth cw c
    if skipped < skip then fieldDrawChars cw f sel y j skip width (i + 1) rest (skipped + w) displayed cur
    else if displayed + w ≥ width ∧ (rest ≠ [] ∨ displayed + w > width) then
      let p := fieldDrawCell f (sel.contains i y) '…' displayed j
      ⟨[p.1], displayed + 1, p.2.or cur⟩
    else
      let p := fieldDrawCell f (sel.contains i y) c displayed j
      if displayed + w ≥ width then ⟨[p.1], displayed + w, p.2.or cur⟩
      else
        let d := fieldDrawChars cw f sel y j skip width (i + 1) rest skipped (displayed + w) (p.2.or cur)
        { d with pieces := p.1 :: d.pieces }

/-- The end of a row, src/views/input_field.rs 645-655, release build. -/
def fieldDrawEnd (f : InputField) (cursorAtEnd : Bool) (width j : Nat) (d : Drawn) : Drawn :=
  if d.width < width ∧ cursorAtEnd then
    ⟨d.pieces ++ (.cursor, [' ']) :: List.replicate (width - (d.width + 1)) (.normal, [' ']), max (d.width + 1) width, some (fieldCursor f d.width j)⟩
  else ⟨d.pieces ++ List.replicate (width - d.width) (.normal, [' ']), max d.width width, d.cursor⟩

/-- The row of a line, src/views/input_field.rs 596-655, release build. -/
def fieldDrawLine (cw : Char → Nat) (f : InputField) (width y j : Nat) (chars : Text) (cur : Option (Nat × Nat)) : Drawn :=
  let atEnd := f.focused && (y == f.content.pos.y) && (f.content.pos.x == chars.length)
  if f.scroll.x > 0 ∧ width > 4 then
    let d := fieldDrawEnd f atEnd (width - 1) j (fieldDrawChars cw f f.content.selection y j (f.scroll.x + 1) (width - 1) 0 chars 0 0 cur)
    { d with pieces := (.normal, ['…']) :: d.pieces, width := d.width + 1 }
  else fieldDrawEnd f atEnd width j (fieldDrawChars cw f f.content.selection y j f.scroll.x width 0 chars 0 0 cur)

/-- The text of a row, src/views/input_field.rs 595-658, release build. -/
def fieldDrawRow (cw : Char → Nat) (f : InputField) (width j : Nat) (cur : Option (Nat × Nat)) : Run Drawn :=
  match f.content.lines[f.scroll.y + j]? with
  | some chars => some (fieldDrawLine cw f width (f.scroll.y + j) j chars cur)
  | none => drawEmpty width cur

/-- The loop on the rows, src/views/input_field.rs 593-667, release build. -/
def fieldDrawRows (cw : Char → Nat) (bar : Char × Char) (f : InputField) (width : Nat) (scrollbar : Option (Nat × Nat)) :
    Nat → Nat → Option (Nat × Nat) → Run (List Row × Option (Nat × Nat))
  | 0, _, cur => some ([], cur)
  | n + 1, j, cur => do
    let d ← fieldDrawRow cw f width j cur
    let rest ← fieldDrawRows cw bar f width scrollbar n (j + 1) d.cursor
    some (⟨f.area.left, addU16 j f.area.top, d.pieces ++ drawBar bar scrollbar (addU16 j f.area.top)⟩ :: rest.1, rest.2)

/-- The width left by the scrollbar, src/views/input_field.rs 562-570, release build. -/
def fieldDrawWidth (f : InputField) (scrollbar : Option (Nat × Nat)) : Nat :=
  match scrollbar with
  | some _ => wsub f.area.width 1
  | none => f.area.width

/-- `InputField::display_on`, src/views/input_field.rs 555-669, release build. `compute_scrollbar` (src/area.rs 117-154) is the same in both builds. -/
def fieldDisplay (cw : Char → Nat) (bar : Char × Char) (f : InputField) : Run (List Row × Option (Nat × Nat)) := do
  let scrollbar ← f.area.scrollbar (asU16 f.scroll.y) (asU16 f.content.lines.length)
  fieldDrawRows cw bar f (fieldDrawWidth f scrollbar) scrollbar f.area.height 0 none

end Verif.Release
