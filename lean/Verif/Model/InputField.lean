import Verif.Model.Input
import Verif.Model.Area
import Verif.Model.Fit
/-! Model of `src/views/input_field.rs`. Functions taking `&mut self` return the new field. Styles are not modelled
otherwise than by the name of the one which is used. -/
namespace Verif

/-- The codes of keys (`crossterm::event::KeyCode`) with a role in an input field; others are numbered. External crate. -/
inductive KeyCode
  | backspace | delete | char (c : Char) | home | end | up | down | left | right | pageUp | pageDown | other (n : Nat)
  deriving DecidableEq, Repr

/-- `crossterm::event::KeyModifiers`: other sets of modifiers are numbered. External crate. -/
inductive KeyMods
  | none | shift | other (n : Nat)
  deriving DecidableEq, Repr

/-- `crokey::KeyCombination`: one to three codes and modifiers. External crate. -/
structure KeyComb where
  code : KeyCode
  others : List KeyCode := []
  mods : KeyMods := .none
  deriving DecidableEq, Repr

/-- `crossterm::event::MouseEventKind`: other kinds are numbered. External crate. -/
inductive MouseKind
  | downLeft | upLeft | dragLeft | scrollDown | scrollUp | other (n : Nat)
  deriving DecidableEq, Repr

/-- `InputField`, src/views/input_field.rs 41-53, without its styles. -/
structure InputField where
  content : Content := {}
  area : Area
  passwordMode : Bool := false
  focused : Bool := true
  scroll : Pos := ⟨0, 0⟩
  newLineKeys : List KeyComb := []
  deriving DecidableEq, Repr

/-- `InputField::new`, src/views/input_field.rs 78-94. -/
def InputField.new (area : Area) : InputField := { area }

/-- `Area::uninitialized`, src/area.rs 33-40, in `InputField::default`, src/views/input_field.rs 55-59. -/
def InputField.default : InputField := InputField.new ⟨0, 0, 5, 1⟩

/-- The vertical part of `fix_scroll` when there are more lines than rows, src/views/input_field.rs 490-506. -/
def fixScrollY (height lineCount posY : Nat) (focused : Bool) (scrollY : Nat) : Run Nat := do
  let s := if scrollY + height > lineCount then lineCount - height else scrollY
  if focused then
    if s > posY then some (if posY > 0 ∧ height > 4 then posY - 1 else posY)
    else if posY ≥ s + height then do
      let s ← csub posY height
      if posY + 1 < lineCount then csub (s + 1) 1 else some (s + 1)
    else some s
  else some s

/-- The adjustment for the cursor in the horizontal part of `fix_scroll`, src/views/input_field.rs 514-537. -/
def fixScrollXFocused (width posX wpx scrollX : Nat) : Nat :=
  if width < 4 then
    if posX < 2 then 0
    else if posX < scrollX + 1 then posX - 1
    else if posX > scrollX + width then posX + 1 - width
    else scrollX
  else if wpx < scrollX + 2 then
    if wpx < 2 then 0 else wpx - 2
  else if wpx > scrollX + width - 2 then wpx + 2 - width
  else scrollX

/-- The horizontal part of `fix_scroll`, src/views/input_field.rs 509-541. The column of the cursor is computed only when
it's needed, but it never panics for a valid position. -/
def fixScrollX (cw : Char → Nat) (width : Nat) (line : Text) (posX : Nat) (focused : Bool) (scrollX : Nat) : Run Nat :=
  if lineWidth cw line < width then some 0
  else do
    let wpx ← charIdxToCol cw line posX
    let s := if focused then fixScrollXFocused width posX wpx scrollX else scrollX
    some (if s + width > lineWidth cw line + 1 then lineWidth cw line + 1 - width else s)

namespace InputField

/-- The width for the characters and the vertical scroll in `fix_scroll`, src/views/input_field.rs 478-507. -/
def fixY (f : InputField) : Run (Nat × Nat) :=
  if f.content.lines.length > f.area.height then do
    let width ← csub f.area.width 1
    let s ← fixScrollY f.area.height f.content.lines.length f.content.pos.y f.focused f.scroll.y
    some (width, s)
  else some (f.area.width, 0)

/-- `InputField::fix_scroll`, src/views/input_field.rs 477-542. -/
def fixScroll (cw : Char → Nat) (f : InputField) : Run InputField := do
  let p ← f.fixY
  let line ← f.content.currentLine
  let x ← fixScrollX cw p.1 line f.content.pos.x f.focused f.scroll.x
  some { f with scroll := ⟨p.2, x⟩ }

/-- The functions made with `wrap_content_fun!`, src/views/input_field.rs 61-72 and 232-249: the scroll is fixed if the content says
that something changed. -/
def wrap (cw : Char → Nat) (f : InputField) (r : Run (Content × Bool)) : Run (InputField × Bool) := do
  let p ← r
  if p.2 then do
    let f' ← fixScroll cw { f with content := p.1 }
    some (f', true)
  else some ({ f with content := p.1 }, false)

/-- `InputField::change_area`, src/views/input_field.rs 119-126. -/
def changeArea (cw : Char → Nat) (f : InputField) (x y w : Nat) : Run InputField :=
  if f.area.left ≠ x ∨ f.area.top ≠ y ∨ f.area.width ≠ w then
    fixScroll cw { f with area := { f.area with left := x, top := y, width := w } }
  else some f

/-- `InputField::set_area`, src/views/input_field.rs 127-132. -/
def setArea (cw : Char → Nat) (f : InputField) (area : Area) : Run InputField :=
  if f.area ≠ area then fixScroll cw { f with area } else some f

/-- `InputField::set_focus`, src/views/input_field.rs 141-150. -/
def setFocus (cw : Char → Nat) (f : InputField) (b : Bool) : Run InputField :=
  if f.focused = b then some f
  else if b then fixScroll cw { f with focused := b } else some { f with focused := b }

/-- `InputField::cut_selection`, src/views/input_field.rs 180-185. -/
def cutSelection (cw : Char → Nat) (f : InputField) : Run (InputField × Text) := do
  let s ← f.content.selectionString
  let p ← f.content.delSelection
  let f' ← fixScroll cw { f with content := p.1 }
  some (f', s)

/-- The removal of a wide selection if there's one, src/views/input_field.rs 191-193. -/
def delWide (f : InputField) : Run InputField :=
  if f.content.hasWideSelection then do
    let p ← f.content.delSelection
    some { f with content := p.1 }
  else some f

/-- `InputField::replace_selection`, src/views/input_field.rs 190-196. -/
def replaceSelection (cw : Char → Nat) (f : InputField) (s : Text) : Run InputField := do
  let f ← f.delWide
  let c ← f.content.insertStr s
  fixScroll cw { f with content := c }

/-- `InputField::set_str`, src/views/input_field.rs 205-208. -/
def setStr (cw : Char → Nat) (f : InputField) (s : Text) : Run InputField := do
  let c ← f.content.setStr s
  fixScroll cw { f with content := c }

/-- `InputField::insert_new_line`, src/views/input_field.rs 209-213. -/
def insertNewLine (cw : Char → Nat) (f : InputField) : Run (InputField × Bool) := do
  let c ← f.content.insertNewLine
  let f' ← fixScroll cw { f with content := c }
  some (f', true)

/-- `InputField::put_char`, src/views/input_field.rs 216-220. -/
def putChar (cw : Char → Nat) (f : InputField) (ch : Char) : Run (InputField × Bool) := do
  let c ← f.content.insertChar ch
  let f' ← fixScroll cw { f with content := c }
  some (f', true)

/-- `InputField::clear`, src/views/input_field.rs 221-224. -/
def clear (cw : Char → Nat) (f : InputField) : Run InputField := fixScroll cw { f with content := f.content.clear }

/-- `InputField::insert_str`, src/views/input_field.rs 227-230. -/
def insertStr (cw : Char → Nat) (f : InputField) (s : Text) : Run InputField := do
  let c ← f.content.insertStr s
  fixScroll cw { f with content := c }

/-- `InputField::page_up`, src/views/input_field.rs 251-258. -/
def pageUp (cw : Char → Nat) (f : InputField) : Run (InputField × Bool) :=
  f.wrap cw (f.content.moveLinesUp cw f.area.height)

/-- `InputField::page_down`, src/views/input_field.rs 260-267. -/
def pageDown (cw : Char → Nat) (f : InputField) : Run (InputField × Bool) :=
  f.wrap cw (f.content.moveLinesDown cw f.area.height)

/-- The removal of a wide selection, or else the given one, for keys, src/views/input_field.rs 312-325. The scroll isn't
fixed. -/
def delKey (f : InputField) (r : Run (Content × Bool)) : Run (InputField × Bool) :=
  if f.content.hasWideSelection then do
    let p ← f.content.delSelection
    some ({ f with content := p.1 }, true)
  else do
    let p ← r
    some ({ f with content := p.1 }, p.2)

/-- `InputField::apply_keycode_event` for a character, src/views/input_field.rs 326-334. -/
def charKey (cw : Char → Nat) (f : InputField) (ch : Char) : Run (InputField × Bool) :=
  if f.content.hasWideSelection then do
    let p ← f.content.delSelection
    let q ← putChar cw { f with content := p.1 } ch
    let f' ← fixScroll cw q.1
    some (f', true)
  else f.putChar cw ch

/-- The last match of `InputField::apply_keycode_event`, src/views/input_field.rs 341-351. -/
def moveKey (cw : Char → Nat) (f : InputField) : KeyCode → Run (InputField × Bool)
  | .home => f.wrap cw (some f.content.moveToLineStart)
  | .end => f.wrap cw f.content.moveToLineEnd
  | .up => f.wrap cw (f.content.moveUp cw)
  | .down => f.wrap cw (f.content.moveDown cw)
  | .left => f.wrap cw f.content.moveLeft
  | .pageUp => f.pageUp cw
  | .pageDown => f.pageDown cw
  | .right => f.wrap cw f.content.moveRight
  | _ => some (f, false)

/-- `InputField::apply_keycode_event`, src/views/input_field.rs 311-353. -/
def applyKeycodeEvent (cw : Char → Nat) (f : InputField) (code : KeyCode) (shift : Bool) : Run (InputField × Bool) :=
  match code with
  | .backspace => f.delKey f.content.delCharLeft
  | .delete => f.delKey f.content.delCharBelow
  | .char ch => f.charKey cw ch
  | code =>
    moveKey cw { f with content := if shift then f.content.makeSelection else f.content.unselect } code

/-- The dispatch on the modifiers, src/views/input_field.rs 298-303. -/
def applyMods (cw : Char → Nat) (f : InputField) (key : KeyComb) : Run (InputField × Bool) :=
  match key.others, key.mods with
  | [], .none => f.applyKeycodeEvent cw key.code false
  | [], .shift => f.applyKeycodeEvent cw key.code true
  | _, _ => some (f, false)

/-- `InputField::apply_key_combination`, src/views/input_field.rs 289-304; `apply_key_event`, 277-279, calls it after a
conversion. -/
def applyKeyCombination (cw : Char → Nat) (f : InputField) (key : KeyComb) : Run (InputField × Bool) :=
  if !f.focused then some (f, false)
  else if f.newLineKeys.contains key then f.insertNewLine cw
  else f.applyMods cw key

/-- The position in the content of a cell of the area, src/views/input_field.rs 359-364 and 385-390. -/
def posOfCell (cw : Char → Nat) (f : InputField) (x y : Nat) : Run Pos := do
  let dy ← csub y f.area.top
  let n ← csub f.content.lines.length 1
  let row := min (dy + f.scroll.y) n
  let line ← f.content.lines[row]?
  let dx ← csub x f.area.left
  some ⟨row, (colToCharIdx cw line (dx + f.scroll.x)).getD line.length⟩

/-- `InputField::apply_click_event`, src/views/input_field.rs 356-373. -/
def applyClickEvent (cw : Char → Nat) (f : InputField) (x y : Nat) : Run (InputField × Bool) := do
  let b ← f.area.contains x y
  if b then
    if f.focused then do
      let p ← f.posOfCell cw x y
      let c ← f.content.setCursorPos p
      some ({ f with content := c }, true)
    else some ({ f with focused := true }, true)
  else some (f, false)

/-- `InputField::scroll_up`, src/views/input_field.rs 457-464. -/
def scrollUp (f : InputField) : InputField × Bool :=
  if f.scroll.y > 0 then ({ f with scroll := { f.scroll with y := f.scroll.y - 1 } }, true) else (f, false)

/-- `InputField::scroll_down`, src/views/input_field.rs 466-475. -/
def scrollDown (f : InputField) : InputField × Bool :=
  if f.scroll.y + f.area.height < f.content.lines.length then ({ f with scroll := { f.scroll with y := f.scroll.y + 1 } }, true)
  else (f, false)

/-- The match on the kind of mouse event, src/views/input_field.rs 393-419. -/
def mouseAt (alnum : Char → Bool) (f : InputField) (kind : MouseKind) (mods : KeyMods) (double : Bool) (p : Pos) : Run InputField :=
  match kind with
  | .downLeft => do
    let c ← (if mods = .shift then f.content.makeSelection else f.content.unselect).setCursorPos p
    some { f with content := c }
  | .upLeft =>
    if double then do
      let c ← f.content.setCursorPos p
      let q ← c.selectWordAround alnum
      some { f with content := q.1 }
    else some f
  | .dragLeft => do
    let c ← f.content.makeSelection.setCursorPos p
    some { f with content := c }
  | .scrollDown => some f.scrollDown.1
  | .scrollUp => some f.scrollUp.1
  | .other _ => some f

/-- `InputField::apply_mouse_event`, src/views/input_field.rs 376-427. -/
def applyMouseEvent (cw : Char → Nat) (alnum : Char → Bool) (f : InputField) (kind : MouseKind) (x y : Nat) (mods : KeyMods)
    (double : Bool) : Run (InputField × Bool) := do
  let b ← f.area.contains x y
  if b then
    if f.focused then do
      let p ← f.posOfCell cw x y
      let f' ← f.mouseAt alnum kind mods double p
      some (f', true)
    else some ({ f with focused := f.focused || kind == .downLeft }, true)
  else some (f, false)

/-- An event given to `apply_event`. See src/views/input_field.rs 432-448. -/
inductive FieldEvent
  | mouse (kind : MouseKind) (x y : Nat) (mods : KeyMods)
  | key (code : KeyCode) (mods : KeyMods)
  | other

/-- `InputField::apply_event`, src/views/input_field.rs 432-448. -/
def applyEvent (cw : Char → Nat) (alnum : Char → Bool) (f : InputField) (e : FieldEvent) (double : Bool) : Run (InputField × Bool) :=
  match e with
  | .mouse kind x y mods => f.applyMouseEvent cw alnum kind x y mods double
  | .key code mods =>
    if f.focused then
      match mods with
      | .none => f.applyKeycodeEvent cw code false
      | .shift => f.applyKeycodeEvent cw code true
      | .other _ => some (f, false)
    else some (f, false)
  | .other => some (f, false)

/-! ### Display -/

/-- The styles used by `display_on`. See src/views/input_field.rs 555-669. -/
inductive CellStyle
  | normal | cursor | thumb | track
  deriving DecidableEq, Repr

/-- A string written in a style. See src/views/input_field.rs 555-669. -/
abbrev CellPiece := CellStyle × Text

/-- What the loop on the characters of a line gives: the pieces, the number of columns, and the last terminal cursor position.
See src/views/input_field.rs 555-669. -/
structure Drawn where
  pieces : List CellPiece
  width : Nat
  cursor : Option (Nat × Nat)
  deriving DecidableEq, Repr

/-- The position given to the terminal cursor, src/views/input_field.rs 621-624, 635-636 and 648-649. -/
def cursorCell (f : InputField) (displayed j : Nat) : Run (Nat × Nat) := do
  let x ← u16Add f.area.left (asU16 displayed)
  let y ← u16Add f.area.top j
  some (x, y)

/-- The writing of a cell in the loop, src/views/input_field.rs 618-627 and 632-639: with the cursor style and its position
if it's in the selection. -/
def drawCell (f : InputField) (selected : Bool) (ch : Char) (displayed j : Nat) : Run (CellPiece × Option (Nat × Nat)) :=
  if f.focused && selected then do
    let p ← f.cursorCell displayed j
    some ((.cursor, [ch]), some p)
  else some ((.normal, [ch]), none)

/-- The loop on the characters, src/views/input_field.rs 607-644: index, remaining characters, skipped width, displayed width
and terminal cursor position. -/
def drawChars (cw : Char → Nat) (f : InputField) (sel : Range) (y j skip width : Nat) :
    Nat → Text → Nat → Nat → Option (Nat × Nat) → Run Drawn
  | _, [], _, displayed, cur => some ⟨[], displayed, cur⟩
  | i, c :: rest, skipped, displayed, cur => do
    let c := if f.passwordMode then '*' else c
    let w := inputCharWidth cw c
    if skipped < skip then drawChars cw f sel y j skip width (i + 1) rest (skipped + w) displayed cur
    else if displayed + w ≥ width ∧ (rest ≠ [] ∨ displayed + w > width) then do
      let p ← f.drawCell (sel.contains i y) '…' displayed j
      some ⟨[p.1], displayed + 1, p.2.or cur⟩
    else do
      let p ← f.drawCell (sel.contains i y) c displayed j
      if displayed + w ≥ width then some ⟨[p.1], displayed + w, p.2.or cur⟩
      else do
        let d ← drawChars cw f sel y j skip width (i + 1) rest skipped (displayed + w) (p.2.or cur)
        some { d with pieces := p.1 :: d.pieces }

/-- The end of a row, src/views/input_field.rs 645-655: the cursor if it's at the end, then spaces. -/
def drawEnd (f : InputField) (cursorAtEnd : Bool) (width j : Nat) (d : Drawn) : Run Drawn :=
  if d.width < width ∧ cursorAtEnd then do
    let p ← f.cursorCell d.width j
    some ⟨d.pieces ++ (.cursor, [' ']) :: List.replicate (width - (d.width + 1)) (.normal, [' ']), max (d.width + 1) width, some p⟩
  else some ⟨d.pieces ++ List.replicate (width - d.width) (.normal, [' ']), max d.width width, d.cursor⟩

/-- The row of a line, src/views/input_field.rs 596-655. -/
def drawLine (cw : Char → Nat) (f : InputField) (width y j : Nat) (chars : Text) (cur : Option (Nat × Nat)) : Run Drawn := do
  let atEnd := f.focused && (y == f.content.pos.y) && (f.content.pos.x == chars.length)
  if f.scroll.x > 0 ∧ width > 4 then do
    let d ← f.drawChars cw f.content.selection y j (f.scroll.x + 1) (width - 1) 0 chars 0 0 cur
    let d ← f.drawEnd atEnd (width - 1) j d
    some { d with pieces := (.normal, ['…']) :: d.pieces, width := d.width + 1 }
  else do
    let d ← f.drawChars cw f.content.selection y j f.scroll.x width 0 chars 0 0 cur
    f.drawEnd atEnd width j d

/-- A row without line, src/views/input_field.rs 656-658. -/
def drawEmpty (width : Nat) (cur : Option (Nat × Nat)) : Run Drawn := do
  let chunks ← (Filling.fromChar ' ').queue width
  some ⟨chunks.map (fun t => (.normal, t)), width, cur⟩

/-- The text of a row, src/views/input_field.rs 595-658: the line of this row if there's one. -/
def drawRow (cw : Char → Nat) (f : InputField) (width j : Nat) (cur : Option (Nat × Nat)) : Run Drawn :=
  match f.content.lines[f.scroll.y + j]? with
  | some chars => f.drawLine cw width (f.scroll.y + j) j chars cur
  | none => drawEmpty width cur

/-- The cell of the scrollbar, src/views/input_field.rs 659-666; `bar` gives the characters of the thumb and of the track. -/
def drawBar (bar : Char × Char) (scrollbar : Option (Nat × Nat)) (y : Nat) : List CellPiece :=
  match scrollbar with
  | some (t, b) => if t ≤ y ∧ y ≤ b then [(.thumb, [bar.1])] else [(.track, [bar.2])]
  | none => []

/-- A row written by `display_on`: where the terminal cursor is moved first, and the pieces. See src/views/input_field.rs 555-669. -/
structure Row where
  x : Nat
  y : Nat
  pieces : List CellPiece
  deriving DecidableEq, Repr

/-- The loop on the rows, src/views/input_field.rs 593-667: remaining number of rows and index of the row. -/
def drawRows (cw : Char → Nat) (bar : Char × Char) (f : InputField) (width : Nat) (scrollbar : Option (Nat × Nat)) :
    Nat → Nat → Option (Nat × Nat) → Run (List Row × Option (Nat × Nat))
  | 0, _, cur => some ([], cur)
  | n + 1, j, cur => do
    let y ← u16Add j f.area.top
    let d ← f.drawRow cw width j cur
    let rest ← drawRows cw bar f width scrollbar n (j + 1) d.cursor
    some (⟨f.area.left, y, d.pieces ++ drawBar bar scrollbar y⟩ :: rest.1, rest.2)

/-- The width left by the scrollbar, src/views/input_field.rs 562-570. -/
def drawWidth (f : InputField) (scrollbar : Option (Nat × Nat)) : Run Nat :=
  match scrollbar with
  | some _ => csub f.area.width 1
  | none => some f.area.width

/-- `InputField::display_on`, src/views/input_field.rs 555-669. -/
def displayOn (cw : Char → Nat) (bar : Char × Char) (f : InputField) : Run (List Row × Option (Nat × Nat)) := do
  let scrollbar ← f.area.scrollbar (asU16 f.scroll.y) (asU16 f.content.lines.length)
  let width ← f.drawWidth scrollbar
  f.drawRows cw bar width scrollbar f.area.height 0 none

end InputField
end Verif
