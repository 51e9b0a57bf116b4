import Verif.Model.InputField
import Verif.Spec.Input
import Verif.Spec.Area
/-! Specification vocabulary for input fields, and the operations of their API as data. -/
namespace Verif
open InputField

/-- The number of columns for the text: the last column is for the scrollbar when there are more lines than rows. -/
def InputField.textCols (f : InputField) : Nat :=
  if f.area.height < f.content.lines.length then f.area.width - 1 else f.area.width

/-- The column of the cursor in its line. -/
def InputField.cursorCol (cw : Char → Nat) (f : InputField) : Nat :=
  inputCols cw ((f.content.lines[f.content.pos.y]?.getD []).take f.content.pos.x)

/-- The row of the cursor is one of the displayed rows. -/
def InputField.RowVisible (f : InputField) : Prop :=
  f.scroll.y ≤ f.content.pos.y ∧ f.content.pos.y < f.scroll.y + f.area.height

/-- The vertical scroll doesn't show empty rows at the end when there are enough lines. -/
def InputField.RowsFull (f : InputField) : Prop :=
  (f.content.lines.length ≤ f.area.height → f.scroll.y = 0) ∧
    (f.area.height ≤ f.content.lines.length → f.scroll.y + f.area.height ≤ f.content.lines.length)

/-- The line of the cursor. -/
def InputField.cursorLine (f : InputField) : Text := f.content.lines[f.content.pos.y]?.getD []

/-- The cursor is in the displayed columns; when the line is scrolled, two more columns are displayed at its left. -/
def InputField.ColVisible (cw : Char → Nat) (f : InputField) : Prop :=
  (f.scroll.x = 0 ∨ f.scroll.x + 2 ≤ f.cursorCol cw) ∧ f.cursorCol cw < f.scroll.x + f.textCols

/-- A column after the cursor is displayed, unless the end of the line is displayed. -/
def InputField.ColAfter (cw : Char → Nat) (f : InputField) : Prop :=
  f.cursorCol cw + 2 ≤ f.scroll.x + f.textCols ∨ inputCols cw f.cursorLine < f.scroll.x + f.textCols

/-- The horizontal scroll isn't used for lines which fit, and at most one column is displayed after the end of longer ones. -/
def InputField.ColsFull (cw : Char → Nat) (f : InputField) : Prop :=
  (inputCols cw f.cursorLine < f.textCols → f.scroll.x = 0) ∧
    (f.textCols ≤ inputCols cw f.cursorLine → f.scroll.x + f.textCols ≤ inputCols cw f.cursorLine + 1)

/-- The cursor is in the displayed columns, or just after the last one; with at least 2 columns, when the line is scrolled, the character at its left is
displayed. -/
def InputField.ColNear (f : InputField) : Prop :=
  f.scroll.x ≤ f.content.pos.x ∧ f.content.pos.x ≤ f.scroll.x + f.textCols ∧ (2 ≤ f.textCols → f.scroll.x = 0 ∨ f.scroll.x < f.content.pos.x)

/-- How the displayed rows follow the cursor when there are more lines than rows, `s` being the first displayed row before: without focus, they only move
to show no empty row; and with the focus they don't move more when they have the cursor; they go up to it, with a line above it if there are more than 4 rows;
and they go down to the row of the cursor, if it's the last one, or to the row before. -/
def InputField.RowsFollow (s : Nat) (f : InputField) : Prop :=
  f.area.height < f.content.lines.length →
    let first := min s (f.content.lines.length - f.area.height)
    (f.focused = false → f.scroll.y = first) ∧
    (f.focused = true → 1 ≤ f.area.height →
      (first ≤ f.content.pos.y → f.content.pos.y < first + f.area.height → f.scroll.y = first) ∧
      (f.content.pos.y < first → f.scroll.y = if 4 < f.area.height then f.content.pos.y - 1 else f.content.pos.y) ∧
      (first + f.area.height ≤ f.content.pos.y →
        f.scroll.y + f.area.height = if f.content.pos.y + 1 = f.content.lines.length then f.content.pos.y + 1 else f.content.pos.y))

/-- How the displayed columns follow the cursor in a line too long to be displayed, `s` being the first displayed column before: at most one column is
displayed after the end of the line; without focus they don't move otherwise; with the focus (and 4 columns) they don't move when they have two columns before
the cursor, or start at the start of the line, and have one after it; they move to the left to have exactly two columns before it, or to the right to have
exactly one after it. -/
def InputField.ColsFollow (cw : Char → Nat) (s : Nat) (f : InputField) : Prop :=
  f.textCols ≤ inputCols cw f.cursorLine →
    let last := inputCols cw f.cursorLine + 1 - f.textCols
    (f.focused = false → f.scroll.x = min s last) ∧
    (f.focused = true → 4 ≤ f.textCols →
      (s = 0 ∨ s + 2 ≤ f.cursorCol cw → f.cursorCol cw + 2 ≤ s + f.textCols → f.scroll.x = min s last) ∧
      (f.cursorCol cw < s + 2 → f.scroll.x = min (f.cursorCol cw - 2) last) ∧
      (s + f.textCols < f.cursorCol cw + 2 → f.scroll.x = min (f.cursorCol cw + 2 - f.textCols) last))

/-- The character shown for a character of the content. -/
def InputField.shown (f : InputField) (c : Char) : Char := if f.passwordMode then '*' else c

/-- The text of pieces. -/
def cellsText (ps : List CellPiece) : Text := (ps.map Prod.snd).flatten

/-- The functions of an input field which apply a function of the content and fix the scroll if it returns true,
src/views/input_field.rs 232-267. -/
inductive WrapOp
  | moveUp | moveDown | moveLeft | moveRight | moveToStart | moveToEnd | moveToLineStart | moveToLineEnd | moveWordLeft
  | moveWordRight | delCharBelow | delSelection | delCharLeft | delWordLeft | delWordRight | moveCurrentLineUp
  | moveCurrentLineDown | selectWordAround | pageUp | pageDown

/-- The call of the function of the content, src/views/input_field.rs 232-267. -/
def WrapOp.call (cw : Char → Nat) (alnum : Char → Bool) (f : InputField) : WrapOp → Run (Content × Bool)
  | .moveUp => f.content.moveUp cw
  | .moveDown => f.content.moveDown cw
  | .moveLeft => f.content.moveLeft
  | .moveRight => f.content.moveRight
  | .moveToStart => some f.content.moveToStart
  | .moveToEnd => f.content.moveToEnd
  | .moveToLineStart => some f.content.moveToLineStart
  | .moveToLineEnd => f.content.moveToLineEnd
  | .moveWordLeft => f.content.moveWordLeft alnum
  | .moveWordRight => f.content.moveWordRight alnum
  | .delCharBelow => f.content.delCharBelow
  | .delSelection => f.content.delSelection
  | .delCharLeft => f.content.delCharLeft
  | .delWordLeft => f.content.delWordLeft alnum
  | .delWordRight => f.content.delWordRight alnum
  | .moveCurrentLineUp => f.content.moveCurrentLineUp
  | .moveCurrentLineDown => f.content.moveCurrentLineDown
  | .selectWordAround => f.content.selectWordAround alnum
  | .pageUp => f.content.moveLinesUp cw f.area.height
  | .pageDown => f.content.moveLinesDown cw f.area.height

/-- The public functions changing an `InputField`, src/views/input_field.rs 95-475. -/
inductive FieldOp
  | setMonoLine | newLineOn (key : KeyComb) | setPasswordMode (b : Bool)
  | changeArea (x y w : Nat) | setArea (area : Area) | setFocus (b : Bool)
  | cutSelection | replaceSelection (s : Text) | setStr (s : Text) | insertNewLine | putChar (ch : Char) | clear
  | insertStr (s : Text) | wrapped (op : WrapOp)
  | key (key : KeyComb) | keycode (code : KeyCode) (shift : Bool) | click (x y : Nat)
  | mouse (kind : MouseKind) (x y : Nat) (mods : KeyMods) (double : Bool) | event (e : FieldEvent) (double : Bool)
  | scrollUp | scrollDown

/-- The call of an operation, with the returned boolean, or `true` for the functions not returning a boolean. -/
def FieldOp.exec (cw : Char → Nat) (alnum : Char → Bool) (f : InputField) : FieldOp → Run (InputField × Bool)
  | .setMonoLine => some ({ f with newLineKeys := [] }, true)
  | .newLineOn k => some ({ f with newLineKeys := f.newLineKeys ++ [k] }, true)
  | .setPasswordMode b => some ({ f with passwordMode := b }, true)
  | .changeArea x y w => (f.changeArea cw x y w).map (·, true)
  | .setArea area => (f.setArea cw area).map (·, true)
  | .setFocus b => (f.setFocus cw b).map (·, true)
  | .cutSelection => (f.cutSelection cw).map fun p => (p.1, true)
  | .replaceSelection s => (f.replaceSelection cw s).map (·, true)
  | .setStr s => (f.setStr cw s).map (·, true)
  | .insertNewLine => f.insertNewLine cw
  | .putChar ch => f.putChar cw ch
  | .clear => (f.clear cw).map (·, true)
  | .insertStr s => (f.insertStr cw s).map (·, true)
  | .wrapped op => f.wrap cw (op.call cw alnum f)
  | .key k => f.applyKeyCombination cw k
  | .keycode code shift => f.applyKeycodeEvent cw code shift
  | .click x y => f.applyClickEvent cw x y
  | .mouse kind x y mods double => f.applyMouseEvent cw alnum kind x y mods double
  | .event e double => f.applyEvent cw alnum e double
  | .scrollUp => some f.scrollUp
  | .scrollDown => some f.scrollDown

/-- Areas given by the caller have a column and are in the screen. -/
def FieldOp.Allowed (f : InputField) : FieldOp → Prop
  | .changeArea x y w => 1 ≤ w ∧ Spec.OnScreen { f.area with left := x, top := y, width := w }
  | .setArea area => 1 ≤ area.width ∧ Spec.OnScreen area
  | _ => True

/-- The codes of keys after which the scroll is adjusted. -/
def AdjustingCode : KeyCode → Prop
  | .backspace | .delete => False
  | _ => True

/-- The operations after which the scroll is adjusted, if they return true. -/
def FieldOp.Adjusts (f : InputField) : FieldOp → Prop
  | .changeArea x y w => (x, y, w) ≠ (f.area.left, f.area.top, f.area.width)
  | .setArea area => area ≠ f.area
  | .setFocus b => b = true ∧ f.focused = false
  | .cutSelection | .replaceSelection _ | .setStr _ | .insertNewLine | .putChar _ | .clear | .insertStr _ | .wrapped _ => True
  | .key k => k ∈ f.newLineKeys ∨ AdjustingCode k.code
  | .keycode code _ => AdjustingCode code
  | .event (.key code _) _ => AdjustingCode code
  | _ => False

/-- The fields which can be obtained with the API from a new one. -/
inductive ReachableField (cw : Char → Nat) (alnum : Char → Bool) : InputField → Prop
  | init (area : Area) : 1 ≤ area.width → Spec.OnScreen area → ReachableField cw alnum (InputField.new area)
  | step {f f' : InputField} {b : Bool} (op : FieldOp) : ReachableField cw alnum f → op.Allowed f →
      op.exec cw alnum f = some (f', b) → ReachableField cw alnum f'

/-- The effect of a movement key: the text doesn't change, the selection starts where it started, or at the cursor, when shift
is pressed, and there's no selection otherwise. -/
def MovedBy (cw : Char → Nat) (f : InputField) (code : KeyCode) (shift : Bool) (move : Content → Prop) : Prop :=
  ∃ f' b, f.applyKeycodeEvent cw code shift = some (f', b) ∧ f'.content.lines = f.content.lines ∧
    f'.content.tail = (if shift then some (f.content.tail.getD f.content.pos) else none) ∧ move f'.content

end Verif
