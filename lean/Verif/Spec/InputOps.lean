import Verif.Spec.Input
/-! The operations of the API of input contents, as data, so that histories can be quantified over. -/
namespace Verif

/-- The public functions changing an `InputFieldContent`, src/views/input_field_content.rs 155-652. -/
inductive ContentOp
  | setCursorPos (p : Pos) | makeSelection | unselect | setSelectionTail (p : Pos) | pushChar (ch : Char) | clear
  | insertNewLine | insertChar (ch : Char) | insertStr (s : Text) | setStr (s : Text) | delCharLeft | selectWordAround
  | delCharBelow | delSelection | swapLines (ya yb : Nat) | moveCurrentLineUp | moveCurrentLineDown | moveRight
  | moveLinesUp (n : Nat) | moveUp | moveLinesDown (n : Nat) | moveDown | moveLeft | moveToEnd | moveToStart
  | moveToLineEnd | moveToLineStart | moveWordLeft | moveWordRight | delWordLeft | delWordRight

/-- The call of an operation. -/
def ContentOp.exec (cw : Char → Nat) (alnum : Char → Bool) (c : Content) : ContentOp → Run Content
  | .setCursorPos p => c.setCursorPos p
  | .makeSelection => some c.makeSelection
  | .unselect => some c.unselect
  | .setSelectionTail p => c.setSelectionTail p
  | .pushChar ch => c.pushChar ch
  | .clear => some c.clear
  | .insertNewLine => c.insertNewLine
  | .insertChar ch => c.insertChar ch
  | .insertStr s => c.insertStr s
  | .setStr s => c.setStr s
  | .delCharLeft => c.delCharLeft.map Prod.fst
  | .selectWordAround => (c.selectWordAround alnum).map Prod.fst
  | .delCharBelow => c.delCharBelow.map Prod.fst
  | .delSelection => c.delSelection.map Prod.fst
  | .swapLines ya yb => (c.swapLines ya yb).map Prod.fst
  | .moveCurrentLineUp => c.moveCurrentLineUp.map Prod.fst
  | .moveCurrentLineDown => c.moveCurrentLineDown.map Prod.fst
  | .moveRight => c.moveRight.map Prod.fst
  | .moveLinesUp n => (c.moveLinesUp cw n).map Prod.fst
  | .moveUp => (c.moveUp cw).map Prod.fst
  | .moveLinesDown n => (c.moveLinesDown cw n).map Prod.fst
  | .moveDown => (c.moveDown cw).map Prod.fst
  | .moveLeft => c.moveLeft.map Prod.fst
  | .moveToEnd => c.moveToEnd.map Prod.fst
  | .moveToStart => some c.moveToStart.1
  | .moveToLineEnd => c.moveToLineEnd.map Prod.fst
  | .moveToLineStart => some c.moveToLineStart.1
  | .moveWordLeft => (c.moveWordLeft alnum).map Prod.fst
  | .moveWordRight => (c.moveWordRight alnum).map Prod.fst
  | .delWordLeft => (c.delWordLeft alnum).map Prod.fst
  | .delWordRight => (c.delWordRight alnum).map Prod.fst

/-- The restriction on the calls of `set_selection_tail`: the position is after the last line, on the line of the cursor, or
exists. Other operations accept all arguments. -/
def ContentOp.Allowed (c : Content) : ContentOp → Prop
  | .setSelectionTail p => c.lines.length ≤ p.y ∨ p.y = c.pos.y ∨ ValidPos c.lines p
  | _ => True

/-- The contents which can be obtained with the API, starting from an empty one. -/
inductive ReachableContent (cw : Char → Nat) (alnum : Char → Bool) : Content → Prop
  | init : ReachableContent cw alnum {}
  | step {c c' : Content} (op : ContentOp) : ReachableContent cw alnum c → op.Allowed c → op.exec cw alnum c = some c' →
      ReachableContent cw alnum c'

end Verif
