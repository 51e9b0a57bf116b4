import Verif.Spec.FieldSession
import Verif.Spec.InputOps
/-! Specification: what each method of an input content does in the reference editor. -/
namespace Verif.Spec

namespace Doc

/-- The number of characters of a move by a word to the left: one character, then letters and digits, in the line. -/
def wordLeftCount (alnum : Char → Bool) (d : Doc) : Nat :=
  match (lastLine d.before).reverse with
  | [] => 0
  | _ :: l => 1 + (l.takeWhile alnum).length

/-- The number of characters of a move by a word to the right: one character, then as long as the character following the next one is a letter or a digit of
the line. -/
def wordRightCount (alnum : Char → Bool) (d : Doc) : Nat :=
  match firstLine d.after with
  | [] => 0
  | _ :: l => 1 + ((l.drop 1).takeWhile alnum).length

/-- Removes the letters and digits following the cursor and the next character of the line. If there's none, the cursor is moved to the left, in the line. -/
def deleteWordRight (alnum : Char → Bool) (d : Doc) : Doc :=
  let word := (firstLine d.after).takeWhile alnum
  if word.length < (firstLine d.after).length then { d with after := d.after.drop (word.length + 1) }
  else
    let e : Doc := { d with after := d.after.drop word.length }
    if lastLine d.before = [] then e else e.left

end Doc

/-- The lines with two of them exchanged. -/
def exchange (ls : List Text) (i j : Nat) : List Text :=
  (List.range ls.length).map fun k => ls[if k = i then j else if k = j then i else k]?.getD []

namespace SelDoc

/-- Two lines are exchanged, and the cursor is put at a line and column; the other end of the selection stays at the same line and column, or at the nearest
place. -/
def exchanged (d : SelDoc) (i j : Nat) (p : Pos) : SelDoc :=
  let text := joinLines (exchange (textLines d.text) i j)
  d.keep ⟨text.take (indexIn text (nearest text p)), text.drop (indexIn text (nearest text p))⟩

/-- The line of the cursor is exchanged with the line of a number, if there's one, and the cursor follows it, at the same column or at the length of the other
line if it's shorter. -/
def carried (d : SelDoc) (y : Nat) : SelDoc :=
  match (textLines d.text)[y]? with
  | some l => d.exchanged y d.place.y ⟨y, min d.place.x l.length⟩
  | none => d

/-- A character inserted: carriage returns and backspaces aren't. -/
def typeChar (d : SelDoc) (c : Char) : SelDoc := d.keep (d.doc.insert (keptText [c]))

/-- The effect of a method. -/
def call (cw : Char → Nat) (alnum : Char → Bool) (d : SelDoc) : ContentOp → SelDoc
  | .setCursorPos p => ⟨d.putAt (nearest d.text p), d.anchor⟩
  | .makeSelection => ⟨d.doc, some (d.anchor.getD d.place)⟩
  | .unselect => ⟨d.doc, none⟩
  | .setSelectionTail p =>
    -- the column is bounded by the length of the line of the cursor
    ⟨d.doc, some (if p.y < (textLines d.text).length then ⟨p.y, min p.x (Doc.lastLine d.doc.before ++ Doc.firstLine d.doc.after).length⟩
      else nearest d.text p)⟩
  | .pushChar c => ⟨⟨d.doc.before, d.doc.after ++ keptText [c]⟩, d.anchor⟩
  | .clear => {}
  | .insertNewLine => d.keep (d.doc.insert ['\n'])
  | .insertChar c => d.typeChar c
  | .insertStr s => s.foldl typeChar d
  | .setStr s => if d.text = s then d else ⟨⟨keptText s, []⟩, none⟩
  | .delCharLeft => d.keep d.doc.backspace
  | .selectWordAround =>
    match wordAround alnum (Doc.lastLine d.doc.before ++ Doc.firstLine d.doc.after) d.place.x with
    | some (first, last) => ⟨d.putAt ⟨d.place.y, last⟩, some ⟨d.place.y, first⟩⟩
    | none => d
  | .delCharBelow => d.keep d.doc.delete
  | .delSelection => if d.wide then d.erase else d.keep d.doc.delete
  | .swapLines i j => if i < (textLines d.text).length ∧ j < (textLines d.text).length then d.exchanged i j d.place else d
  | .moveCurrentLineUp => if d.place.y = 0 then d else d.carried (d.place.y - 1)
  | .moveCurrentLineDown => d.carried (d.place.y + 1)
  | .moveRight => ⟨d.doc.right, d.anchor⟩
  | .moveLinesUp n => ⟨d.doc.up cw n, d.anchor⟩
  | .moveUp => ⟨d.doc.up cw 1, d.anchor⟩
  | .moveLinesDown n => ⟨d.doc.down cw n, d.anchor⟩
  | .moveDown => ⟨d.doc.down cw 1, d.anchor⟩
  | .moveLeft => ⟨d.doc.left, d.anchor⟩
  | .moveToEnd => ⟨⟨d.text, []⟩, d.anchor⟩
  | .moveToStart => ⟨⟨[], d.text⟩, d.anchor⟩
  | .moveToLineEnd => ⟨d.doc.toEnd, d.anchor⟩
  | .moveToLineStart => ⟨d.doc.home, d.anchor⟩
  | .moveWordLeft => ⟨Doc.times Doc.left (d.doc.wordLeftCount alnum) d.doc, d.anchor⟩
  | .moveWordRight => ⟨Doc.times Doc.right (d.doc.wordRightCount alnum) d.doc, d.anchor⟩
  | .delWordLeft => d.keep (Doc.times Doc.backspace (d.doc.wordLeftCount alnum) d.doc)
  | .delWordRight => d.keep (d.doc.deleteWordRight alnum)

/-- The effect of methods called one after the other. -/
def calls (cw : Char → Nat) (alnum : Char → Bool) (d : SelDoc) (ops : List ContentOp) : SelDoc := ops.foldl (call cw alnum) d

/-- The calls for which the editor is a reference: the end of the selection is set on the line of the cursor, at a place of the text or after the last
line. -/
def Regular (d : SelDoc) : ContentOp → Prop
  | .setSelectionTail p => p.y < (textLines d.text).length → p.y = d.place.y ∨ nearest d.text p = p
  | _ => True

/-- All the calls are regular ones. -/
def AllRegular (cw : Char → Nat) (alnum : Char → Bool) : SelDoc → List ContentOp → Prop
  | _, [] => True
  | d, op :: ops => d.Regular op ∧ AllRegular cw alnum (d.call cw alnum op) ops

end SelDoc

/-- Methods of a content called one after the other. -/
def callAll (cw : Char → Nat) (alnum : Char → Bool) : List ContentOp → Content → Run Content
  | [], c => some c
  | op :: ops, c => do
    let c' ← op.exec cw alnum c
    callAll cw alnum ops c'

/-- The methods of a field which change its content or its scroll, src/views/input_field.rs 205-267 and 455-475. -/
inductive FieldMethod
  | setStr (s : Text) | insertNewLine | putChar (c : Char) | clear | insertStr (s : Text) | wrapped (op : WrapOp) | scrollUp | scrollDown

/-- The call of a method. -/
def FieldMethod.op : FieldMethod → FieldOp
  | .setStr s => .setStr s
  | .insertNewLine => .insertNewLine
  | .putChar c => .putChar c
  | .clear => .clear
  | .insertStr s => .insertStr s
  | .wrapped op => .wrapped op
  | .scrollUp => .scrollUp
  | .scrollDown => .scrollDown

/-- What a method of a field does to its content: a page is the height of the area; scrolls do nothing. -/
def FieldMethod.onContent (page : Nat) : FieldMethod → Option ContentOp
  | .setStr s => some (.setStr s)
  | .insertNewLine => some .insertNewLine
  | .putChar c => some (.insertChar c)
  | .clear => some .clear
  | .insertStr s => some (.insertStr s)
  | .wrapped .moveUp => some .moveUp
  | .wrapped .moveDown => some .moveDown
  | .wrapped .moveLeft => some .moveLeft
  | .wrapped .moveRight => some .moveRight
  | .wrapped .moveToStart => some .moveToStart
  | .wrapped .moveToEnd => some .moveToEnd
  | .wrapped .moveToLineStart => some .moveToLineStart
  | .wrapped .moveToLineEnd => some .moveToLineEnd
  | .wrapped .moveWordLeft => some .moveWordLeft
  | .wrapped .moveWordRight => some .moveWordRight
  | .wrapped .delCharBelow => some .delCharBelow
  | .wrapped .delSelection => some .delSelection
  | .wrapped .delCharLeft => some .delCharLeft
  | .wrapped .delWordLeft => some .delWordLeft
  | .wrapped .delWordRight => some .delWordRight
  | .wrapped .moveCurrentLineUp => some .moveCurrentLineUp
  | .wrapped .moveCurrentLineDown => some .moveCurrentLineDown
  | .wrapped .selectWordAround => some .selectWordAround
  | .wrapped .pageUp => some (.moveLinesUp page)
  | .wrapped .pageDown => some (.moveLinesDown page)
  | .scrollUp => none
  | .scrollDown => none

/-- What is done with a field: an event of a session, with the place of the text where the mouse is, or a method. -/
inductive FieldCall
  | event (e : SessionEvent) (p : Pos)
  | method (m : FieldMethod)

/-- A call on a field: the new field and the text which was cut. -/
def FieldCall.give (cw : Char → Nat) (alnum : Char → Bool) (f : InputField) : FieldCall → Run (InputField × Text)
  | .event e _ => giveEvent cw alnum f e
  | .method m => do
    let r ← m.op.exec cw alnum f
    some (r.1, [])

/-- Calls on a field one after the other. -/
def giveCalls (cw : Char → Nat) (alnum : Char → Bool) : InputField → List FieldCall → Run (InputField × List Text)
  | f, [] => some (f, [])
  | f, a :: as => do
    let r ← a.give cw alnum f
    let q ← giveCalls cw alnum r.1 as
    some (q.1, r.2 :: q.2)

namespace FieldDoc

/-- The effect of a call in the reference, and the text which was cut. Methods don't need the focus. -/
def act (cw : Char → Nat) (alnum : Char → Bool) (newLine : List KeyComb) (s : FieldDoc) : FieldCall → FieldDoc × Text
  | .event e p => s.play cw alnum newLine e p
  | .method m => ({ s with sel := (m.onContent s.area.height).elim s.sel (s.sel.call cw alnum) }, [])

/-- All the calls, and the cut texts. -/
def acts (cw : Char → Nat) (alnum : Char → Bool) (newLine : List KeyComb) (s : FieldDoc) : List FieldCall → FieldDoc × List Text
  | [] => (s, [])
  | a :: as =>
    let r := s.act cw alnum newLine a
    let q := r.1.acts cw alnum newLine as
    (q.1, r.2 :: q.2)

end FieldDoc

/-- The areas given to a field have a column and are in the screen. -/
def AllowedCall : FieldCall → Prop
  | .event e _ => AllowedEvent e
  | .method _ => True

end Verif.Spec
