import Verif.Spec.SelectEditor
import Verif.Model.FieldCopy
/-! Specification: a session in an input field, with the keyboard, the clipboard and the mouse. -/
namespace Verif.Spec
open InputField

/-- What a user and an application do with a field: keys, cuts and pastes; mouse events; clicks given with `apply_click_event`; and changes of the focus
or of the area. -/
inductive SessionEvent
  | cmd (c : EditCmd)
  | mouse (m : MouseInput)
  | click (x y : Nat)
  | focus (b : Bool)
  | area (a : Area)

/-- An event given to a field: the new field and the text which was cut. -/
def giveEvent (cw : Char → Nat) (alnum : Char → Bool) (f : InputField) : SessionEvent → Run (InputField × Text)
  | .cmd c => giveCmd cw f c
  | .mouse m => do
    let r ← f.applyMouseEvent cw alnum m.kind m.x m.y m.mods m.double
    some (r.1, [])
  | .click x y => do
    let r ← f.applyClickEvent cw x y
    some (r.1, [])
  | .focus b => do
    let f' ← f.setFocus cw b
    some (f', [])
  | .area a => do
    let f' ← f.setArea cw a
    some (f', [])

/-- The events given one after the other to a field. -/
def giveEvents (cw : Char → Nat) (alnum : Char → Bool) : InputField → List SessionEvent → Run (InputField × List Text)
  | f, [] => some (f, [])
  | f, e :: es => do
    let r ← giveEvent cw alnum f e
    let q ← giveEvents cw alnum r.1 es
    some (q.1, r.2 :: q.2)

/-- The first and last indexes of the word which has the character of index `x` of a line, if this character is in a word: words are made of letters,
digits and underscores. -/
def wordAround (alnum : Char → Bool) (l : Text) (x : Nat) : Option (Nat × Nat) :=
  let inWord := fun c => alnum c || c == '_'
  let right := ((l.drop x).takeWhile inWord).length
  let left := ((l.take x).reverse.takeWhile inWord).length
  if right = 0 then none else some (x - left, x + right - 1)

namespace SelDoc

/-- The text with the cursor at a line and column. -/
def putAt (d : SelDoc) (p : Pos) : Doc := ⟨d.text.take (indexIn d.text p), d.text.drop (indexIn d.text p)⟩

/-- The effect of a mouse event on a place of the text: a press moves the cursor there, without selection or, with shift, extending it; a drag extends the
selection to there; and the end of a double click selects the word which is there. -/
def mouse (alnum : Char → Bool) (d : SelDoc) (kind : MouseKind) (shift double : Bool) (p : Pos) : SelDoc :=
  match kind with
  | .downLeft => d.goto shift (d.putAt p)
  | .dragLeft => d.goto true (d.putAt p)
  | .upLeft =>
    if double then
      match wordAround alnum ((textLines d.text)[p.y]?.getD []) p.x with
      | some (first, last) => ⟨d.putAt ⟨p.y, last⟩, some ⟨p.y, first⟩⟩
      | none => ⟨d.putAt p, d.anchor⟩
    else d
  | _ => d

end SelDoc

/-- The state of the reference: an editor which has an area on screen, and has the focus or not. -/
structure FieldDoc where
  sel : SelDoc
  focused : Bool
  area : Area

namespace FieldDoc

/-- The cell is in the area. -/
def has (s : FieldDoc) (x y : Nat) : Bool :=
  decide (s.area.left ≤ x ∧ x < s.area.left + s.area.width ∧ s.area.top ≤ y ∧ y < s.area.top + s.area.height)

/-- The effect of an event, and the text which was cut, `p` being the place of the text where the mouse is. Keys need the focus, which is given by a
click. -/
def play (cw : Char → Nat) (alnum : Char → Bool) (newLine : List KeyComb) (s : FieldDoc) (e : SessionEvent) (p : Pos) : FieldDoc × Text :=
  match e with
  | .cmd (.key k) => (if s.focused then { s with sel := s.sel.press cw newLine s.area.height k } else s, [])
  | .cmd c =>
    let r := s.sel.edit cw newLine s.area.height c
    ({ s with sel := r.1 }, r.2)
  | .mouse m =>
    (if s.has m.x m.y then
      if s.focused then { s with sel := s.sel.mouse alnum m.kind (m.mods == .shift) m.double p } else { s with focused := m.kind == .downLeft }
    else s, [])
  | .click x y =>
    (if s.has x y then
      if s.focused then { s with sel := ⟨s.sel.putAt p, s.sel.anchor⟩ } else { s with focused := true }
    else s, [])
  | .focus b => ({ s with focused := b }, [])
  | .area a => ({ s with area := a }, [])

/-- All the events, with a place for each of them, and the cut texts. -/
def plays (cw : Char → Nat) (alnum : Char → Bool) (newLine : List KeyComb) (s : FieldDoc) : List (SessionEvent × Pos) → FieldDoc × List Text
  | [] => (s, [])
  | e :: es =>
    let r := s.play cw alnum newLine e.1 e.2
    let q := r.1.plays cw alnum newLine es
    (q.1, r.2 :: q.2)

end FieldDoc

/-- The areas given to a field have a column and are in the screen. -/
def AllowedEvent : SessionEvent → Prop
  | .area a => 1 ≤ a.width ∧ OnScreen a
  | _ => True

end Verif.Spec
