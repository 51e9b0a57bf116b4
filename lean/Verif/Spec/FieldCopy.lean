import Verif.Model.FieldCopy
import Verif.Spec.InputField
/-! Specification vocabulary for the selection of an input field with the mouse. -/
namespace Verif
open InputField

/-- The text going from the character at a position to the one at another position, whatever their order, both included. -/
def TextBetween (ls : List Text) (p q : Pos) (s : Text) : Prop :=
  (p.y < q.y ∨ (p.y = q.y ∧ p.x ≤ q.x) → textBefore ls p ++ s = textBefore ls q ++ (textAfter ls q).take 1) ∧
    (q.y < p.y ∨ (q.y = p.y ∧ q.x ≤ p.x) → textBefore ls q ++ s = textBefore ls p ++ (textAfter ls p).take 1)

/-- An event which isn't a press of the left button, nor the end of a double click. -/
def NoPress (e : MouseInput) : Prop := e.kind ≠ .downLeft ∧ e.double = false

/-- An event which isn't a press of the left button, nor the end of a double click, nor a drag. -/
def NoSelect (e : MouseInput) : Prop := NoPress e ∧ e.kind ≠ .dragLeft

/-- The characters written in the style of the cursor. -/
def highlighted (ps : List CellPiece) : Text := ((ps.filter fun p => p.1 = .cursor).map Prod.snd).flatten

end Verif
