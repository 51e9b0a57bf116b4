import Verif.Model.InputField
/-! Copy of the selection of an input field, and sequences of mouse events. -/
namespace Verif
namespace InputField

/-- `InputField::copy_selection`, src/views/input_field.rs 177-179. -/
def copySelection (f : InputField) : Run Text := f.content.selectionString

/-- A mouse event of crossterm and whether it's the second click of a double click (the parameters of
`InputField::apply_mouse_event`, src/views/input_field.rs 376). -/
structure MouseInput where
  kind : MouseKind
  x : Nat
  y : Nat
  mods : KeyMods
  double : Bool

/-- Successive calls of `InputField::apply_mouse_event`, src/views/input_field.rs 376-427. -/
def applyMouseEvents (cw : Char → Nat) (alnum : Char → Bool) (f : InputField) : List MouseInput → Run InputField
  | [] => some f
  | e :: es => do
    let r ← f.applyMouseEvent cw alnum e.kind e.x e.y e.mods e.double
    r.1.applyMouseEvents cw alnum es

end InputField
end Verif
