import Verif.Spec.InputField
/-! Specification of what a field may do when it says that an event wasn't used. -/
namespace Verif.Spec
open InputField

/-- The keys which don't edit: those which move the cursor, and those without role. -/
def MovingCode : KeyCode → Prop
  | .backspace | .delete | .char _ => False
  | _ => True

/-- The operation is a key which doesn't edit, with or without the shift modifier. -/
def IsMove (shift : Bool) : FieldOp → Prop
  | .key k => k.others = [] ∧ k.mods = (if shift then .shift else .none) ∧ MovingCode k.code
  | .keycode code s => s = shift ∧ MovingCode code
  | .event (.key code mods) _ => mods = (if shift then .shift else .none) ∧ MovingCode code
  | _ => False

/-- The field without selection. -/
def unselected (f : InputField) : InputField := { f with content := { f.content with tail := none } }

/-- The field with its selection, or an empty one at the cursor. -/
def selecting (f : InputField) : InputField := { f with content := { f.content with tail := some (f.content.tail.getD f.content.pos) } }

end Verif.Spec
