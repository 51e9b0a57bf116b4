import Verif.Model.FieldStyle
import Verif.Spec.InputField
/-! Specification of the styles of input fields. -/
namespace Verif
open InputField

/-- The style setters of an input field. -/
inductive FieldStyleOp
  | setNormalStyle (s : CompoundStyle)
  | setUnfocusedStyle (s : CompoundStyle)
  deriving DecidableEq

/-- One call of a setter, src/views/input_field.rs 154-161. -/
def FieldStyleOp.run (st : FieldStyles) : FieldStyleOp → FieldStyles
  | .setNormalStyle s => st.setNormalStyle s
  | .setUnfocusedStyle s => st.setUnfocusedStyle s

/-- The styles of a field after calls of the setters. -/
def styledBy (ops : List FieldStyleOp) : FieldStyles := ops.foldl FieldStyleOp.run FieldStyles.new

/-- The last normal style given to the field, the default style if none was given. -/
def Spec.normalStyle (ops : List FieldStyleOp) : CompoundStyle :=
  ((ops.filterMap fun | .setNormalStyle s => some s | _ => none).getLast?).getD {}

/-- The last unfocused style given to the field, the default style if none was given. -/
def Spec.unfocusedStyle (ops : List FieldStyleOp) : CompoundStyle :=
  ((ops.filterMap fun | .setUnfocusedStyle s => some s | _ => none).getLast?).getD {}

/-- The style of a cell. -/
def Spec.CellStyled (ops : List FieldStyleOp) (focused : Bool) (style : CompoundStyle) : CellStyle → Prop
  | .normal => style = if focused then Spec.normalStyle ops else Spec.unfocusedStyle ops
  | .cursor => focused = true ∧ style.fg = (Spec.normalStyle ops).fg ∧ style.bg = (Spec.normalStyle ops).bg ∧
      style.underline = (Spec.normalStyle ops).underline ∧
      ∀ a, style.hasAttr a = true ↔ a = .reverse ∨ (Spec.normalStyle ops).hasAttr a = true
  | .thumb => style = { fg := some (gray 21), bg := if focused then (Spec.normalStyle ops).bg else none }
  | .track => style = { fg := some (gray 5), bg := if focused then (Spec.normalStyle ops).bg else none }

end Verif
