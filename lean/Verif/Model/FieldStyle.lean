import Verif.Model.InputField
import Verif.Model.SkinOps
/-! Model of the styles of src/views/input_field.rs: the fields `focused_style`, `unfocused_style` and `cursor_style`, and their use in
the display. The rest of the input field is in Model/InputField. -/
namespace Verif
open InputField

/-- The style fields of `InputField`, src/views/input_field.rs 44-46. -/
structure FieldStyles where
  focused : CompoundStyle
  unfocused : CompoundStyle
  cursor : CompoundStyle
  deriving DecidableEq, Repr

namespace FieldStyles

/-- The styles of `InputField::new`, src/views/input_field.rs 78-81. -/
def new : FieldStyles where
  focused := {}
  unfocused := {}
  cursor := ({} : CompoundStyle).addAttr .reverse

/-- `InputField::set_normal_style`, src/views/input_field.rs 154-158. -/
def setNormalStyle (s : FieldStyles) (style : CompoundStyle) : FieldStyles :=
  { s with focused := style, cursor := style.addAttr .reverse }

/-- `InputField::set_unfocused_style`, src/views/input_field.rs 159-161. -/
def setUnfocusedStyle (s : FieldStyles) (style : CompoundStyle) : FieldStyles := { s with unfocused := style }

/-- The style of the text out of the cursor, src/views/input_field.rs 556-560. -/
def normal (s : FieldStyles) (focused : Bool) : CompoundStyle := if focused then s.focused else s.unfocused

/-- The style of the scrollbar, src/views/input_field.rs 573-581; the default skin is src/lib.rs 194-198. -/
def scrollbar (s : FieldStyles) (focused : Bool) : ScrollBarStyle :=
  if focused then
    match s.focused.bg with
    | some bg => Skin.default.scrollbar.setBg bg
    | none => Skin.default.scrollbar
  else Skin.default.scrollbar

/-- What is written for a piece of the display: `CompoundStyle::queue` with the style, or `StyledChar::queue` for the scrollbar,
src/views/input_field.rs 604-666. -/
def piece (s : FieldStyles) (focused : Bool) (p : CellPiece) : List Piece :=
  match p.1 with
  | .normal => [(s.normal focused, p.2)]
  | .cursor => [(s.cursor, p.2)]
  | .thumb => (s.scrollbar focused).thumb.display
  | .track => (s.scrollbar focused).track.display

/-- The styled pieces of a row of `InputField::display_on`. See src/views/input_field.rs 555-669. -/
def row (s : FieldStyles) (focused : Bool) (r : Row) : Nat × Nat × List Piece := (r.x, r.y, r.pieces.flatMap (s.piece focused))

/-- `InputField::display_on`, src/views/input_field.rs 555-669, with the styles: where the terminal cursor is moved for each row, what is
written there, and the returned position. -/
def displayOn (cw : Char → Nat) (s : FieldStyles) (f : InputField) : Run (List (Nat × Nat × List Piece) × Option (Nat × Nat)) :=
  let bar := s.scrollbar f.focused
  (f.displayOn cw (bar.thumb.char, bar.track.char)).map fun r => (r.1.map (s.row f.focused), r.2)

end FieldStyles
end Verif
