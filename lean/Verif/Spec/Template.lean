import Verif.Model.Template
import Verif.Spec.StyledDisplay
import Verif.Spec.Print
/-! Specification of the display of a template filled with values. -/
namespace Verif.Spec

/-- The markers around a part. -/
def partFlags : TemplatePart → Flags
  | .text _ flags => flags
  | .place _ flags => flags

/-- What must be read for a part: its text, or the value of its argument if there's one, or else the place itself. -/
def partText (values : List Text) : TemplatePart → Text
  | .text src _ => src
  | .place arg _ => values[arg.val]?.getD ['$', Char.ofNat ('0'.toNat + arg)]

/-- A part is shown as its text, in the style of its markers in a paragraph (or in the style of ellipses if it's nothing but an ellipsis). -/
def ShowsTemplatePart (skin : Skin) (values : List Text) (part : TemplatePart) (cells : List StyledCell) : Prop :=
  cells.map (·.1) = partText values part ∧
    ∀ c ∈ cells, if partText values part = ['…'] then c.2 = skin.ellipsis else Marked skin skin.paragraph (partFlags part) c.2

end Verif.Spec
