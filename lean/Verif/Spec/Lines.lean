import Verif.Spec.Styled
/-! Specification vocabulary for lists of lines. -/
namespace Verif

/-- The style of lines of a given kind, when the skin has one (header levels are numbered from 1 to 8, deeper ones
are shown as paragraphs). -/
def styleOf (skin : Skin) : Kind → Option LineStyle
  | .code => some skin.codeBlock
  | .header 0 => none
  | .header (n + 1) => if h : n < 8 then some (skin.headers ⟨n, h⟩) else some skin.paragraph
  | _ => some skin.paragraph

/-- Sum of the margins of a line style in a given width: margins are ignored when they wouldn't leave 3 columns. -/
def marginSum (ls : LineStyle) (width : Nat) : Nat :=
  if ls.leftMargin + ls.rightMargin + 3 ≤ width then ls.leftMargin + ls.rightMargin else 0

/-- A line which doesn't have to be wrapped. -/
def Fits (skin : Skin) (width : Nat) : FmtLine → Prop
  | .normal fc => ∃ ls, styleOf skin fc.kind = some ls ∧ fc.visibleLength + marginSum ls width ≤ width
  | _ => True

/-- A line which can be wrapped: its kind has a style, its cached length is right, and once the margins removed the
bullet, quote mark or indentation leaves enough room for each character. -/
def Wrappable (cw : Char → Nat) (skin : Skin) (width : Nat) (fc : FmtComposite) : Prop :=
  ∃ ls, styleOf skin fc.kind = some ls ∧
    fc.visibleLength = lineCols cw skin.indentMode fc ∧
    prefixCols skin.indentMode fc.kind + marginSum ls width ≤ width ∧
    ∀ p ∈ styledChars fc.compounds, prefixCols skin.indentMode fc.kind + cw p.1 + marginSum ls width ≤ width

end Verif
