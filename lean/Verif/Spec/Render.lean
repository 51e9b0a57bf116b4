import Verif.Spec.Lines
/-! Specification of the rendering of lines. -/
namespace Verif

/-- The text written, without its style. -/
def piecesText (ps : List Piece) : Text := ps.flatMap (·.2)

/-- Number of columns written. -/
def piecesCols (cw : Char → Nat) (ps : List Piece) : Nat := textWidth cw (piecesText ps)

/-- A skin whose bullet, quote mark, rules and borders take one column (as does the space), and whose special
characters have the width of the compounds they replace. -/
structure OneColumnSkin (cw : Char → Nat) (skin : Skin) : Prop where
  space : cw ' ' = 1
  bullet : cw skin.bullet.drawn.2 = 1
  quoteMark : cw skin.quoteMark.drawn.2 = 1
  rule : cw skin.horizontalRule.char = 1
  border : ∀ c ∈ [skin.tableBorderChars.horizontal, skin.tableBorderChars.vertical,
    skin.tableBorderChars.topLeftCorner, skin.tableBorderChars.topRightCorner,
    skin.tableBorderChars.bottomRightCorner, skin.tableBorderChars.bottomLeftCorner,
    skin.tableBorderChars.topJunction, skin.tableBorderChars.rightJunction,
    skin.tableBorderChars.bottomJunction, skin.tableBorderChars.leftJunction, skin.tableBorderChars.cross], cw c = 1
  special : ∀ c sc, skin.specialChars c = some sc → cw sc.drawn.2 = textWidth cw c.src

/-- Columns of a composite with its inner spacing. -/
def spacedCols (fc : FmtComposite) : Nat :=
  match fc.spacing with
  | some sp => sp.width
  | none => fc.visibleLength

/-- A composite which can be drawn: its kind has a style, its cached length is right, it's not larger than its
spacing (and its depth is not 255, the largest `u8`). -/
structure Drawable (cw : Char → Nat) (skin : Skin) (fc : FmtComposite) : Prop where
  styled : styleOf skin fc.kind ≠ none
  cached : fc.visibleLength = lineCols cw skin.indentMode fc
  fits : fc.visibleLength ≤ spacedCols fc
  depth : ∀ d, fc.kind = .listItemFollowUp d → d < 255

/-- A line which can be drawn. -/
def DrawableLine (cw : Char → Nat) (skin : Skin) : FmtLine → Prop
  | .normal fc => Drawable cw skin fc
  | .tableRow cells => ∀ c ∈ cells, Drawable cw skin c
  | .tableRule rule => rule.widths ≠ []
  | .horizontalRule => True

/-- Number of columns of a line before any completion, in a given width: content and spacing, margins, borders. -/
def ownCols (skin : Skin) (width : Nat) : FmtLine → Nat
  | .normal fc => spacedCols fc + ((styleOf skin fc.kind).map fun ls => marginSum ls width).getD 0
  | .tableRow cells => 1 + (cells.map fun c => spacedCols c + 1).sum
  | .tableRule rule => 1 + (rule.widths.map fun w => w + 1).sum
  | .horizontalRule => 0

/-- Bullet, quote mark or indentation, as text. -/
def prefixText (skin : Skin) : Kind → Text
  | .listItem d => List.replicate d ' ' ++ [skin.bullet.drawn.2, ' ']
  | .listItemFollowUp d => if skin.indentMode = .block then List.replicate (d + 2) ' ' else []
  | .quote => [skin.quoteMark.drawn.2, ' ']
  | _ => []

/-- The text of a composite: its prefix and its characters. -/
def compositeText (skin : Skin) (fc : FmtComposite) : Text :=
  prefixText skin fc.kind ++ (styledChars fc.compounds).map (·.1)

/-- `a` columns before and `b` after, in a room of `left` and `right` margins, for an alignment. -/
def Placed (align : Alignment) (left right a b : Nat) : Prop :=
  match align with
  | .left | .unspecified => a = left
  | .right => b = right
  | .center => left ≤ a ∧ right ≤ b ∧ (b - right = a - left ∨ b - right = a - left + 1)

/-- `txt` is the text of a cell: its composite placed in its spacing. -/
def CellText (skin : Skin) (c : FmtComposite) (txt : Text) : Prop :=
  ∃ a b, txt = List.replicate a ' ' ++ compositeText skin c ++ List.replicate b ' ' ∧
    a + c.visibleLength + b = spacedCols c ∧ ∀ sp, c.spacing = some sp → Placed sp.align 0 0 a b

/-- The text of a rule, whose columns have given widths, by position in the table: corners at the ends of the first and last
borders, junctions between columns. -/
def ruleText (t : TableBorderChars) (pos : RelPos) (widths : List Nat) : Text :=
  let dash (w : Nat) : Text := List.replicate w t.horizontal
  match pos with
  | .top => [t.topLeftCorner] ++ [t.topJunction].intercalate (widths.map dash) ++ [t.topRightCorner]
  | .other => [t.leftJunction] ++ [t.cross].intercalate (widths.map dash) ++ [t.rightJunction]
  | .bottom => [t.bottomLeftCorner] ++ [t.bottomJunction].intercalate (widths.map dash) ++ [t.bottomRightCorner]

end Verif
