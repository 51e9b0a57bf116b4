import Verif.Spec.FmtText
/-! Specification of the place of the lines of a text rendered in a width. -/
namespace Verif

/-- Number of columns of what is written for a line, without margins nor alignment. -/
def Spec.contentCols : FmtLine → Nat
  | .normal fc => spacedCols fc
  | .tableRow cells => 1 + (cells.map fun c => spacedCols c + 1).sum
  | .tableRule rule => 1 + (rule.widths.map fun w => w + 1).sum
  | .horizontalRule => 0

/-- The margins of a line: those of its style, if they let at least 3 columns. Tables have none. -/
def Spec.margins (skin : Skin) (width : Nat) : FmtLine → Nat × Nat
  | .normal fc =>
    match styleOf skin fc.kind with
    | some ls => if ls.leftMargin + ls.rightMargin + 3 ≤ width then (ls.leftMargin, ls.rightMargin) else (0, 0)
    | none => (0, 0)
  | _ => (0, 0)

/-- The alignment of a line: the one of its style, or the one of tables. -/
def Spec.alignOf (skin : Skin) : FmtLine → Alignment
  | .normal fc =>
    match styleOf skin fc.kind with
    | some ls => ls.align
    | none => .left
  | _ => skin.table.align

/-- How many of the free columns are before something aligned. -/
def Spec.share (align : Alignment) (free : Nat) : Nat :=
  match align with
  | .left | .unspecified => 0
  | .center => free / 2
  | .right => free

/-- The first column of a line rendered in a width. -/
def Spec.startCol (skin : Skin) (width : Nat) (line : FmtLine) : Nat :=
  (margins skin width line).1 +
    share (alignOf skin line) (width - (contentCols line + (margins skin width line).1 + (margins skin width line).2))

/-- Spaces, in one piece if there are some. -/
def Spec.spaces (style : CompoundStyle) (n : Nat) : List Piece :=
  match n with
  | 0 => []
  | n + 1 => [(style, List.replicate (n + 1) ' ')]

/-- What is written for a line, in a width, given what is its content. -/
def Spec.Rendered (skin : Skin) (width : Nat) : FmtLine → List Piece → List Piece → Prop
  | .horizontalRule, _, written => piecesText written = List.replicate width skin.horizontalRule.char
  | line, content, written => written = spaces skin.paragraph.style (startCol skin width line) ++ content

end Verif
