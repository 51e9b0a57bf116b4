import Verif.Spec.Render
import Verif.Spec.Special
import Verif.Spec.Chunks
/-! Specification of the rectangle a block of code is displayed in. -/
namespace Verif.Spec

/-- The lines of a block of code, in the source. -/
def codeBlockOf (block : List (List Compound)) : List MLine := block.map (.normal .code)

/-- The columns of the text of a line. -/
def codeCols (cw : Char → Nat) (line : List Compound) : Nat := ((styledChars line).map fun p => cw p.1).sum

/-- The columns of the longest line of a block. -/
def longestCols (cw : Char → Nat) (block : List (List Compound)) : Nat := (block.map (codeCols cw)).foldr max 0

/-- What is written for a line of code in a rectangle of `m` columns which is after `x` columns: blanks in the style of paragraphs, the
text of the line, and blanks in the style of the code up to the right side of the rectangle. -/
def IsRowOfCode (cw : Char → Nat) (skin : Skin) (x m : Nat) (line : List Compound) (row : List Piece) : Prop :=
  ∃ n, codeCols cw line + n = m ∧
    row = repeatChar skin.paragraph.style ' ' x ++ line.map (drawnFor skin skin.codeBlock) ++ repeatChar skin.codeBlock.style ' ' n

/-- The rectangle of `m` columns is placed, with `x` columns before it and `y` after it: it's at its left margin when the width isn't known;
else, when the width is enough for it and its margins, it's aligned between its margins. -/
def RectanglePlaced (ls : LineStyle) (m x y : Nat) : Option Nat → Prop
  | none => x = ls.leftMargin
  | some w => ls.leftMargin + ls.rightMargin + 3 ≤ w → m + ls.leftMargin + ls.rightMargin ≤ w →
      x + m + y = w ∧ Placed ls.align ls.leftMargin ls.rightMargin x y

end Verif.Spec
