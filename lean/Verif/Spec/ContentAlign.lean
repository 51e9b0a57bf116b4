import Verif.Spec.Rendering
/-! Specification of the place of the lines of a text which is aligned on its content, as in `examples/content-align/main.rs`. -/
namespace Verif

/-- A skin without margins. -/
def Spec.NoMargins (skin : Skin) : Prop := ∀ kind ls, styleOf skin kind = some ls → ls.leftMargin = 0 ∧ ls.rightMargin = 0

/-- What is written for a line of a text whose content takes `width` columns: a rule fills this width; another line is all in the width, on the
left of it, on the right of it, or in its middle (with one more column on the right if needed). -/
def Spec.OnContent (cw : Char → Nat) (skin : Skin) (width : Nat) (line : FmtLine) (written : List Piece) : Prop :=
  piecesCols cw written ≤ width ∧
  match line with
  | .horizontalRule => piecesText written = List.replicate width skin.horizontalRule.char
  | line => ∃ (before : Nat) (content : List Piece) (after : Nat), written = spaces skin.paragraph.style before ++ content ∧
      piecesCols cw content = contentCols line ∧ before + contentCols line + after = width ∧
      match alignOf skin line with
      | .left | .unspecified => before = 0
      | .center => after = before ∨ after = before + 1
      | .right => after = 0

end Verif
