import Verif.Spec.StyledDisplay
import Verif.Spec.Render
/-! Specification of the place of the lines of a displayed text. -/
namespace Verif.Spec

/-- The margins which are applied in a width, if it's known: none if they wouldn't leave 3 columns. -/
def appliedMargins (ls : LineStyle) : Option Nat → Nat × Nat
  | none => (ls.leftMargin, ls.rightMargin)
  | some w => if ls.leftMargin + ls.rightMargin + 3 ≤ w then (ls.leftMargin, ls.rightMargin) else (0, 0)

/-- A row of `m` columns is placed after `a` columns: at the left margin if there's no width or if it's too long for it, else aligned between the
margins, in the width. -/
def RowPlaced (ls : LineStyle) (m a : Nat) (rendering : Option Nat) : Prop :=
  let (l, r) := appliedMargins ls rendering
  match rendering with
  | none => a = l
  | some w => if m + l + r ≤ w then a + m ≤ w ∧ Placed ls.align l r a (w - m - a) else a = l

/-- A row shows a part of a composite in its place: blanks, then the bullet, quote mark or indentation, then the characters, each one in its style,
and nothing after them. -/
def ShownInPlace (cw : Char → Nat) (skin : Skin) (rendering : Option Nat) (part : Kind × List (Char × Flags)) (row : List StyledCell) : Prop :=
  ∃ ls a shown, styleOf skin part.1 = some ls ∧
    row = List.replicate a (' ', skin.paragraph.style) ++ prefixCells skin part.1 ++ shown ∧
    Matched (StyledAs skin ls) part.2 shown ∧
    RowPlaced ls (prefixCols skin.indentMode part.1 + (part.2.map fun p => cw p.1).sum) a rendering

/-- The rows displayed for a line of the source which isn't a line of code nor of a table. -/
def PlacedRows (cw : Char → Nat) (ws : Char → Bool) (skin : Skin) (rendering : Option Nat) : MLine → List (List StyledCell) → Prop
  | .normal kind cs, rows => kind ≠ .code → ∃ first more, Matched (ShownInPlace cw skin rendering) ((kind, first) :: more) rows ∧
      (∀ p ∈ more, p.1 = match kind with | .listItem d => .listItemFollowUp d | k => k) ∧
      ReadsStyled ws (first ++ more.flatMap (·.2)) (styledChars cs)
  | _, _ => True

end Verif.Spec
