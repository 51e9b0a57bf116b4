import Verif.Spec.FmtText
/-! Specification of the place of the borders of a table. -/
namespace Verif

/-- The columns of the borders of a table which starts at column `n`, from the widths of its columns. -/
def Spec.borderCols : Nat → List Nat → List Nat
  | n, [] => [n]
  | n, w :: ws => n :: borderCols (n + 1 + w) ws

/-- The character `c` is drawn at the column `col` of the row. -/
def Spec.DrawnAt (cw : Char → Nat) (row : Text) (col : Nat) (c : Char) : Prop :=
  ∃ before after, row = before ++ c :: after ∧ textWidth cw before = col

/-- The borders of a drawn line of a table: on a row, vertical bars at all the given columns; on a rule, depending on its position, a
corner (or junction) at the first and last of them and junctions at the other ones, with horizontal bars between. -/
def Spec.Bordered (cw : Char → Nat) (t : TableBorderChars) (cols : List Nat) : FmtLine → Text → Prop
  | .tableRow _, row => ∀ col ∈ cols, DrawnAt cw row col t.vertical
  | .tableRule rule, row =>
    let chars := match rule.position with
      | .top => (t.topLeftCorner, t.topJunction, t.topRightCorner)
      | .other => (t.leftJunction, t.cross, t.rightJunction)
      | .bottom => (t.bottomLeftCorner, t.bottomJunction, t.bottomRightCorner)
    ∀ (i : Nat) col, cols[i]? = some col →
      DrawnAt cw row col (if i = 0 then chars.1 else if i + 1 = cols.length then chars.2.2 else chars.2.1) ∧
      ∀ next, cols[i + 1]? = some next → ∀ c, col < c → c < next → DrawnAt cw row c t.horizontal
  | _, _ => False

end Verif
