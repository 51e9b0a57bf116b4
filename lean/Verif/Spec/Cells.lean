import Verif.Model.TextView
import Verif.Spec.Area
import Verif.Spec.InputField
/-! Specification of what is on a terminal when rows of text, with wide characters, are written on it. -/
namespace Verif.Spec

/-- The cells of a terminal, by column and row: the style and the character which is there, and which of the columns of the
character it is. -/
abbrev Cells (σ : Type) := Nat → Nat → σ × Char × Nat

/-- Printing a character at some place: it replaces as many cells as it has columns. -/
def printChar (cw : Char → Nat) (x y : Nat) (s : σ) (c : Char) (g : Cells σ) : Cells σ :=
  fun x' y' => if y' = y ∧ x ≤ x' ∧ x' < x + cw c then (s, c, x' - x) else g x' y'

/-- Printing a text. -/
def printText (cw : Char → Nat) (y : Nat) (s : σ) : Nat → Text → Cells σ → Cells σ
  | _, [], g => g
  | x, c :: t, g => printText cw y s (x + cw c) t (printChar cw x y s c g)

/-- Printing pieces one after the other. -/
def printPieces (cw : Char → Nat) (y : Nat) : Nat → List (σ × Text) → Cells σ → Cells σ
  | _, [], g => g
  | x, p :: ps, g => printPieces cw y (x + textWidth cw p.2) ps (printText cw y p.1 x p.2 g)

/-- Printing rows: where each one starts, and its pieces. -/
def printRows (cw : Char → Nat) (rows : List (Nat × Nat × List (σ × Text))) (g : Cells σ) : Cells σ :=
  rows.foldl (fun g r => printPieces cw r.2.1 r.1 r.2.2 g) g

/-- The character at some column of a text, and which of its columns it is. -/
def columnOf (cw : Char → Nat) : List (σ × Char) → Nat → Option (σ × Char × Nat)
  | [], _ => none
  | p :: t, k => if k < cw p.2 then some (p.1, p.2, k) else columnOf cw t (k - cw p.2)

/-- The characters of pieces, with their styles. -/
def pieceChars (ps : List (σ × Text)) : List (σ × Char) := ps.flatMap fun p => p.2.map fun c => (p.1, c)

/-- What a view wrote is exactly its area: on any screen, each cell of the area then has the character which is at this column of its
row, and the other cells are as they were. -/
def FillsArea (cw : Char → Nat) (area : Area) (rows : List (Nat × Nat × List (σ × Text))) : Prop :=
  ∀ g x y,
    (InArea area x y → ∃ row cell, rows[y - area.top]? = some row ∧ columnOf cw (pieceChars row.2.2) (x - area.left) = some cell ∧
      printRows cw rows g x y = cell) ∧
    (¬ InArea area x y → printRows cw rows g x y = g x y)

/-- The areas have no common cell. -/
def Disjoint (a b : Area) : Prop := ∀ x y, ¬ (InArea a x y ∧ InArea b x y)

/-- The rows written by a text view. -/
def viewRows (rows : List WrittenRow) : List (Nat × Nat × List Piece) := rows.map fun r => (r.x, r.y, r.pieces)

/-- The rows written by an input field. -/
def fieldRows (rows : List InputField.Row) : List (Nat × Nat × List InputField.CellPiece) := rows.map fun r => (r.x, r.y, r.pieces)

end Verif.Spec
