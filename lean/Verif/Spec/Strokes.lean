import Verif.Spec.Borders
import Verif.Spec.Rect
/-! What the characters used for borders look like, as said by their names in Unicode. -/
namespace Verif.Spec

/-- The sides of its cell reached by the lines of a character, from its middle. -/
structure Strokes where
  up : Bool := false
  right : Bool := false
  down : Bool := false
  left : Bool := false
  deriving DecidableEq, Repr

/-- The lines of the characters used for borders: "box drawings light ...", and the ASCII ones. -/
def strokes (c : Char) : Strokes :=
  if c = '─' ∨ c = '-' then { left := true, right := true }
  else if c = '│' ∨ c = '|' then { up := true, down := true }
  else if c = '┌' ∨ c = '╭' then { down := true, right := true }
  else if c = '┐' ∨ c = '╮' then { down := true, left := true }
  else if c = '└' ∨ c = '╰' then { up := true, right := true }
  else if c = '┘' ∨ c = '╯' then { up := true, left := true }
  else if c = '├' then { up := true, right := true, down := true }
  else if c = '┤' then { up := true, left := true, down := true }
  else if c = '┬' then { left := true, down := true, right := true }
  else if c = '┴' then { left := true, up := true, right := true }
  else if c = '┼' ∨ c = '+' then { up := true, right := true, down := true, left := true }
  else {}

/-- The two lines of the character are joined by an arc ("box drawings light arc ..."). -/
def isArc (c : Char) : Bool := c = '╭' || c = '╮' || c = '╯' || c = '╰'

/-- The quarters of its cell filled by a character. -/
structure Quarters where
  upLeft : Bool := false
  upRight : Bool := false
  downLeft : Bool := false
  downRight : Bool := false
  deriving DecidableEq, Repr

/-- The quarters filled by the block characters: "upper half block", "quadrant upper left and upper right and lower left", etc. -/
def quarters (c : Char) : Quarters :=
  if c = '▀' then { upLeft := true, upRight := true }
  else if c = '▄' then { downLeft := true, downRight := true }
  else if c = '▌' then { upLeft := true, downLeft := true }
  else if c = '▐' then { upRight := true, downRight := true }
  else if c = '▛' then { upLeft := true, upRight := true, downLeft := true }
  else if c = '▜' then { upLeft := true, upRight := true, downRight := true }
  else if c = '▙' then { upLeft := true, downLeft := true, downRight := true }
  else if c = '▟' then { upRight := true, downLeft := true, downRight := true }
  else {}

/-- The sets of border characters which can be chosen. -/
def PredefinedBorders (t : TableBorderChars) : Prop := t = .standard ∨ t = .ascii ∨ t = .rounded

/-- The cell is in the border of the area. -/
def InBorder (a : Area) (x y : Nat) : Prop :=
  InArea a x y ∧ (x = a.left ∨ x + 1 = a.left + a.width ∨ y = a.top ∨ y + 1 = a.top + a.height)

/-- A character of the row, at the given column, has lines as said. -/
def LineAt (cw : Char → Nat) (row : Text) (col : Nat) (p : Strokes → Prop) : Prop := ∃ c, DrawnAt cw row col c ∧ p (strokes c)

/-- The borders of the rows of a table, at the given columns, are drawn in one piece: those of a row and of the next one join. -/
def JoinedBelow (cw : Char → Nat) (cols : List Nat) (above below : Text) : Prop :=
  ∀ col ∈ cols, LineAt cw above col (·.down = true) ∧ LineAt cw below col (·.up = true)

/-- A rule is a line without hole from the first of the columns to the last one. -/
def Unbroken (cw : Char → Nat) (cols : List Nat) (row : Text) : Prop :=
  ∀ first last, cols.head? = some first → cols.getLast? = some last → ∀ x, first ≤ x → x < last →
    LineAt cw row x (·.right = true) ∧ LineAt cw row (x + 1) (·.left = true)

end Verif.Spec
