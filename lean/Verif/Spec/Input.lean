import Verif.Model.Input
/-! Specification vocabulary for the contents of input fields. -/
namespace Verif

/-- The text made of some lines. -/
def joinLines (ls : List Text) : Text := ['\n'].intercalate ls

/-- A position which exists in the lines: on a character or just after the last one of a line. -/
def ValidPos (ls : List Text) (p : Pos) : Prop := ∃ l, ls[p.y]? = some l ∧ p.x ≤ l.length

/-- The text before a position. -/
def textBefore (ls : List Text) (p : Pos) : Text := joinLines (ls.take p.y ++ [(ls[p.y]?.getD []).take p.x])

/-- The text from a position on. -/
def textAfter (ls : List Text) (p : Pos) : Text := joinLines ((ls[p.y]?.getD []).drop p.x :: ls.drop (p.y + 1))

/-- Characters which aren't stored in a line. -/
def NotStored (ch : Char) : Prop := ch = '\n' ∨ ch = '\r' ∨ ch = '\x08'

/-- A consistent content: there's at least one line, lines contain no special character, cursor and selection tail
are on existing positions. -/
structure Content.Valid (c : Content) : Prop where
  oneLine : c.lines ≠ []
  pos : ValidPos c.lines c.pos
  tail : ∀ t, c.tail = some t → ValidPos c.lines t
  clean : ∀ l ∈ c.lines, ∀ ch ∈ l, ¬ NotStored ch

/-- The text before the cursor. -/
def Content.before (c : Content) : Text := textBefore c.lines c.pos

/-- The text from the cursor on. -/
def Content.after (c : Content) : Text := textAfter c.lines c.pos

/-- What is kept of an inserted text: carriage returns and backspaces are removed. -/
def keptText (s : Text) : Text := s.filter fun ch => ch ≠ '\r' ∧ ch ≠ '\x08'

/-- Number of columns taken by a text in an input field: a tab is shown as two spaces. -/
def inputCols (cw : Char → Nat) (t : Text) : Nat := (t.map fun ch => if ch = '\t' then 2 else cw ch).sum

end Verif
