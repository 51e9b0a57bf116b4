import Verif.Model.Composite
/-! Specification vocabulary for styled text: what is on a line, independently of how it is cut in compounds. -/
namespace Verif

/-- The characters of a list of compounds, each with its style. -/
def styledChars (cs : List Compound) : List (Char × Flags) :=
  cs.flatMap fun c => c.src.map fun ch => (ch, c.flags)

/-- The characters of several lines, put end to end. -/
def linesChars (ls : List FmtComposite) : List (Char × Flags) := ls.flatMap fun l => styledChars l.compounds

/-- The visible (non whitespace) characters. -/
def ink (ws : Char → Bool) (t : List (Char × Flags)) : List (Char × Flags) := t.filter fun p => !ws p.1

/-- Columns taken by the bullet, quote mark or indentation of a line. -/
def prefixCols (mode : IndentMode) : Kind → Nat
  | .listItem d => d + 2
  | .listItemFollowUp d => if mode = .block then d + 2 else 0
  | .quote => 2
  | _ => 0

/-- Total number of columns of a line: its prefix and its characters. -/
def lineCols (cw : Char → Nat) (mode : IndentMode) (l : FmtComposite) : Nat :=
  prefixCols mode l.kind + ((styledChars l.compounds).map fun p => cw p.1).sum

end Verif
