import Verif.Spec.Styled
/-! What other ways there are to break a line, for C70. -/
namespace Verif.Spec
open Verif

/-- A blank of a text with styles: a whitespace which isn't in code. -/
def blank (ws : Char → Bool) (p : Char × Flags) : Bool := ws p.1 && !p.2.code

/-- `CutAtBlanks cs ps`: `ps` is made of the compounds `cs`, some of them cut in parts before or after blanks. -/
inductive CutAtBlanks (ws : Char → Bool) : List Compound → List Compound → Prop
  | nil : CutAtBlanks ws [] []
  | whole (c : Compound) (cs ps : List Compound) : CutAtBlanks ws cs ps → CutAtBlanks ws (c :: cs) (c :: ps)
  | cut (c : Compound) (u v : Text) (cs ps : List Compound) : c.src = u ++ v →
      ((∃ u' ch, u = u' ++ [ch] ∧ blank ws (ch, c.flags) = true) ∨ ∃ ch v', v = ch :: v' ∧ blank ws (ch, c.flags) = true) →
      CutAtBlanks ws ({ c with src := v } :: cs) ps → CutAtBlanks ws (c :: cs) ({ c with src := u } :: ps)

/-- What must be displayed of a line: the blanks at its start aren't needed, except for the first line, and those at
its end aren't needed, except for the last line. -/
def needed (ws : Char → Bool) (isFirst isLast : Bool) (l : List (Char × Flags)) : List (Char × Flags) :=
  let l := if isFirst then l else l.dropWhile (blank ws)
  if isLast then l else (l.reverse.dropWhile (blank ws)).reverse

/-- The columns of a part of a line. -/
def partCols (cw : Char → Nat) (l : List (Char × Flags)) : Nat := (l.map fun p => cw p.1).sum

/-- A way to display the compounds `cs` in several lines, without cutting words: what is needed of each line fits in the
width, after the bullet or indentation (`first` columns for the first line, `other` for the other ones). -/
structure Layout (cw : Char → Nat) (ws : Char → Bool) (first other width : Nat) (cs : List Compound) (lines : List (List Compound)) : Prop where
  nonempty : lines ≠ []
  same : CutAtBlanks ws cs lines.flatten
  fits : ∀ before l after, lines = before ++ l :: after →
    (if before = [] then first else other) + partCols cw (needed ws (decide (before = [])) (decide (after = [])) (styledChars l)) ≤ width

/-- The kind of the lines following the first one of a wrapped line. -/
def nextKind : Kind → Kind
  | .listItem d => .listItemFollowUp d
  | k => k

end Verif.Spec
