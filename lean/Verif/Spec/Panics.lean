import Verif.Spec.FmtText
import Verif.Spec.Lines
/-! Specification of the texts whose formatting panics. -/
namespace Verif.Spec

/-- What can be read in a markdown source: the kinds of the lines have a style (there are 8 levels of headers, from 1),
the depths of list items are less than 255, and the bullet or quote mark of a table cell, if it has one, takes at most 3
columns. -/
structure Readable (skin : Skin) (mlines : List MLine) : Prop where
  normal : ∀ kind cs, .normal kind cs ∈ mlines → DepthOk kind ∧ styleOf skin kind ≠ none
  cells : ∀ cells, .tableRow cells ∈ mlines → ∀ c ∈ cells,
    DepthOk c.1 ∧ styleOf skin c.1 ≠ none ∧ prefixCols skin.indentMode c.1 ≤ 3

/-- There's a line (not a table one) whose indentation and bullet don't hold in the width left by its margins. -/
def TooDeep (skin : Skin) (mlines : List MLine) (width : Nat) : Prop :=
  ∃ kind cs ls, .normal kind cs ∈ mlines ∧ styleOf skin kind = some ls ∧
    width < prefixCols skin.indentMode kind + marginSum ls width

/-- Wrapped in 3 columns, the cell takes several lines. -/
def CellWraps (cw : Char → Nat) (ws : Char → Bool) (skin : Skin) (c : FmtComposite) : Prop :=
  3 < c.visibleLength ∧ ∃ l0 l1 more, hardWrapComposite cw ws skin c 3 = some (.ok (l0 :: l1 :: more))

/-- A table with too many columns for the width, in which a row has cells for only a part of the kept columns, one of
them taking several lines. -/
def Ragged (cw : Char → Nat) (ws : Char → Bool) (skin : Skin) (width : Nat) (tbl : List FmtLine) : Prop :=
  width < 4 * tableColumns tbl + 1 ∧
  ∃ cells, .tableRow cells ∈ tbl ∧ cells.length < (width - 1) / 4 ∧ ∃ c ∈ cells, CellWraps cw ws skin c

end Verif.Spec
