import Verif.Model.FmtText
import Verif.Spec.Table
import Verif.Spec.Render
/-! Specification vocabulary for whole texts. -/
namespace Verif

/-- Depths of list items are less than 255. -/
def DepthOk (k : Kind) : Prop := ∀ d, k = .listItem d ∨ k = .listItemFollowUp d → d < 255

/-- A composite of the source which has its place in a text of the given width: its kind has a style and
* if it's code, it's not larger than the width minus the margins,
* otherwise its margins and bullet, quote mark or indentation leave room for each of its characters. -/
def CompositeOk (cw : Char → Nat) (skin : Skin) (width : Nat) (kind : Kind) (cs : List Compound) : Prop :=
  DepthOk kind ∧ ∃ ls, styleOf skin kind = some ls ∧
    (kind = .code → ((styledChars cs).map fun p => cw p.1).sum + marginSum ls width ≤ width) ∧
    prefixCols skin.indentMode kind + marginSum ls width ≤ width ∧
    ∀ p ∈ styledChars cs, prefixCols skin.indentMode kind + cw p.1 + marginSum ls width ≤ width

/-- The source texts which are rendered in the given width. -/
structure FittingText (cw : Char → Nat) (skin : Skin) (width : Nat) (mlines : List MLine) : Prop where
  normal : ∀ kind cs, .normal kind cs ∈ mlines → CompositeOk cw skin width kind cs
  cells : ∀ cells, .tableRow cells ∈ mlines → ∀ c ∈ cells, DepthOk c.1 ∧ styleOf skin c.1 ≠ none
  tables : ∀ tbl, IsTableOf (mlines.map (FmtLine.ofMLine skin cw)) tbl →
    TableShape cw skin.indentMode width tbl ∧ 0 < keptColumns (tableColumns tbl) width

end Verif
