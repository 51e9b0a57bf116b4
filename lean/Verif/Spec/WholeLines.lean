import Verif.Spec.Displayed
/-! Specification of tables and texts which have enough room: nothing is wrapped. -/
namespace Verif

/-- The width a column of a table needs: the one of its widest cell, and at least 3. -/
def Spec.columnNeed : List FmtLine → Nat → Nat
  | [], _ => 3
  | .tableRow cells :: tbl, ic => max (match cells[ic]? with | some c => c.visibleLength | none => 0) (columnNeed tbl ic)
  | _ :: tbl, ic => columnNeed tbl ic

/-- The widths the columns of a table need. -/
def Spec.columnNeeds (tbl : List FmtLine) : List Nat := (List.range (tableColumns tbl)).map (columnNeed tbl)

/-- The columns of the table have the width they need, with borders around each of them. -/
def Spec.TableFits (width : Nat) (tbl : List FmtLine) : Prop := (columnNeeds tbl).sum + tableColumns tbl + 1 ≤ width

/-- The alignment of a column below given lines of a table: the one said by the last rule, centered if there's no rule. -/
def Spec.columnAlign (above : List FmtLine) (ic : Nat) : Alignment :=
  match lastAligns above with
  | some as => as.getD ic .unspecified
  | none => .center

/-- The table laid out with the widths it needs. Lines are the same ones, in the same order:
* a row has all its cells, unchanged, then empty ones if there are columns without cell. Each cell is spaced to the width of its
  column and aligned as said by the last rule above it.
* a rule has the widths of the columns, its alignments, and is a top or bottom border if it's the first or last line. -/
def Spec.LaidOut (tbl out : List FmtLine) : Prop :=
  out.length = tbl.length ∧
  (∀ (i : Nat) cells, tbl[i]? = some (.tableRow cells) → ∃ cells', out[i]? = some (.tableRow cells') ∧
    cells'.length = tableColumns tbl ∧ ∀ (ic : Nat) c, cells'[ic]? = some c →
      c = { cells.getD ic FmtComposite.new with spacing := some ⟨columnNeed tbl ic, columnAlign (tbl.take i) ic⟩ }) ∧
  (∀ (i : Nat) rule, tbl[i]? = some (.tableRule rule) → out[i]? = some (.tableRule {
    position := if i = 0 then .top else if i + 1 = tbl.length then .bottom else rule.position
    widths := columnNeeds tbl
    aligns := (List.range (tableColumns tbl)).map fun ic => rule.aligns.getD ic .unspecified }))

/-- A text which has enough room: if there's a width, each line with its prefix and margins fits in it; the tables fit in it (or
in the largest width if there's none). -/
structure Spec.RoomyText (cw : Char → Nat) (skin : Skin) (width : Option Nat) (mlines : List MLine) : Prop where
  normal : ∀ kind cs, .normal kind cs ∈ mlines → DepthOk kind ∧ ∃ ls, styleOf skin kind = some ls ∧
    ∀ w, width = some w → prefixCols skin.indentMode kind + ((styledChars cs).map fun p => cw p.1).sum + marginSum ls w ≤ w
  cells : ∀ cells, .tableRow cells ∈ mlines → ∀ c ∈ cells, DepthOk c.1 ∧ styleOf skin c.1 ≠ none
  tables : ∀ tbl, IsTableOf (mlines.map (FmtLine.ofMLine skin cw)) tbl → TableFits (width.getD (2 ^ 64 - 1)) tbl

/-- The row displayed for a line of the source, when nothing is wrapped: between blanks, all its text, or all its cells (then empty
ones if the table has more columns) between borders, or a rule. -/
def Spec.ShownWhole (skin : Skin) (width : Option Nat) : MLine → Text → Prop
  | .normal kind cs, row => ShowsPart skin (kind, sourceText cs) row
  | .tableRow cells, row => ∃ n extra txts,
      Matched (ShowsPart skin) (cells.map (fun c => (c.1, sourceText c.2)) ++ List.replicate extra (.paragraph, [])) txts ∧
      row = List.replicate n ' ' ++ txts.flatMap (fun t => skin.tableBorderChars.vertical :: t) ++ [skin.tableBorderChars.vertical]
  | .tableRule _, row => ∃ n pos widths, row = List.replicate n ' ' ++ ruleText skin.tableBorderChars pos widths
  | .horizontalRule, row => row = List.replicate (width.getD 0) skin.horizontalRule.char
  | .codeFence, row => row = List.replicate (width.getD 0) skin.horizontalRule.char

end Verif
