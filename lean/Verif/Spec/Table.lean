import Verif.Spec.Styled
/-! Specification of the formatting of tables. -/
namespace Verif

/-- Lines which are part of a table. -/
def IsTableLine : FmtLine → Prop
  | .tableRow _ => True
  | .tableRule _ => True
  | _ => False

instance : DecidablePred IsTableLine := fun l => by cases l <;> simp only [IsTableLine] <;> infer_instance

/-- Number of columns of a line of a table. -/
def lineColumns : FmtLine → Nat
  | .tableRow cells => cells.length
  | .tableRule rule => rule.aligns.length
  | _ => 0

/-- Number of columns of a table: the one of its longest line. -/
def tableColumns : List FmtLine → Nat
  | [] => 0
  | l :: ls => max (lineColumns l) (tableColumns ls)

/-- Number of columns which can be displayed with at least 3 characters and a border each. -/
def keptColumns (n width : Nat) : Nat := if 4 * n + 1 ≤ width then n else (width - 1) / 4

/-- `lines` is cut in tables (maximal sequences of table lines) and other lines; `out` is obtained by keeping the
other lines and replacing each table by one related to it by `R`. -/
inductive TablesFixed (R : List FmtLine → List FmtLine → Prop) : List FmtLine → List FmtLine → Prop
  | nil : TablesFixed R [] []
  | other {l lines out} : ¬ IsTableLine l → TablesFixed R lines out → TablesFixed R (l :: lines) (l :: out)
  | table {tbl tbl' lines out} : tbl ≠ [] → (∀ l ∈ tbl, IsTableLine l) →
      (∀ l, lines.head? = some l → ¬ IsTableLine l) → R tbl tbl' →
      TablesFixed R lines out → TablesFixed R (tbl ++ lines) (tbl' ++ out)

/-- Each line is replaced by a block of lines, in order. -/
inductive Blocks (R : FmtLine → List FmtLine → Prop) : List FmtLine → List FmtLine → Prop
  | nil : Blocks R [] []
  | cons {l b ls out} : R l b → Blocks R ls out → Blocks R (l :: ls) (b ++ out)

/-- The text of a cell of a row (nothing when the cell is missing). -/
def cellChars (cells : List FmtComposite) (ic : Nat) : List (Char × Flags) :=
  match cells[ic]? with
  | some c => styledChars c.compounds
  | none => []

/-- A line of a table of `nb` columns is replaced by lines with the same content: a rule stays a rule with the same
alignments, a row is replaced by one or several rows of `nb` cells in which each of the columns reads, from top to
bottom, as the original cell (only whitespace may have disappeared). -/
def LineKept (ws : Char → Bool) (nb : Nat) : FmtLine → List FmtLine → Prop
  | .tableRow cells, out => ∃ rows : List (List FmtComposite), out = rows.map .tableRow ∧ rows ≠ [] ∧
      (∀ r ∈ rows, r.length = nb) ∧
      ∀ ic, ic < nb →
        ink ws (rows.flatMap fun r => cellChars r ic) = ink ws (cellChars cells ic) ∧
        (rows.flatMap fun r => cellChars r ic).Sublist (cellChars cells ic)
  | .tableRule rule, out => ∃ rule' : FmtTableRule, out = [.tableRule rule'] ∧
      rule'.aligns.length = nb ∧
      ∀ ic, ic < nb → rule'.aligns[ic]? = some (rule.aligns.getD ic .unspecified)
  | _, _ => False

/-- The table fits in `width`: its columns have given widths, of at least 3, which leave room for the borders; all rows
have all the columns, with the spacing of the column and no longer content; all rules have these widths. -/
def Rectangular (width nb : Nat) (tbl : List FmtLine) : Prop :=
  ∃ widths : List Nat, widths.length = nb ∧ (∀ w ∈ widths, 3 ≤ w) ∧ widths.sum + nb + 1 ≤ width ∧
    ∀ line ∈ tbl,
      (∃ cells, line = .tableRow cells ∧ cells.length = nb ∧
        ∀ (ic : Nat) (c : FmtComposite), cells[ic]? = some c →
          ∃ w a, widths[ic]? = some w ∧ c.spacing = some ⟨w, a⟩ ∧ c.visibleLength ≤ w) ∨
      (∃ rule, line = .tableRule rule ∧ rule.widths = widths)

/-- The alignments given by the last rule of the beginning of a table, if there's one. -/
def lastAligns : List FmtLine → Option (List Alignment)
  | [] => none
  | l :: ls =>
    match lastAligns ls with
    | some a => some a
    | none =>
      match l with
      | .tableRule r => some r.aligns
      | _ => none

/-- In a table, a cell is aligned as said by the last rule above it, or centered if there's none. -/
def Aligned (tbl : List FmtLine) : Prop :=
  ∀ above cells below, tbl = above ++ .tableRow cells :: below →
    ∀ (ic : Nat) (c : FmtComposite), cells[ic]? = some c → ∃ w,
      c.spacing = some ⟨w, match lastAligns above with
        | some as => as.getD ic .center
        | none => .center⟩

/-- A rule which starts the table is drawn as a top border, one which ends it as a bottom border, and the other ones
as they were. -/
def RulesPlaced (tbl out : List FmtLine) : Prop :=
  ∀ (i : Nat) (rule : FmtTableRule), out[i]? = some (.tableRule rule) →
    (i = 0 → rule.position = .top) ∧
    (0 < i → i + 1 = out.length → rule.position = .bottom) ∧
    (0 < i → i + 1 < out.length → ∃ rule0, .tableRule rule0 ∈ tbl ∧ rule.position = rule0.position)

/-- `tbl` is a table of `lines`: a maximal sequence of table lines. -/
def IsTableOf (lines tbl : List FmtLine) : Prop :=
  tbl ≠ [] ∧ (∀ l ∈ tbl, IsTableLine l) ∧ ∃ before after, lines = before ++ tbl ++ after ∧
    (∀ l, before.getLast? = some l → ¬ IsTableLine l) ∧ (∀ l, after.head? = some l → ¬ IsTableLine l)

/-- A table with a shape that can be laid out in `width`: the characters of its cells take at most 3 columns (the
smallest width of a column), bullet or quote mark included, and if columns must be dropped, each row has cells in all the
kept columns or only cells of at most 3 columns. -/
def TableShape (cw : Char → Nat) (mode : IndentMode) (width : Nat) (tbl : List FmtLine) : Prop :=
  ∀ cells, .tableRow cells ∈ tbl →
    (∀ c ∈ cells, prefixCols mode c.kind ≤ 3 ∧ ∀ p ∈ styledChars c.compounds, prefixCols mode c.kind + cw p.1 ≤ 3) ∧
    (4 * tableColumns tbl + 1 ≤ width ∨ (width - 1) / 4 ≤ cells.length ∨ ∀ c ∈ cells, c.visibleLength ≤ 3)

end Verif
