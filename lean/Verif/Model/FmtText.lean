import Verif.Model.Table
import Verif.Model.Code
import Verif.Model.Render
/-! Model of `src/text.rs` and of `FmtLine::from` in `src/line.rs`. Parsing the markdown is done by the minimad crate, which
is not modelled: the input is its list of lines. -/
namespace Verif

/-- A `minimad::Line` (external type, re-declared): a composite is a kind and compounds, a table row a list of
composites, a table rule a list of alignments. -/
inductive MLine
  | normal (kind : Kind) (cs : List Compound)
  | tableRow (cells : List (Kind × List Compound))
  | tableRule (aligns : List Alignment)
  | horizontalRule
  | codeFence
  deriving DecidableEq, Repr

/-- `FmtLine::from`, src/line.rs 30-42, and `FmtTableRow::from`, src/tbl.rs 59-68. -/
def FmtLine.ofMLine (skin : Skin) (cw : Char → Nat) : MLine → FmtLine
  | .normal kind cs => .normal (FmtComposite.ofComposite skin cw kind cs)
  | .tableRow cells => .tableRow (cells.map fun c => FmtComposite.ofComposite skin cw c.1 c.2)
  | .tableRule aligns => .tableRule { position := .other, widths := [], aligns }
  | .horizontalRule => .horizontalRule
  | .codeFence => .horizontalRule

/-- `usize::MAX` on a 64 bits target. Used in src/text.rs 62. -/
def usizeMax : Nat := 2 ^ 64 - 1

/-- `FmtText`, src/text.rs 30-34, without the reference to the skin. -/
structure FmtText where
  lines : List FmtLine
  width : Option Nat
  deriving DecidableEq, Repr

/-- The wrapping of the lines of a text, src/text.rs 64-69. -/
def wrapText (cw : Char → Nat) (ws : Char → Bool) (skin : Skin) (width : Option Nat) (lines : List FmtLine) :
    Run (List FmtLine) :=
  match width with
  | some w =>
    if w ≥ 3 then
      match hardWrapLines cw ws skin w lines with
      | some (.ok ls) => some ls
      | _ => none
    else some lines
  | none => some lines

/-- `FmtText::from_text`, src/text.rs 52-71. -/
def FmtText.fromText (cw : Char → Nat) (ws : Char → Bool) (skin : Skin) (mlines : List MLine) (width : Option Nat) :
    Run FmtText := do
  let lines ← fixAllTables cw ws skin (width.getD usizeMax) (mlines.map (FmtLine.ofMLine skin cw))
  let lines' ← wrapText cw ws skin width (justifyBlocks lines)
  some { lines := lines', width }

/-- `FmtText::content_width`, src/text.rs 86-90. -/
def FmtText.contentWidth (t : FmtText) : Nat := t.lines.foldl (fun m l => max m l.visibleLength) 0

/-- `FmtText::set_rendering_width`, src/text.rs 83-85. -/
def FmtText.setRenderingWidth (t : FmtText) (width : Nat) : FmtText := { t with width := some width }

/-- `Display for FmtText`, src/text.rs 93-101: what is written for each line. -/
def FmtText.display (skin : Skin) (t : FmtText) : Run (List (List Piece)) :=
  t.lines.mapM fun l => skin.writeFmtLine l t.width false

end Verif
