import Verif.Model.Style
import Verif.Model.Spacing
/-! Model of `src/composite_kind.rs`, `src/composite.rs`, `src/line.rs`, `src/list_indentation.rs` and of the parts
of `src/skin.rs` which choose styles and compute lengths. -/
namespace Verif

/-- `CompositeKind`, src/composite_kind.rs 8-15. Depths and levels are `u8`. -/
inductive Kind
  | paragraph
  | header (level : Nat)
  | listItem (depth : Nat)
  | listItemFollowUp (depth : Nat)
  | code
  | quote
  deriving DecidableEq, Repr

/-- `ListItemsIndentationMode`, src/list_indentation.rs 8-12. -/
inductive IndentMode
  | firstLineOnly | block
  deriving DecidableEq, Repr

/-- `FmtComposite`, src/composite.rs 13-22. -/
structure FmtComposite where
  kind : Kind := .paragraph
  compounds : List Compound := []
  visibleLength : Nat := 0
  spacing : Option Spacing := none
  deriving DecidableEq, Repr

/-- `MadSkin`, src/skin.rs 36-60. The `headers` array has 8 entries (`minimad::MAX_HEADER_DEPTH`); the
`special_chars` map is its lookup function. -/
structure Skin where
  paragraph : LineStyle := {}
  bold : CompoundStyle := {}
  italic : CompoundStyle := {}
  strikeout : CompoundStyle := {}
  inlineCode : CompoundStyle := {}
  codeBlock : LineStyle := {}
  headers : Fin 8 → LineStyle := fun _ => {}
  scrollbar : ScrollBarStyle := ScrollBarStyle.new
  table : LineStyle := {}
  bullet : StyledChar := StyledChar.nude '•'
  quoteMark : StyledChar := StyledChar.nude '▐'
  horizontalRule : StyledChar := StyledChar.nude '―'
  ellipsis : CompoundStyle := {}
  tableBorderChars : TableBorderChars := TableBorderChars.standard
  indentMode : IndentMode := .block
  specialChars : Compound → Option StyledChar := fun _ => none

/-- Sum of `c.src.width()` over compounds, src/skin.rs 279. -/
def compoundsWidth (cw : Char → Nat) (cs : List Compound) : Nat := (cs.map fun c => textWidth cw c.src).sum

/-- `MadSkin::visible_composite_length`, src/skin.rs 274-289. -/
def Skin.visibleCompositeLength (skin : Skin) (cw : Char → Nat) (kind : Kind) (cs : List Compound) : Nat :=
  (match kind with
    | .listItem depth => 2 + depth
    | .listItemFollowUp depth =>
      match skin.indentMode with
      | .firstLineOnly => 0
      | .block => 2 + depth
    | .quote => 2
    | _ => 0) + compoundsWidth cw cs

/-- `MadSkin::line_style`, src/skin.rs 302-310. `level as usize - 1` underflows for a level of 0. -/
def Skin.lineStyle (skin : Skin) (kind : Kind) : Run LineStyle :=
  match kind with
  | .code => some skin.codeBlock
  | .header level =>
    if level ≤ 8 then
      (if h : 1 ≤ level ∧ level - 1 < 8 then some (skin.headers ⟨level - 1, h.2⟩) else none)
    else some skin.paragraph
  | _ => some skin.paragraph

/-- `MadSkin::compound_style`, src/skin.rs 314-332. -/
def Skin.compoundStyle (skin : Skin) (ls : LineStyle) (c : Compound) : CompoundStyle :=
  if c.src = ['…'] then skin.ellipsis
  else
    let os := ls.style
    let os := if c.flags.italic then os.overwriteWith skin.italic else os
    let os := if c.flags.strikeout then os.overwriteWith skin.strikeout else os
    let os := if c.flags.bold then os.overwriteWith skin.bold else os
    if c.flags.code then os.overwriteWith skin.inlineCode else os

namespace FmtComposite

/-- `FmtComposite::new`, src/composite.rs 25-32. -/
def new : FmtComposite := {}

/-- `FmtComposite::from`, src/composite.rs 33-41, on the kind and compounds of the minimad composite. -/
def ofComposite (skin : Skin) (cw : Char → Nat) (kind : Kind) (cs : List Compound) : FmtComposite :=
  { kind, compounds := cs, visibleLength := skin.visibleCompositeLength cw kind cs, spacing := none }

/-- `FmtComposite::completions`, src/composite.rs 50-55. -/
def completions (fc : FmtComposite) : Nat × Nat :=
  match fc.spacing with
  | some sp => sp.completionsFor fc.visibleLength
  | none => (0, 0)

/-- `FmtComposite::add_compound`, src/composite.rs 58-61. -/
def addCompound (cw : Char → Nat) (fc : FmtComposite) (c : Compound) : FmtComposite :=
  { fc with visibleLength := fc.visibleLength + textWidth cw c.src, compounds := fc.compounds ++ [c] }

/-- `FmtComposite::recompute_width`, src/composite.rs 67-69. -/
def recomputeWidth (skin : Skin) (cw : Char → Nat) (fc : FmtComposite) : FmtComposite :=
  { fc with visibleLength := skin.visibleCompositeLength cw fc.kind fc.compounds }

/-- `FmtComposite::extend_width`, src/composite.rs 83-92. -/
def extendWidth (fc : FmtComposite) (width : Nat) (align : Alignment) : FmtComposite :=
  match fc.spacing with
  | some sp => { fc with spacing := some { width := if sp.width < width then width else sp.width, align } }
  | none => if fc.visibleLength < width then { fc with spacing := some { width, align } } else fc

end FmtComposite

/-- `RelativePosition`, src/tbl.rs 26-30. -/
inductive RelPos
  | top | other | bottom
  deriving DecidableEq, Repr

/-- `FmtTableRule`, src/tbl.rs 37-41. -/
structure FmtTableRule where
  position : RelPos := .other
  widths : List Nat := []
  aligns : List Alignment
  deriving DecidableEq, Repr

/-- `FmtLine`, src/line.rs 19-24. A `FmtTableRow` is its list of cells. -/
inductive FmtLine
  | normal (fc : FmtComposite)
  | tableRow (cells : List FmtComposite)
  | tableRule (rule : FmtTableRule)
  | horizontalRule
  deriving DecidableEq, Repr

/-- `FmtLine::visible_length`, src/line.rs 43-50. -/
def FmtLine.visibleLength : FmtLine → Nat
  | .normal fc => fc.visibleLength
  | .tableRow cells => cells.foldl (fun s c => s + c.visibleLength) 0
  | .tableRule rule => 1 + rule.widths.foldl (fun s w => s + w + 1) 0
  | .horizontalRule => 0

end Verif
