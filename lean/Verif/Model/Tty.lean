import Verif.Model.ListView
import Verif.Model.FieldStyle
import Verif.Model.Rect
/-! Model of what is queued on a writer, command by command, colors included (the rest of the model has only the texts with their styles). -/
namespace Verif

/-- What is queued on a writer: crossterm's `MoveTo`, `SetForegroundColor`, `SetBackgroundColor`, `Print`, `PrintStyledContent` and
`Clear(ClearType::UntilNewLine)`. They are external (crossterm), queued in src/views, src/fit, src/rect.rs and src/compound_style.rs 204-258. -/
inductive TtyCmd
  | moveTo (x y : Nat)
  | setFg (c : Color)
  | setBg (c : Color)
  | print (text : Text)
  | styled (style : CompoundStyle) (text : Text)
  | clearLine
  deriving DecidableEq, Repr

/-- A piece of the model is a `PrintStyledContent`, or the `Display` of a `StyledContent`, which is the same: `CompoundStyle::queue`,
src/compound_style.rs 204-211, `queue_str`, 215-220, `StyledChar::queue`, src/styled_char.rs 97-100. -/
def Piece.cmd (p : Piece) : TtyCmd := .styled p.1 p.2

/-- `CompoundStyle::queue_bg`, src/compound_style.rs 232-240. -/
def CompoundStyle.queueBg (s : CompoundStyle) : List TtyCmd :=
  match s.bg with
  | some c => [.setBg c]
  | none => []

/-- `CompoundStyle::queue_fg`, src/compound_style.rs 222-230. -/
def CompoundStyle.queueFg (s : CompoundStyle) : List TtyCmd :=
  match s.fg with
  | some c => [.setFg c]
  | none => []

/-- `CompoundStyle::clear`, src/compound_style.rs 251-258, until the end of the line. -/
def CompoundStyle.clear (s : CompoundStyle) : List TtyCmd := s.queueBg ++ [.clearLine]

/-- `fill_bg`, src/fit/mod.rs 36-43. -/
def fillBg (len : Nat) (bg : Color) : Run (List TtyCmd) := do
  let chunks ← (Filling.fromChar ' ').queue len
  some (.setBg bg :: chunks.map .print)

/-- A row: the move of the cursor and the pieces. See src/views/text_view.rs 102-127 and src/views/input_field.rs 555-669. -/
def rowCmds (x y : Nat) (pieces : List Piece) : List TtyCmd := .moveTo x y :: pieces.map Piece.cmd

/-- `TextView::write_on`, src/views/text_view.rs 102-127. -/
def TextView.cmds (v : TextView) (skin : Skin) : Run (List TtyCmd) :=
  (v.writeOn skin).map fun rows => rows.flatMap fun r => rowCmds r.x r.y r.pieces

/-- `InputField::display_on`, src/views/input_field.rs 555-669: the background is reset first, line 572. -/
def FieldStyles.cmds (cw : Char → Nat) (s : FieldStyles) (f : InputField) : Run (List TtyCmd) :=
  (s.displayOn cw f).map fun r => .setBg .reset :: r.1.flatMap fun row => rowCmds row.1 row.2.1 row.2.2

/-- `Rect::draw`, src/rect.rs 99-135. -/
def Rect.cmds (r : Rect) : Run (List TtyCmd) :=
  r.draw.map fun cmds => cmds.map fun c =>
    match c with
    | .moveTo x y => .moveTo x y
    | .print style text => .styled style text

namespace ListView
variable {T : Type}

/-- The cells of a row, src/views/list_view.rs 301-321: the background of the selection is queued before the separators. -/
def cellsCmds (v : ListView T) (skin : Skin) (selected : Bool) (data : T) : Bool → List (ListColumn T) → List TtyCmd
  | _, [] => []
  | first, c :: cs =>
    let cell := c.extract data
    (if first then [] else (if selected then [.setBg v.selectionBg] else []) ++ (StyledChar.new skin.table.style '│').display.map Piece.cmd) ++
      [.styled (if selected then cell.style.setBg v.selectionBg else cell.style)
        ((Spacing.mk c.width c.align).writeCountedStr cell.con cell.con.length)] ++ cellsCmds v skin selected data false cs

/-- The scrollbar in a row, src/views/list_view.rs 327-335. -/
def barCmds (skin : Skin) (bar : Option (Nat × Nat)) (sx top y : Nat) : List TtyCmd :=
  match bar with
  | some (t, b) =>
    .moveTo sx (top + y) :: (if t ≤ y - 2 ∧ y - 2 ≤ b then skin.scrollbar.thumb else skin.scrollbar.track).display.map Piece.cmd
  | none => []

/-- The loop on the rows of the body, src/views/list_view.rs 295-336. -/
def bodyCmds (v : ListView T) (skin : Skin) (bar : Option (Nat × Nat)) (sx : Nat) : Nat → Nat → Nat → Run (List TtyCmd)
  | 0, _, _ => some []
  | n + 1, y, idx => do
    let top ← u16Add v.area.top y
    let found ← v.seek idx
    match found with
    | none => do
      let rest ← bodyCmds v skin bar sx n (y + 1) v.rows.length
      some (.moveTo v.area.left top :: .clearLine :: (barCmds skin bar sx v.area.top y ++ rest))
    | some (i, row) => do
      let rest ← bodyCmds v skin bar sx n (y + 1) (i + 1)
      some (.moveTo v.area.left top :: (v.cellsCmds skin (some i = v.selection) row.data true v.columns ++ (barCmds skin bar sx v.area.top y ++ rest)))

/-- `ListView::write_on`, src/views/list_view.rs 245-338. -/
def cmds (v : ListView T) (skin : Skin) : Run (List TtyCmd) := do
  let sx ← u16Add v.area.left v.area.width
  let titles ← v.writeTitles skin true v.titles
  let y1 ← u16Add v.area.top 1
  let rule ← v.writeRule skin true v.titles
  let bar ← v.scrollbar
  let body ← v.bodyCmds skin bar sx (v.area.height - 2) 2 v.scroll
  some (rowCmds v.area.left v.area.top titles ++ rowCmds v.area.left y1 rule ++ body)

end ListView
end Verif
