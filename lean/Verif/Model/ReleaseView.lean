import Verif.Model.TextView
import Verif.Model.Release
import Verif.Model.ReleaseList
import Verif.Model.ReleaseArea
/-! Model of the writing of lines (`src/skin.rs`), of `src/views/text_view.rs` and of `src/views/mad_view.rs` in a release build, for a 64 bits target.
The functions of these files which aren't here have no operation which may overflow for lists of less than `2^63` lines. -/
namespace Verif.Release

/-- The blanks and characters written before the compounds, src/skin.rs 534-551, release build: `depth + 1` wraps on `u8`. -/
def writePrefix (skin : Skin) (kind : Kind) : List Piece :=
  let space : Piece := (skin.paragraph.style, [' '])
  match kind with
  | .listItem depth => List.replicate depth space ++ skin.bullet.display ++ [space]
  | .listItemFollowUp depth => if skin.indentMode = .block then List.replicate ((depth + 1) % 256) space ++ [space] else []
  | .quote => skin.quoteMark.display ++ [space]
  | _ => []

/-- `MadSkin::write_fmt_composite`, src/skin.rs 513-574, release build. -/
def writeFmtComposite (skin : Skin) (fc : FmtComposite) (outer : Option Nat) (rightCompletion margins : Bool) :
    Run (List Piece) := do
  let ls ← skin.lineStyle fc.kind
  let m := if margins then ls.marginsIn outer else (0, 0)
  let pi := fc.completions
  let po := Spacing.optionalCompletions ls.align (fc.innerWidth + m.1 + m.2) outer
  some (repeatChar skin.paragraph.style ' ' (po.1 + m.1) ++
    repeatChar ls.style ' ' pi.1 ++
    writePrefix skin fc.kind ++
    fc.compounds.flatMap (skin.writeCompound ls) ++
    repeatChar ls.style ' ' pi.2 ++
    if rightCompletion then repeatChar skin.paragraph.style ' ' (po.2 + m.2) else [])

/-- The loop on the cells of a row, src/skin.rs 602-605, release build. -/
def writeCells (skin : Skin) : List FmtComposite → Run (List Piece)
  | [] => some []
  | c :: cs => do
    let p ← writeFmtComposite skin c none false false
    let rest ← writeCells skin cs
    some ((skin.table.style, [skin.tableBorderChars.vertical]) :: p ++ rest)

/-- `MadSkin::write_fmt_line`, src/skin.rs 580-661, release build: rules are written as in a debug build. -/
def writeFmtLine (skin : Skin) (line : FmtLine) (width : Option Nat) (rightCompletion : Bool) : Run (List Piece) :=
  match line with
  | .normal fc => writeFmtComposite skin fc width rightCompletion true
  | .tableRow cells => do
    let tblWidth := 1 + cells.foldl (fun sum c => sum + c.innerWidth + 1) 0
    let po := Spacing.optionalCompletions skin.table.align tblWidth width
    let ps ← writeCells skin cells
    some (repeatChar skin.paragraph.style ' ' po.1 ++ ps ++ [(skin.table.style, [skin.tableBorderChars.vertical])] ++
      if rightCompletion then repeatChar skin.paragraph.style ' ' po.2 else [])
  | .tableRule rule => skin.writeFmtLine (.tableRule rule) width rightCompletion
  | .horizontalRule => skin.writeFmtLine .horizontalRule width rightCompletion

/-- The width for the lines, src/views/text_view.rs 105-108, release build. -/
def viewWidth (v : TextView) (bar : Option (Nat × Nat)) : Nat :=
  match bar with
  | some _ => wsub v.area.width 1
  | none => v.area.width

/-- The text of a row, src/views/text_view.rs 112-117, release build. -/
def viewText (v : TextView) (skin : Skin) (width j : Nat) : Run (List Piece) :=
  match v.lines[v.scroll + j]? with
  | some line => writeFmtLine skin line (some width) true
  | none => do
    let chunks ← (Filling.fromChar ' ').queue width
    some (chunks.map fun t => (skin.paragraph.style, t))

/-- The loop on the rows, src/views/text_view.rs 109-125, release build. -/
def viewRows (v : TextView) (skin : Skin) (width : Nat) (bar : Option (Nat × Nat)) : Nat → Nat → Run (List WrittenRow)
  | 0, _ => some []
  | n + 1, j => do
    let ps ← viewText v skin width j
    let rest ← viewRows v skin width bar n (j + 1)
    some (⟨v.area.left, addU16 v.area.top j, ps ++ TextView.writeBar skin bar (addU16 v.area.top j)⟩ :: rest)

/-- `TextView::write_on`, src/views/text_view.rs 102-127, release build. `compute_scrollbar` (src/area.rs 117-154) is the same in both builds: its
conversions to `u16` are checked, and its other operations, on `usize`, don't overflow. -/
def viewWriteOn (v : TextView) (skin : Skin) : Run (List WrittenRow) := do
  let bar ← v.scrollbar
  viewRows v skin (viewWidth v bar) bar v.area.height 0

/-- `TextView::try_scroll_lines`, src/views/text_view.rs 144-155, release build: the negation of the least `i32` is itself. -/
def viewScrollLines (v : TextView) (n : Int) : TextView :=
  if n < 0 then
    let k := i32AsUsize (wrapI32 (-n))
    { v with scroll := if k ≥ v.scroll then 0 else wsub v.scroll k }
  else v.setScroll (wadd v.scroll (i32AsUsize n))

/-- `TextView::try_scroll_pages`, src/views/text_view.rs 159-168, release build. -/
def viewScrollPages (v : TextView) (pages : Flt) : TextView :=
  let lines := Flt.mul f64.round pages (.fin v.area.height)
  let lines := if lines.isNegative then lines.floor else lines.ceil
  viewScrollLines v lines.toI32

/-- `MadSkin::area_text`, src/skin.rs 365-367, release build. -/
def areaText (cw : Char → Nat) (ws : Char → Bool) (skin : Skin) (mlines : List MLine) (area : Area) : Run FmtText :=
  fromText cw ws skin mlines (some (wsub area.width 1))

/-- `MadSkin::write_in_area_on`, src/skin.rs 377-382, release build. -/
def writeInArea (cw : Char → Nat) (ws : Char → Bool) (skin : Skin) (mlines : List MLine) (area : Area) : Run (List WrittenRow) := do
  let t ← areaText cw ws skin mlines area
  viewWriteOn { area, lines := t.lines, showScrollbar := false } skin

/-- The text view built by the functions of `MadView`, src/views/mad_view.rs 40-42, 63-65 and 83-85, release build. -/
def madText (cw : Char → Nat) (ws : Char → Bool) (m : MadView) : Run TextView := do
  let t ← areaText cw ws m.skin m.mlines m.area
  some { area := m.area, lines := t.lines, scroll := m.scroll }

/-- `MadView::write_on`, src/views/mad_view.rs 39-45, release build. -/
def madWriteOn (cw : Char → Nat) (ws : Char → Bool) (m : MadView) : Run (List WrittenRow) := do
  let v ← madText cw ws m
  viewWriteOn v m.skin

/-- `MadView::try_scroll_lines`, src/views/mad_view.rs 62-68, release build. -/
def madScrollLines (cw : Char → Nat) (ws : Char → Bool) (m : MadView) (n : Int) : Run MadView := do
  let v ← madText cw ws m
  some { m with scroll := (viewScrollLines v n).scroll }

/-- `MadView::try_scroll_pages`, src/views/mad_view.rs 71-73, release build: the product of `i32` wraps. -/
def madScrollPages (cw : Char → Nat) (ws : Char → Bool) (m : MadView) (n : Int) : Run MadView :=
  madScrollLines cw ws m (wrapI32 (n * m.area.height))

end Verif.Release
