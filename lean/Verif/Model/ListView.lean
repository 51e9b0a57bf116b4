import Verif.Model.TextView
import Verif.Model.Spacing
/-! Model of `src/views/list_view.rs`. -/
namespace Verif

/-- `x as i32` for a `usize`: keeps the 32 lower bits. Built-in of Rust, used in src/views/list_view.rs 206-217 and 378. -/
def asI32 (n : Nat) : Int := if n % 4294967296 < 2147483648 then ((n % 4294967296 : Nat) : Int) else ((n % 4294967296 : Nat) : Int) - 4294967296

/-- The result of an `i32` operation: panics on overflow. Built-in of Rust, used in src/views/list_view.rs 206-217 and 378. -/
def i32Check (x : Int) : Run Int := if i32Min ≤ x ∧ x ≤ i32Max then some x else none

/-- `ListViewCell`, src/views/list_view.rs 33-37 and 78-83; the cached `width` is the number of characters. -/
structure ListCell where
  con : Text
  style : CompoundStyle := {}

/-- `ListViewColumn`, src/views/list_view.rs 43-49; `width` and `align` are the `spacing`. -/
structure ListColumn (T : Type) where
  title : Text
  minWidth : Nat
  maxWidth : Nat
  width : Nat
  align : Alignment
  extract : T → ListCell

/-- `ListViewColumn::new`, src/views/list_view.rs 87-103. -/
def ListColumn.new {T : Type} (title : Text) (minWidth maxWidth : Nat) (extract : T → ListCell) : ListColumn T :=
  { title, minWidth, maxWidth, width := minWidth, align := .center, extract }

/-- `ListViewColumn::with_align`, src/views/list_view.rs 104-107. -/
def ListColumn.withAlign {T : Type} (c : ListColumn T) (align : Alignment) : ListColumn T := { c with align }

/-- `Row`, src/views/list_view.rs 51-54. -/
structure ListRow (T : Type) where
  data : T
  displayed : Bool

/-- `ListView`, src/views/list_view.rs 65-77; the skin is given when writing. -/
structure ListView (T : Type) where
  titles : List (List Nat)
  columns : List (ListColumn T)
  rows : List (ListRow T) := []
  area : Area
  scroll : Nat := 0
  filter : Option (T → Bool) := none
  displayedCount : Nat := 0
  order : Option (T → T → Ordering) := none
  selection : Option Nat := none
  selectionBg : Color := gray 5

/-- The loop of `ListView::new` on the columns, src/views/list_view.rs 117-130: `names` are the titles of the columns, `rest` those
not yet seen, the first of which has the index `idx`. -/
def mergeTitles (names : List Text) : List Text → Nat → List (List Nat) → List (List Nat)
  | [], _, titles => titles
  | name :: rest, idx, titles =>
    match titles.getLast? with
    | some last =>
      if (last.head?.bind fun i => names[i]?) = some name then mergeTitles names rest (idx + 1) (titles.dropLast ++ [last ++ [idx]])
      else mergeTitles names rest (idx + 1) (titles ++ [[idx]])
    | none => mergeTitles names rest (idx + 1) (titles ++ [[idx]])

namespace ListView
variable {T : Type}

/-- `ListView::new`, src/views/list_view.rs 116-144. -/
def new (area : Area) (columns : List (ListColumn T)) : ListView T :=
  { titles := mergeTitles (columns.map (·.title)) (columns.map (·.title)) 0 [], columns, area }

/-- `ListView::sort`, src/views/list_view.rs 147-149: rows are sorted at the next addition only. -/
def sort (v : ListView T) (order : T → T → Ordering) : ListView T := { v with order := some order }

/-- `ListView::tbody_height`, src/views/list_view.rs 152-158. -/
def tbodyHeight (v : ListView T) : Nat := if v.area.height > 2 then v.area.height - 2 else v.area.height

/-- `ListView::scrollbar`, src/views/list_view.rs 164-171. -/
def scrollbar (v : ListView T) : Run (Option (Nat × Nat)) :=
  computeScrollbar (asU16 v.scroll) (asU16 v.displayedCount) v.tbodyHeight v.area.top

/-- `ListView::do_scroll_show_bottom`, src/views/list_view.rs 347-349. -/
def doScrollShowBottom (v : ListView T) : Bool := v.scroll + v.tbodyHeight ≥ v.displayedCount

/-- `ListView::scroll_to_bottom`, src/views/list_view.rs 351-358. -/
def scrollToBottom (v : ListView T) : ListView T :=
  { v with scroll := if v.displayedCount > v.tbodyHeight then v.displayedCount - v.tbodyHeight else 0 }

/-- The filter applied to a row, src/views/list_view.rs 174-177. -/
def accepts (v : ListView T) (data : T) : Bool :=
  match v.filter with
  | some f => f data
  | none => true

/-- The rows after an addition, src/views/list_view.rs 184-187: the stable sort of the standard library, for an order which is a total
order. -/
def insertRow (v : ListView T) (row : ListRow T) : List (ListRow T) :=
  match v.order with
  | some order => (v.rows ++ [row]).mergeSort fun a b => (order a.data b.data).isLE
  | none => v.rows ++ [row]

/-- `ListView::add_row`, src/views/list_view.rs 172-188. -/
def addRow (v : ListView T) (data : T) : ListView T :=
  let stick := v.order.isNone && v.doScrollShowBottom
  let displayed := v.accepts data
  let v1 := if displayed then { v with displayedCount := v.displayedCount + 1 } else v
  let v2 := if stick then v1.scrollToBottom else v1
  { v2 with rows := v2.insertRow ⟨data, displayed⟩ }

/-- `ListView::clear_rows`, src/views/list_view.rs 192-197. -/
def clearRows (v : ListView T) : ListView T := { v with rows := [], scroll := 0, displayedCount := 0, selection := none }

/-- `ListView::row_counts`, src/views/list_view.rs 199-201. -/
def rowCounts (v : ListView T) : Nat × Nat := (v.displayedCount, v.rows.length)

/-- Sum of the `min_width as i32`, src/views/list_view.rs 208. -/
def sumMinWidths : List (ListColumn T) → Int → Run Int
  | [], acc => some acc
  | c :: cs, acc => do
    let acc ← i32Check (acc + asI32 c.minWidth)
    sumMinWidths cs acc

/-- The distribution of the excess, src/views/list_view.rs 214-220; `d as usize` wraps. -/
def distribute : List (ListColumn T) → Int → Run (List (ListColumn T))
  | [], _ => some []
  | c :: cs, excess => do
    let diff ← csub c.maxWidth c.minWidth
    let excess' ← i32Check (excess - min (asI32 diff) excess)
    let rest ← distribute cs excess'
    if c.minWidth + (min (asI32 diff) excess % 18446744073709551616).toNat < 18446744073709551616 then
      some ({ c with width := c.minWidth + (min (asI32 diff) excess % 18446744073709551616).toNat } :: rest)
    else none

/-- `ListView::update_dimensions`, src/views/list_view.rs 204-224. -/
def updateDimensions (v : ListView T) : Run (ListView T) := do
  let seps ← i32Check (asI32 v.columns.length - 1)
  let a ← i32Check (v.area.width - seps)
  let available ← i32Check (a - 1)
  let sum ← sumMinWidths v.columns 0
  if sum ≥ available then some { v with columns := v.columns.map fun c => { c with width := c.minWidth } }
  else do
    let excess ← i32Check (available - sum)
    let columns ← distribute v.columns excess
    some { v with columns }

/-- `ListView::set_filter`, src/views/list_view.rs 225-236. -/
def setFilter (v : ListView T) (filter : T → Bool) : ListView T :=
  let rows := v.rows.map fun r => { r with displayed := filter r.data }
  { v with rows, scroll := 0, displayedCount := (rows.filter (·.displayed)).length, filter := some filter }

/-- `ListView::remove_filter`, src/views/list_view.rs 237-243. -/
def removeFilter (v : ListView T) : ListView T :=
  { v with rows := v.rows.map fun r => { r with displayed := true }, displayedCount := v.rows.length, filter := none }

/-- `ListView::make_selection_visible`, src/views/list_view.rs 431-443: `sel - tbody_height + 2` may underflow. -/
def makeSelectionVisible (v : ListView T) : Run (ListView T) :=
  if v.displayedCount ≤ v.tbodyHeight then some v
  else
    match v.selection with
    | some sel =>
      if sel ≤ v.scroll then some { v with scroll := if sel > 2 then sel - 2 else 0 }
      else if sel + 1 ≥ v.scroll + v.tbodyHeight then do
        let d ← csub sel v.tbodyHeight
        some { v with scroll := d + 2 }
      else some v
    | none => some v

/-- `ListView::try_scroll_lines`, src/views/list_view.rs 361-374: the negation of the least `i32` panics, and
`displayed_rows_count - tbody_height` may underflow. -/
def tryScrollLines (v : ListView T) (n : Int) : Run (ListView T) :=
  if n < 0 then
    if n = i32Min then none
    else makeSelectionVisible { v with scroll := if (-n).toNat ≥ v.scroll then 0 else v.scroll - (-n).toNat }
  else do
    let d ← csub v.displayedCount v.tbodyHeight
    makeSelectionVisible { v with scroll := min (v.scroll + n.toNat) (d + 1) }

/-- `ListView::try_scroll_pages`, src/views/list_view.rs 377-379: the product of `i32` may panic. -/
def tryScrollPages (v : ListView T) (n : Int) : Run (ListView T) := do
  let lines ← i32Check (n * v.tbodyHeight)
  v.tryScrollLines lines

/-- `self.rows[i].displayed`, src/views/list_view.rs 388, 398, 408 and 419, where the index is always in range. -/
def isDisplayed (v : ListView T) (i : Nat) : Bool := (v.rows[i]?.map (·.displayed)).getD false

/-- The second loop of `try_select_next`, src/views/list_view.rs 395-403: `unwrap` panics if there's a row and no selection. -/
def selectAfter (v : ListView T) (up : Bool) : Run (ListView T) :=
  if v.rows.length = 0 then some v
  else
    match v.selection with
    | none => none
    | some sel =>
      match (List.range v.rows.length).find? (fun i => v.isDisplayed (((if up then v.rows.length - 1 - i else i + 1) + sel) % v.rows.length)) with
      | some i => makeSelectionVisible { v with selection := some (((if up then v.rows.length - 1 - i else i + 1) + sel) % v.rows.length) }
      | none => some v

/-- `ListView::try_select_next`, src/views/list_view.rs 381-404. -/
def trySelectNext (v : ListView T) (up : Bool) : Run (ListView T) :=
  if v.displayedCount = 0 then some v
  else if v.displayedCount = 1 ∨ v.selection = none then
    match (List.range v.rows.length).find? (fun i => v.isDisplayed ((i + v.scroll) % v.rows.length)) with
    | some i => makeSelectionVisible { v with selection := some ((i + v.scroll) % v.rows.length) }
    | none => v.selectAfter up
  else v.selectAfter up

/-- `ListView::select_first_line`, src/views/list_view.rs 406-415. -/
def selectFirstLine (v : ListView T) : Run (ListView T) :=
  match (List.range v.rows.length).find? v.isDisplayed with
  | some i => makeSelectionVisible { v with selection := some i }
  | none => some { v with selection := none }

/-- `ListView::select_last_line`, src/views/list_view.rs 417-426. -/
def selectLastLine (v : ListView T) : Run (ListView T) :=
  match (List.range v.rows.length).reverse.find? v.isDisplayed with
  | some i => makeSelectionVisible { v with selection := some i }
  | none => some { v with selection := none }

/-- `ListView::get_selection`, src/views/list_view.rs 444-446: panics if the index isn't the one of a row. -/
def getSelection (v : ListView T) : Run (Option T) :=
  match v.selection with
  | none => some none
  | some sel => (v.rows[sel]?).map fun r => some r.data

/-- `ListView::has_selection`, src/views/list_view.rs 447-449. -/
def hasSelection (v : ListView T) : Bool := v.selection.isSome

/-- `ListView::unselect`, src/views/list_view.rs 450-452. -/
def unselect (v : ListView T) : ListView T := { v with selection := none }

/-- What is written in a row of the body, src/views/list_view.rs 296-335: the place of the cursor, then either a clear of the line or the index of the row of data
and the pieces, then the place and pieces of the scrollbar. -/
structure BodyRow where
  x : Nat
  y : Nat
  content : Option (Nat × List Piece)
  bar : Option (Nat × Nat × List Piece)
  deriving DecidableEq, Repr

/-- What is written by a list view, src/views/list_view.rs 254-336: the title line, the separator line and the rows. -/
structure Written where
  titles : WrittenRow
  rule : WrittenRow
  body : List BodyRow
  deriving DecidableEq, Repr

/-- `self.columns[i].spacing.width`, src/views/list_view.rs 263 and 287: panics if there's no such column. -/
def columnWidth (v : ListView T) (i : Nat) : Run Nat := (v.columns[i]?).map (·.width)

/-- The sum of the widths of the columns below a title, src/views/list_view.rs 260-265. -/
def sumWidths (v : ListView T) : List Nat → Run Nat
  | [] => some 0
  | i :: is => do
    let w ← v.columnWidth i
    let r ← sumWidths v is
    some (w + r)

/-- The titles, src/views/list_view.rs 256-276; `first` tells that there's no title before. -/
def writeTitles (v : ListView T) (skin : Skin) : Bool → List (List Nat) → Run (List Piece)
  | _, [] => some []
  | first, title :: rest => do
    let sum ← v.sumWidths title
    let width ← csub (sum + title.length) 1
    let i ← title.head?
    let c ← v.columns[i]?
    let more ← writeTitles v skin false rest
    some ((if first then [] else (StyledChar.new skin.table.style '│').display) ++
      [((skin.headers 0).style, (Spacing.mk width .center).writeStr c.title)] ++ more)

/-- The rule under a title, src/views/list_view.rs 283-290. -/
def writeTitleRule (v : ListView T) (skin : Skin) : Bool → List Nat → Run (List Piece)
  | _, [] => some []
  | first, i :: is => do
    let w ← v.columnWidth i
    let more ← writeTitleRule v skin false is
    some ((if first then [] else (StyledChar.new skin.table.style '┬').display) ++
      (List.replicate w (StyledChar.new skin.table.style '─').display).flatten ++ more)

/-- The separator line, src/views/list_view.rs 279-291. -/
def writeRule (v : ListView T) (skin : Skin) : Bool → List (List Nat) → Run (List Piece)
  | _, [] => some []
  | first, title :: rest => do
    let r ← v.writeTitleRule skin true title
    let more ← writeRule v skin false rest
    some ((if first then [] else (StyledChar.new skin.table.style '┼').display) ++ r ++ more)

/-- The cells of a row, src/views/list_view.rs 303-321. The background of the selection is set before the separators: it's the one
of the separator if it has none. -/
def writeCells (bg : Option Color) (skin : Skin) (data : T) : Bool → List (ListColumn T) → List Piece
  | _, [] => []
  | first, c :: cs =>
    let vbar := { skin.table.style with bg := skin.table.style.bg.or bg }
    let cell := c.extract data
    let style := match bg with
      | some color => cell.style.setBg color
      | none => cell.style
    (if first then [] else [(vbar, ['│'])]) ++
      [(style, (Spacing.mk c.width c.align).writeCountedStr cell.con cell.con.length)] ++ writeCells bg skin data false cs

/-- The loop looking for a displayed row, src/views/list_view.rs 297-326, on the suffix of the rows starting at an index. -/
def seekIn : List (ListRow T) → Nat → Option (Nat × ListRow T)
  | [], _ => none
  | r :: rs, idx => if r.displayed then some (idx, r) else seekIn rs (idx + 1)

/-- The search of the next displayed row, src/views/list_view.rs 297-326: panics for an index greater than the number of rows. -/
def seek (v : ListView T) (idx : Nat) : Run (Option (Nat × ListRow T)) :=
  if idx ≤ v.rows.length then some (seekIn (v.rows.drop idx) idx) else none

/-- The scrollbar in a row, src/views/list_view.rs 327-335. -/
def writeBar (skin : Skin) (bar : Option (Nat × Nat)) (sx top y : Nat) : Option (Nat × Nat × List Piece) :=
  match bar with
  | some (t, b) =>
    some (sx, top + y, if t ≤ y - 2 ∧ y - 2 ≤ b then skin.scrollbar.thumb.display else skin.scrollbar.track.display)
  | none => none

/-- The loop on the rows of the body, src/views/list_view.rs 295-336: number of remaining rows, row of the area, index of the row
of data. -/
def writeBody (v : ListView T) (skin : Skin) (bar : Option (Nat × Nat)) (sx : Nat) : Nat → Nat → Nat → Run (List BodyRow)
  | 0, _, _ => some []
  | n + 1, y, idx => do
    let top ← u16Add v.area.top y
    let found ← v.seek idx
    match found with
    | none => do
      let rest ← writeBody v skin bar sx n (y + 1) v.rows.length
      some (⟨v.area.left, top, none, writeBar skin bar sx v.area.top y⟩ :: rest)
    | some (i, row) => do
      let rest ← writeBody v skin bar sx n (y + 1) (i + 1)
      let bg := if some i = v.selection then some v.selectionBg else none
      some (⟨v.area.left, top, some (i, writeCells bg skin row.data true v.columns), writeBar skin bar sx v.area.top y⟩ :: rest)

/-- `ListView::write_on`, src/views/list_view.rs 245-338. -/
def writeOn (v : ListView T) (skin : Skin) : Run Written := do
  let sx ← u16Add v.area.left v.area.width
  let titles ← v.writeTitles skin true v.titles
  let y1 ← u16Add v.area.top 1
  let rule ← v.writeRule skin true v.titles
  let bar ← v.scrollbar
  let body ← v.writeBody skin bar sx (v.area.height - 2) 2 v.scroll
  some ⟨⟨v.area.left, v.area.top, titles⟩, ⟨v.area.left, y1, rule⟩, body⟩

end ListView
end Verif
