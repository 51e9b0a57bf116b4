import Verif.Model.Wrap
import Verif.Model.TblFit
/-! Model of `src/tbl.rs`. -/
namespace Verif

/-- `v.truncate(n)` then `push(d)` until the length is `n`. See src/tbl.rs 45-54. -/
def resizeTo (d : α) (n : Nat) (l : List α) : List α := l.take n ++ List.replicate (n - l.length) d

/-- `FmtTableRule::set_nbcols`, src/tbl.rs 44-55. -/
def FmtTableRule.setNbcols (r : FmtTableRule) (nbcols : Nat) : FmtTableRule :=
  { r with widths := resizeTo 0 nbcols r.widths, aligns := resizeTo .unspecified nbcols r.aligns }

/-- `Table`, src/tbl.rs 77-81. -/
structure Table where
  start : Nat
  height : Nat
  nbcols : Nat
  deriving DecidableEq, Repr

/-- The loop of src/tbl.rs 96-110: adds the missing cells, sets the number of columns of the rules, and lists the
cells seen by the fitter as (column, visible length). `nbcols` is at least the number of cells. -/
def prepareRows (nbcols : Nat) : List FmtLine → Run (List (Nat × Nat) × List FmtLine)
  | [] => some ([], [])
  | .tableRow cells :: rest => do
    let r ← prepareRows nbcols rest
    some ((cells.take nbcols).zipIdx.map (fun ci => (ci.2, ci.1.visibleLength)) ++ r.1,
      .tableRow (cells ++ List.replicate (nbcols - cells.length) FmtComposite.new) :: r.2)
  | .tableRule rule :: rest => do
    let r ← prepareRows nbcols rest
    some (r.1, .tableRule (rule.setNbcols nbcols) :: r.2)
  | _ => none

/-- The wrapping of a cell, src/tbl.rs 138-150: the new cell and the cells to add below. -/
def wrapCell (cw : Char → Nat) (ws : Char → Bool) (skin : Skin) (cell : FmtComposite) (w : Nat) :
    Run (FmtComposite × List FmtComposite) :=
  if cell.visibleLength > w then
    match hardWrapComposite cw ws skin cell w with
    | some (.ok (c :: more)) => some (c, more)
    | _ => none
  else some (cell, [])

/-- The loop on the existing cells of a row, src/tbl.rs 131-151. -/
def wrapCells (cw : Char → Nat) (ws : Char → Bool) (skin : Skin) :
    List FmtComposite → List Nat → Run (List (FmtComposite × List FmtComposite))
  | [], _ => some []
  | _ :: _, [] => none
  | c :: cs, w :: ws' => do
    let r ← wrapCell cw ws skin c w
    let rest ← wrapCells cw ws skin cs ws'
    some (r :: rest)

/-- The largest number of cells to add in a column, src/tbl.rs 152. -/
def nbNewLines (add : List (List FmtComposite)) : Nat := add.foldl (fun m l => max m l.length) 0

/-- A row to insert, src/tbl.rs 154-162. The code removes the cells from the end while it inserts the rows in reverse
order: row `inl` gets the cell of index `inl` of each column. Only existing cells have a column here. -/
def newRow (add : List (List FmtComposite)) (inl : Nat) : List FmtComposite :=
  add.map fun col => col.getD inl FmtComposite.new

/-- What becomes of a row: the row itself and the ones inserted after it, src/tbl.rs 128-165. -/
def splitRow (cw : Char → Nat) (ws : Char → Bool) (skin : Skin) (nbcols : Nat) (widths : List Nat)
    (cells : List FmtComposite) : Run (List (List FmtComposite)) := do
  let r ← wrapCells cw ws skin (cells.take nbcols) widths
  let row := r.map (·.1) ++ List.replicate (nbcols - cells.length) FmtComposite.new
  let add := r.map (·.2)
  some (row :: (List.range (nbNewLines add)).map (newRow add))

/-- The loop resizing the cells, src/tbl.rs 126-167. It is done in reverse order by the code so that insertions
don't change the next indices. -/
def splitRows (cw : Char → Nat) (ws : Char → Bool) (skin : Skin) (nbcols : Nat) (widths : List Nat) :
    List FmtLine → Run (List FmtLine)
  | [] => some []
  | .tableRow cells :: rest => do
    let rest' ← splitRows cw ws skin nbcols widths rest
    let rows ← splitRow cw ws skin nbcols widths cells
    some (rows.map .tableRow ++ rest')
  | line :: rest => do
    let rest' ← splitRows cw ws skin nbcols widths rest
    some (line :: rest')

/-- Setting the spacings of the first `nbcols` cells, src/tbl.rs 175-180: panics if cells are missing. -/
def setSpacings : List FmtComposite → List Nat → List Alignment → Run (List FmtComposite)
  | cells, [], _ => some cells
  | c :: cs, w :: ws, a :: as => do
    let rest ← setSpacings cs ws as
    some ({ c with spacing := some ⟨w, a⟩ } :: rest)
  | _, _, _ => none

/-- The position of a rule, src/tbl.rs 186-190: `idx` is `ir - self.start`. -/
def rulePosition (idx height : Nat) (p : RelPos) : RelPos :=
  if idx = 0 then .top else if idx = height - 1 then .bottom else p

/-- The final loop, src/tbl.rs 171-198. `height` is the number of lines of the table after insertions. -/
def alignRows (nbcols : Nat) (widths : List Nat) (colsRemoved : Bool) (height : Nat) :
    Nat → List Alignment → List FmtLine → Run (List FmtLine)
  | _, _, [] => some []
  | idx, aligns, .tableRow cells :: rest => do
    let cells' ← setSpacings cells widths aligns
    let rest' ← alignRows nbcols widths colsRemoved height (idx + 1) aligns rest
    some (.tableRow cells' :: rest')
  | idx, _, .tableRule rule :: rest =>
    let rule := if colsRemoved then rule.setNbcols nbcols else rule
    if rule.widths.length < nbcols ∨ rule.aligns.length < nbcols then none
    else do
      let rest' ← alignRows nbcols widths colsRemoved height (idx + 1) (rule.aligns.take nbcols) rest
      some (.tableRule { position := rulePosition idx height rule.position
                         widths := widths ++ rule.widths.drop nbcols
                         aligns := rule.aligns } :: rest')
  | _, _, _ => none

/-- The part of `fix_columns` after the widths are known, src/tbl.rs 121-198. -/
def layoutRows (cw : Char → Nat) (ws : Char → Bool) (skin : Skin) (nbcols : Nat) (widths : List Nat)
    (colsRemoved : Bool) (lines : List FmtLine) : Run (List FmtLine) := do
  let rows ← splitRows cw ws skin nbcols widths lines
  alignRows nbcols widths colsRemoved rows.length 0 (List.replicate nbcols .center) rows

/-- `Table::fix_columns` on the lines of the table, src/tbl.rs 86-198. -/
def fixTableLines (cw : Char → Nat) (ws : Char → Bool) (skin : Skin) (nbcols width : Nat) (lines : List FmtLine) :
    Run (List FmtLine) :=
  if nbcols = 0 ∨ width = 0 then some lines
  else do
    let f ← TblFit.new nbcols width
    match f with
    | some fit => do
      let p ← prepareRows nbcols lines
      let r ← (fit.seeCells p.1).fit
      layoutRows cw ws skin nbcols r.colWidths false p.2
    | none => do
      let w1 ← csub width 1
      layoutRows cw ws skin (w1 / 4) (List.replicate (w1 / 4) 3) true lines

/-- `Table::fix_columns`, src/tbl.rs 85-199: the index loops only touch the lines of the table and the insertions
are made between them. -/
def Table.fixColumns (cw : Char → Nat) (ws : Char → Bool) (skin : Skin) (width : Nat) (t : Table)
    (lines : List FmtLine) : Run (List FmtLine) := do
  let mid ← fixTableLines cw ws skin t.nbcols width ((lines.drop t.start).take t.height)
  some (lines.take t.start ++ mid ++ lines.drop (t.start + t.height))

/-- The number of columns of a table line, src/tbl.rs 208-233. -/
def FmtLine.tableCols : FmtLine → Option Nat
  | .tableRule rule => some rule.aligns.length
  | .tableRow cells => some cells.length
  | _ => none

/-- The loop of `find_tables`, src/tbl.rs 206-243. -/
def findTablesLoop : Nat → Option Table → List FmtLine → List Table
  | _, none, [] => []
  | _, some t, [] => [t]
  | idx, cur, line :: rest =>
    match line.tableCols with
    | some n =>
      match cur with
      | some b => findTablesLoop (idx + 1) (some { b with height := b.height + 1, nbcols := max b.nbcols n }) rest
      | none => findTablesLoop (idx + 1) (some ⟨idx, 1, n⟩) rest
    | none =>
      match cur with
      | some c => c :: findTablesLoop (idx + 1) none rest
      | none => findTablesLoop (idx + 1) none rest

/-- `find_tables`, src/tbl.rs 203-245. -/
def findTables (lines : List FmtLine) : List Table := findTablesLoop 0 none lines

/-- The loop of `fix_all_tables` on the reversed list of tables, src/tbl.rs 253-255. -/
def fixTables (cw : Char → Nat) (ws : Char → Bool) (skin : Skin) (width : Nat) :
    List Table → List FmtLine → Run (List FmtLine)
  | [], lines => some lines
  | t :: ts, lines => do
    let lines' ← t.fixColumns cw ws skin width lines
    fixTables cw ws skin width ts lines'

/-- `fix_all_tables`, src/tbl.rs 252-256. -/
def fixAllTables (cw : Char → Nat) (ws : Char → Bool) (skin : Skin) (width : Nat) (lines : List FmtLine) :
    Run (List FmtLine) :=
  fixTables cw ws skin width (findTables lines).reverse lines

end Verif
