import Verif.Model.FmtText
/-! Model of the formatting of a text in a release build: `debug_assert!` does nothing and the subtractions of `usize` wrap instead of panicking.
Only what calls `hard_wrap_composite` is different from the model of the debug build; the subtractions of the table fitter never underflow (C06), so
that its model is the one of the debug build. -/
namespace Verif.Release

/-- `a - b` on `usize` in a release build, 64 bits target: wraps on underflow. The operands are supposed to be less than `2^64`.
Built-in of Rust, not a part of termimad. -/
def wsub (a b : Nat) : Nat := if b ≤ a then a - b else 2 ^ 64 + a - b

/-- `hard_wrap_composite`, src/fit/wrap.rs 61-124, release build: no assertion (line 71), and line 105 wraps. -/
def hardWrapComposite (cw : Char → Nat) (ws : Char → Bool) (skin : Skin) (src : FmtComposite) (width : Nat) :
    Run (Except InsufficientWidth (List FmtComposite)) :=
  if width < 3 then some (.error ⟨width⟩)
  else
    let ws12 := compositeKindWidths skin src.kind
    let dst : FmtComposite :=
      { kind := src.kind, compounds := [], visibleLength := ws12.1, spacing := src.spacing }
    match cleanCut cw ws ws12.1 ws12.2 width src.compounds with
    | some (a, b) =>
      let dst' := dst.addCompound cw a
      some (.ok [dst', (followUpComposite skin dst').addCompound cw b])
    | none => do
      let ls ← wrapTokens cw skin width dst (tokenize cw ws src.compounds (wsub width ws12.1))
      some (.ok ls)

/-- What `hard_wrap_lines` does of a normal line, src/fit/wrap.rs 140-147, release build. -/
def hardWrapLine (cw : Char → Nat) (ws : Char → Bool) (skin : Skin) (width : Nat) (fc : FmtComposite) :
    Run (Except InsufficientWidth (List FmtComposite)) := do
  let ls ← skin.lineStyle fc.kind
  let m := ls.marginsIn (some width)
  if fc.visibleLength + m.1 + m.2 ≤ width then some (.ok [fc])
  else hardWrapComposite cw ws skin fc (wsub (wsub width m.1) m.2)

/-- `hard_wrap_lines`, src/fit/wrap.rs 131-153, release build. -/
def hardWrapLines (cw : Char → Nat) (ws : Char → Bool) (skin : Skin) (width : Nat) :
    List FmtLine → Run (Except InsufficientWidth (List FmtLine))
  | [] => some (.ok [])
  | .normal fc :: rest => do
    let r ← hardWrapLine cw ws skin width fc
    match r with
    | .error e => some (.error e)
    | .ok fcs => do
      let r' ← hardWrapLines cw ws skin width rest
      match r' with
      | .error e => some (.error e)
      | .ok ls => some (.ok (fcs.map .normal ++ ls))
  | line :: rest => do
    let r' ← hardWrapLines cw ws skin width rest
    match r' with
    | .error e => some (.error e)
    | .ok ls => some (.ok (line :: ls))

/-- The wrapping of a cell, src/tbl.rs 138-150, release build. -/
def wrapCell (cw : Char → Nat) (ws : Char → Bool) (skin : Skin) (cell : FmtComposite) (w : Nat) :
    Run (FmtComposite × List FmtComposite) :=
  if cell.visibleLength > w then
    match hardWrapComposite cw ws skin cell w with
    | some (.ok (c :: more)) => some (c, more)
    | _ => none
  else some (cell, [])

/-- The loop on the existing cells of a row, src/tbl.rs 131-151, release build. -/
def wrapCells (cw : Char → Nat) (ws : Char → Bool) (skin : Skin) :
    List FmtComposite → List Nat → Run (List (FmtComposite × List FmtComposite))
  | [], _ => some []
  | _ :: _, [] => none
  | c :: cs, w :: ws' => do
    let r ← wrapCell cw ws skin c w
    let rest ← wrapCells cw ws skin cs ws'
    some (r :: rest)

/-- What becomes of a row, src/tbl.rs 128-165, release build. -/
def splitRow (cw : Char → Nat) (ws : Char → Bool) (skin : Skin) (nbcols : Nat) (widths : List Nat)
    (cells : List FmtComposite) : Run (List (List FmtComposite)) := do
  let r ← wrapCells cw ws skin (cells.take nbcols) widths
  let row := r.map (·.1) ++ List.replicate (nbcols - cells.length) FmtComposite.new
  let add := r.map (·.2)
  some (row :: (List.range (nbNewLines add)).map (newRow add))

/-- The loop resizing the cells, src/tbl.rs 126-167, release build. -/
def splitRows (cw : Char → Nat) (ws : Char → Bool) (skin : Skin) (nbcols : Nat) (widths : List Nat) :
    List FmtLine → Run (List FmtLine)
  | [] => some []
  | .tableRow cells :: rest => do
    let rest' ← splitRows cw ws skin nbcols widths rest
    let rows ← splitRow cw ws skin nbcols widths cells
    some (rows.map .tableRow ++ rest')
  | line :: rest => do
    let rest' ← splitRows cw ws skin nbcols widths rest
    some (line :: rest')

/-- The part of `fix_columns` after the widths are known, src/tbl.rs 121-198, release build: the accesses by index panic as in a debug build. -/
def layoutRows (cw : Char → Nat) (ws : Char → Bool) (skin : Skin) (nbcols : Nat) (widths : List Nat)
    (colsRemoved : Bool) (lines : List FmtLine) : Run (List FmtLine) := do
  let rows ← splitRows cw ws skin nbcols widths lines
  alignRows nbcols widths colsRemoved rows.length 0 (List.replicate nbcols .center) rows

/-- `Table::fix_columns` on the lines of the table, src/tbl.rs 86-198, release build. -/
def fixTableLines (cw : Char → Nat) (ws : Char → Bool) (skin : Skin) (nbcols width : Nat) (lines : List FmtLine) :
    Run (List FmtLine) :=
  if nbcols = 0 ∨ width = 0 then some lines
  else do
    let f ← TblFit.new nbcols width
    match f with
    | some fit => do
      let p ← prepareRows nbcols lines
      let r ← (fit.seeCells p.1).fit
      layoutRows cw ws skin nbcols r.colWidths false p.2
    | none =>
      layoutRows cw ws skin (wsub width 1 / 4) (List.replicate (wsub width 1 / 4) 3) true lines

/-- `Table::fix_columns`, src/tbl.rs 85-199, release build. -/
def fixColumns (cw : Char → Nat) (ws : Char → Bool) (skin : Skin) (width : Nat) (t : Table)
    (lines : List FmtLine) : Run (List FmtLine) := do
  let mid ← fixTableLines cw ws skin t.nbcols width ((lines.drop t.start).take t.height)
  some (lines.take t.start ++ mid ++ lines.drop (t.start + t.height))

/-- The loop of `fix_all_tables` on the reversed list of tables, src/tbl.rs 253-255, release build. -/
def fixTables (cw : Char → Nat) (ws : Char → Bool) (skin : Skin) (width : Nat) :
    List Table → List FmtLine → Run (List FmtLine)
  | [], lines => some lines
  | t :: ts, lines => do
    let lines' ← fixColumns cw ws skin width t lines
    fixTables cw ws skin width ts lines'

/-- `fix_all_tables`, src/tbl.rs 252-256, release build. -/
def fixAllTables (cw : Char → Nat) (ws : Char → Bool) (skin : Skin) (width : Nat) (lines : List FmtLine) :
    Run (List FmtLine) :=
  fixTables cw ws skin width (findTables lines).reverse lines

/-- The wrapping of the lines of a text, src/text.rs 64-69, release build. -/
def wrapText (cw : Char → Nat) (ws : Char → Bool) (skin : Skin) (width : Option Nat) (lines : List FmtLine) :
    Run (List FmtLine) :=
  match width with
  | some w =>
    if w ≥ 3 then
      match hardWrapLines cw ws skin w lines with
      | some (.ok ls) => some ls
      | _ => none
    else some lines
  | none => some lines

/-- `FmtText::from_text`, src/text.rs 52-71, release build. -/
def fromText (cw : Char → Nat) (ws : Char → Bool) (skin : Skin) (mlines : List MLine) (width : Option Nat) :
    Run FmtText := do
  let lines ← fixAllTables cw ws skin (width.getD usizeMax) (mlines.map (FmtLine.ofMLine skin cw))
  let lines' ← wrapText cw ws skin width (justifyBlocks lines)
  some { lines := lines', width }

end Verif.Release
