import Verif.Model.Composite
/-! Model of the writing of lines, in `src/skin.rs` and `src/inline.rs`. -/
namespace Verif

/-- The blanks and characters written before the compounds, src/skin.rs 534-551. For a follow-up line, `depth + 1` is
computed on `u8`. -/
def Skin.writePrefix (skin : Skin) (kind : Kind) : Run (List Piece) :=
  let space : Piece := (skin.paragraph.style, [' '])
  match kind with
  | .listItem depth => some (List.replicate depth space ++ skin.bullet.display ++ [space])
  | .listItemFollowUp depth =>
    if skin.indentMode = .block then
      (if depth + 1 < 256 then some (List.replicate (depth + 1) space ++ [space]) else none)
    else some []
  | .quote => some (skin.quoteMark.display ++ [space])
  | _ => some []

/-- The writing of a compound, src/skin.rs 552-565 (with the special-renders feature; without it the map is empty). -/
def Skin.writeCompound (skin : Skin) (ls : LineStyle) (c : Compound) : List Piece :=
  match skin.specialChars c with
  | some replacement => replacement.display
  | none => [(skin.compoundStyle ls c, c.src)]

/-- The width given to the outer completion, src/skin.rs 527. -/
def FmtComposite.innerWidth (fc : FmtComposite) : Nat :=
  match fc.spacing with
  | some sp => sp.width
  | none => fc.visibleLength

/-- `MadSkin::write_fmt_composite`, src/skin.rs 513-574. -/
def Skin.writeFmtComposite (skin : Skin) (fc : FmtComposite) (outer : Option Nat) (rightCompletion margins : Bool) :
    Run (List Piece) := do
  let ls ← skin.lineStyle fc.kind
  let m := if margins then ls.marginsIn outer else (0, 0)
  let pi := fc.completions
  let po := Spacing.optionalCompletions ls.align (fc.innerWidth + m.1 + m.2) outer
  let pre ← skin.writePrefix fc.kind
  some (repeatChar skin.paragraph.style ' ' (po.1 + m.1) ++
    repeatChar ls.style ' ' pi.1 ++
    pre ++
    fc.compounds.flatMap (skin.writeCompound ls) ++
    repeatChar ls.style ' ' pi.2 ++
    if rightCompletion then repeatChar skin.paragraph.style ' ' (po.2 + m.2) else [])

/-- `Display for FmtInline`, src/inline.rs 19-24. -/
def Skin.writeInline (skin : Skin) (fc : FmtComposite) : Run (List Piece) := skin.writeFmtComposite fc none false true

/-- The loop on the cells of a row, src/skin.rs 602-605. -/
def Skin.writeCells (skin : Skin) : List FmtComposite → Run (List Piece)
  | [] => some []
  | c :: cs => do
    let p ← skin.writeFmtComposite c none false false
    let rest ← skin.writeCells cs
    some ((skin.table.style, [skin.tableBorderChars.vertical]) :: p ++ rest)

/-- The characters of a rule, by position, src/skin.rs 619-649. -/
def TableBorderChars.ruleChars (t : TableBorderChars) : RelPos → Char × Char × Char
  | .top => (t.topLeftCorner, t.topJunction, t.topRightCorner)
  | .other => (t.leftJunction, t.cross, t.rightJunction)
  | .bottom => (t.bottomLeftCorner, t.bottomJunction, t.bottomRightCorner)

/-- The loop on the columns of a rule, src/skin.rs 624-637: a junction before all of them but the first one. -/
def Skin.writeRuleCols (skin : Skin) (junction : Char) (first : Bool) : List Nat → List Piece
  | [] => []
  | w :: ws =>
    (if first then [] else [(skin.table.style, [junction])]) ++
      repeatChar skin.table.style skin.tableBorderChars.horizontal w ++ skin.writeRuleCols junction false ws

/-- `MadSkin::write_fmt_line`, src/skin.rs 580-661. -/
def Skin.writeFmtLine (skin : Skin) (line : FmtLine) (width : Option Nat) (rightCompletion : Bool) :
    Run (List Piece) :=
  match line with
  | .normal fc => skin.writeFmtComposite fc width rightCompletion true
  | .tableRow cells => do
    let tblWidth := 1 + cells.foldl (fun sum c => sum + c.innerWidth + 1) 0
    let po := Spacing.optionalCompletions skin.table.align tblWidth width
    let ps ← skin.writeCells cells
    some (repeatChar skin.paragraph.style ' ' po.1 ++ ps ++ [(skin.table.style, [skin.tableBorderChars.vertical])] ++
      if rightCompletion then repeatChar skin.paragraph.style ' ' po.2 else [])
  | .tableRule rule =>
    let tblWidth := 1 + rule.widths.foldl (fun sum w => sum + w + 1) 0
    let po := Spacing.optionalCompletions skin.table.align tblWidth width
    let cs := skin.tableBorderChars.ruleChars rule.position
    some (repeatChar skin.paragraph.style ' ' po.1 ++ [(skin.table.style, [cs.1])] ++
      skin.writeRuleCols cs.2.1 true rule.widths ++ [(skin.table.style, [cs.2.2])] ++
      if rightCompletion then repeatChar skin.paragraph.style ' ' po.2 else [])
  | .horizontalRule =>
    match width with
    | some w => some (skin.horizontalRule.repeated w)
    | none => some []

end Verif
