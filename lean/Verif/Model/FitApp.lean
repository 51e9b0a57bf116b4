import Verif.Model.PagerMain
import Verif.Model.Write
import Verif.Model.SkinOps
/-! Model of `examples/fit-width/main.rs`: lines filling the width of the terminal, redrawn after each event. -/
namespace Verif.FitApp
open Verif.AppMain Verif.Pager
variable {α : Type}

/-- The parsed titles of `make_all_lines`, examples/fit-width/main.rs 36-50, and the parsed `TEXTS`, 17-25. (The parser is the one of the minimad crate, and isn't modelled.) -/
structure Page where
  leftTitle : List Compound
  autoTitle : List Compound
  rightTitle : List Compound
  centerTitle : List Compound
  texts : List (List Compound)

/-- `make_line`, examples/fit-width/main.rs 27-32, with the parsed markdown (`Composite::from_inline` gives a paragraph). -/
def makeLine (cw : Char → Nat) (ws : Char → Bool) (skin : Skin) (width : Nat) (md : List Compound) (align : Alignment) : Run FmtComposite :=
  (FmtComposite.ofComposite skin cw .paragraph md).fillWidth cw ws width align skin

/-- The loops of `make_all_lines`, examples/fit-width/main.rs 37-39, 41-43, 45-47 and 49-51. -/
def makeTexts (cw : Char → Nat) (ws : Char → Bool) (skin : Skin) (width : Nat) (align : Alignment) : List (List Compound) → Run (List FmtComposite)
  | [] => some []
  | md :: mds => do
    let line ← makeLine cw ws skin width md align
    let lines ← makeTexts cw ws skin width align mds
    some (line :: lines)

/-- `make_all_lines`, examples/fit-width/main.rs 34-53. -/
def makeAllLines (cw : Char → Nat) (ws : Char → Bool) (skin : Skin) (page : Page) (width : Nat) : Run (List FmtComposite) := do
  let t1 ← makeLine cw ws skin width page.leftTitle .left
  let l1 ← makeTexts cw ws skin width .left page.texts
  let t2 ← makeLine cw ws skin width page.autoTitle .left
  let l2 ← makeTexts cw ws skin width .unspecified page.texts
  let t3 ← makeLine cw ws skin width page.rightTitle .left
  let l3 ← makeTexts cw ws skin width .right page.texts
  let t4 ← makeLine cw ws skin width page.centerTitle .left
  let l4 ← makeTexts cw ws skin width .center page.texts
  some (t1 :: l1 ++ (t2 :: l2) ++ (t3 :: l3) ++ (t4 :: l4))

/-- The loop on the rows of the terminal, examples/fit-width/main.rs 65-73: a move of the cursor, then a line if there's still one. -/
def drawRows (skin : Skin) : Nat → Nat → List FmtComposite → Run (List TtyCmd)
  | 0, _, _ => some []
  | n + 1, y, [] => do
    let rest ← drawRows skin n (y + 1) []
    some (.moveTo 0 y :: rest)
  | n + 1, y, line :: lines => do
    let ps ← skin.writeInline line
    let rest ← drawRows skin n (y + 1) lines
    some (.moveTo 0 y :: (ps.map Piece.cmd ++ rest))

/-- The start of a turn of the loop, examples/fit-width/main.rs 63-73, for the size of the terminal. -/
def draw (cw : Char → Nat) (ws : Char → Bool) (skin : Skin) (page : Page) (size : Nat × Nat) : Run (List AppCmd) := do
  let lines ← makeAllLines cw ws skin page size.1
  let cmds ← drawRows skin size.2 0 lines
  some (cmds.map .view)

/-- The events breaking the loop, examples/fit-width/main.rs 75-77: any key. -/
def breaks : Event → Bool
  | .key _ => true
  | _ => false

/-- The other events, examples/fit-width/main.rs 78-87: what is sent to the terminal, and the new size. -/
def handle (size : Nat × Nat) : Event → List AppCmd × Nat × Nat
  | .resize width height => ([.clearAll], width, height)
  | _ => ([], size)

/-- `make_skin`, examples/fit-width/main.rs 96-105. -/
def makeSkin : Skin :=
  let skin := { Skin.default with table := { Skin.default.table with align := .center } }
  let skin := skin.setHeadersFg (.ansi 178)
  let skin := { skin with bold := skin.bold.setFg .yellow }
  let skin := { skin with italic := skin.italic.setFg .magenta }
  let skin := { skin with scrollbar := { skin.scrollbar with thumb := skin.scrollbar.thumb.setFg (.ansi 178) } }
  { skin with codeBlock := { skin.codeBlock with align := .center } }

/-- The application for `Pager.runMain`: `run_app`, examples/fit-width/main.rs 55-94, calls the same functions in the same order as the one of examples/scrollable. Here the writer is the
standard error, which has no buffer: its answers are those in which all commands are sent at once, and the flushes of `Pager.runMain` do nothing. `torn` is what is sent before
the panic when the drawing panics. The second part of an event isn't seen by the application. -/
def fitProgram (cw : Char → Nat) (ws : Char → Bool) (skin : Skin) (page : Page) (width height : Nat) (torn : Nat × Nat → List AppCmd) :
    Program (List AppCmd × Nat × Nat) (Event × α) where
  start := some ([], width, height)
  quits e := breaks e.1
  apply s e := some (handle s.2 e.1, true)
  draw s := (draw cw ws skin page s.2).map (s.1 ++ ·)
  torn s := s.1 ++ torn s.2

end Verif.FitApp
