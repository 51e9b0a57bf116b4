import Verif.Model.FmtText
import Verif.Model.Tty
import Verif.Model.Write
/-! Model of what the printing functions of `src/skin.rs` print: texts, and inlines. -/
namespace Verif

/-- `terminal_size`, src/area.rs 159-162, with the constants of 10 and 13: what the system tells, or a default size. -/
def terminalSize (told : Option (Nat × Nat)) : Nat × Nat := told.getD (50, 20)

/-- `MadSkin::term_text`, src/skin.rs 356-359. Parsing is out of the model: the source is the lines of minimad. -/
def Skin.termText (skin : Skin) (cw : Char → Nat) (ws : Char → Bool) (told : Option (Nat × Nat)) (mlines : List MLine) : Run FmtText :=
  FmtText.fromText cw ws skin mlines (some (terminalSize told).1)

/-- `Display for FmtText`, src/text.rs 93-101, with what is written after each line. -/
def FmtText.print (skin : Skin) (t : FmtText) : Run (List TtyCmd) := do
  let drawn ← t.display skin
  some (drawn.flatMap fun ps => ps.map Piece.cmd ++ [.print ['\n']])

/-- `MadSkin::print_text`, src/skin.rs 394-396, `print_expander`, 399-404, `print_owning_expander`, 407-416, and `write_text_on`, 489-491. -/
def Skin.printText (skin : Skin) (cw : Char → Nat) (ws : Char → Bool) (told : Option (Nat × Nat)) (mlines : List MLine) : Run (List TtyCmd) := do
  let t ← skin.termText cw ws told mlines
  t.print skin

/-- `MadSkin::print_inline`, src/skin.rs 389-391, `print_composite`, 432-440, `write_composite`, 442-453, and `write_inline_on`, 483-485. -/
def Skin.printComposite (skin : Skin) (cw : Char → Nat) (kind : Kind) (cs : List Compound) : Run (List TtyCmd) := do
  let ps ← skin.writeComposite cw kind cs
  some (ps.map Piece.cmd)

end Verif
