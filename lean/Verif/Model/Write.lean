import Verif.Model.Fitter
import Verif.Model.Render
/-! Model of the functions of `MadSkin` writing a composite. The writer is the list of the styled pieces it's given. -/
namespace Verif

/-- `MadSkin::write_composite`, src/skin.rs 442-453, and `print_composite`, 432-440. -/
def Skin.writeComposite (cw : Char → Nat) (skin : Skin) (kind : Kind) (cs : List Compound) : Run (List Piece) :=
  skin.writeInline (FmtComposite.ofComposite skin cw kind cs)

/-- `MadSkin::write_composite_fill`, src/skin.rs 460-479. -/
def Skin.writeCompositeFill (cw : Char → Nat) (ws : Char → Bool) (skin : Skin) (kind : Kind) (cs : List Compound) (width : Nat)
    (align : Alignment) : Run (List Piece) := do
  let fc ← (FmtComposite.ofComposite skin cw kind cs).fillWidth cw ws width align skin
  skin.writeInline fc

end Verif
