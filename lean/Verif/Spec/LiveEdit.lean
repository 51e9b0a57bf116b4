import Verif.Model.LiveEdit
import Verif.Spec.Form
/-! Specification of a live editor: what the field receives and where things are. -/
namespace Verif.Spec
open Verif.Form Verif.LiveEdit InputField

/-- The upper half of the screen, with a margin, is for the field. -/
def fieldHalf (width height : Nat) : Area := ⟨1, 1, width - 2, (height - 2) / 2⟩

/-- The lower half, with margins at the left, at the right and at the top, is for the rendering. -/
def renderHalf (width height : Nat) : Area := ⟨1, (height - 2) / 2 + 2, width - 2, height - (height - 2) / 2 - 2⟩

/-- What the field receives first. -/
def liveFirst (text : Text) (width height : Nat) : List FieldOp :=
  [.newLineOn keyEnter, .setStr text] ++ if largeEnough width height then [.setArea (fieldHalf width height)] else []

/-- What the field receives for an event. -/
def liveGives : View.Event → List FieldOp
  | .key k clip => keyOps k clip
  | .mouse e => [.mouse e.kind e.x e.y e.mods e.double]
  | .resize w h => if largeEnough w h then [.setArea (fieldHalf w h)] else []
  | .other => []

/-- The size of the terminal after the events. -/
def lastSize : Nat × Nat → List View.Event → Nat × Nat
  | s, [] => s
  | _, .resize w h :: es => lastSize (w, h) es
  | s, _ :: es => lastSize s es

/-- The editor after the events. -/
def runLive (cw : Char → Nat) (alnum : Char → Bool) (v : Editor) : List View.Event → Run Editor
  | [] => some v
  | e :: es => do
    let r ← v.apply cw alnum e
    runLive cw alnum r.1 es

end Verif.Spec
