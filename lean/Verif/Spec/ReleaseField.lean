import Verif.Model.ReleaseField
import Verif.Spec.FieldSession
import Verif.Spec.InputField
/-! Specification vocabulary for input fields in release builds: the calls of the API and the sessions, in such a build. -/
namespace Verif
open InputField

/-- The call of an operation in a release build, as `FieldOp.exec`. -/
def FieldOp.releaseExec (cw : Char → Nat) (alnum : Char → Bool) (f : InputField) : FieldOp → Run (InputField × Bool)
  | .setMonoLine => some ({ f with newLineKeys := [] }, true)
  | .newLineOn k => some ({ f with newLineKeys := f.newLineKeys ++ [k] }, true)
  | .setPasswordMode b => some ({ f with passwordMode := b }, true)
  | .changeArea x y w => (Release.fieldChangeArea cw f x y w).map (·, true)
  | .setArea area => (Release.fieldSetArea cw f area).map (·, true)
  | .setFocus b => (Release.fieldSetFocus cw f b).map (·, true)
  | .cutSelection => (Release.fieldCutSelection cw f).map fun p => (p.1, true)
  | .replaceSelection s => (Release.fieldReplaceSelection cw f s).map (·, true)
  | .setStr s => (Release.fieldSetStr cw f s).map (·, true)
  | .insertNewLine => Release.fieldInsertNewLine cw f
  | .putChar ch => Release.fieldPutChar cw f ch
  | .clear => (Release.fieldClear cw f).map (·, true)
  | .insertStr s => (Release.fieldInsertStr cw f s).map (·, true)
  | .wrapped op => Release.fieldWrap cw f (op.call cw alnum f)
  | .key k => Release.fieldKey cw f k
  | .keycode code shift => Release.fieldKeycode cw f code shift
  | .click x y => Release.fieldClick cw f x y
  | .mouse kind x y mods double => Release.fieldMouse cw alnum f kind x y mods double
  | .event e double => Release.fieldEvent cw alnum f e double
  | .scrollUp => some f.scrollUp
  | .scrollDown => some f.scrollDown

/-- The operations which neither depend on where things are on the screen nor change it: all but those on the area, the mouse and the scroll. -/
def FieldOp.Textual : FieldOp → Prop
  | .changeArea .. | .setArea _ | .click .. | .mouse .. | .event (.mouse ..) _ | .scrollUp | .scrollDown => False
  | _ => True

/-- The areas given by the caller are made of `u16`. -/
def FieldOp.U16 : FieldOp → Prop
  | .changeArea x y w => x < 65536 ∧ y < 65536 ∧ w < 65536
  | .setArea area => area.WF
  | _ => True

/-- The same field, with another width. -/
def InputField.withWidth (f : InputField) (w : Nat) : InputField := { f with area := { f.area with width := w } }

/-- The fields which can be obtained with the API from a new one in a release build, with any area. -/
inductive ReachableReleaseField (cw : Char → Nat) (alnum : Char → Bool) : InputField → Prop
  | init (area : Area) : area.WF → ReachableReleaseField cw alnum (InputField.new area)
  | step {f f' : InputField} {b : Bool} (op : FieldOp) : ReachableReleaseField cw alnum f → op.U16 →
      op.releaseExec cw alnum f = some (f', b) → ReachableReleaseField cw alnum f'

namespace Spec

/-- A command given to a field in a release build, as `giveCmd`. -/
def giveReleaseCmd (cw : Char → Nat) (f : InputField) : EditCmd → Run (InputField × Text)
  | .key k => do
    let r ← Release.fieldKey cw f k
    some (r.1, [])
  | .cut => Release.fieldCutSelection cw f
  | .paste s => do
    let f' ← Release.fieldReplaceSelection cw f s
    some (f', [])

/-- An event given to a field in a release build, as `giveEvent`. -/
def giveReleaseEvent (cw : Char → Nat) (alnum : Char → Bool) (f : InputField) : SessionEvent → Run (InputField × Text)
  | .cmd c => giveReleaseCmd cw f c
  | .mouse m => do
    let r ← Release.fieldMouse cw alnum f m.kind m.x m.y m.mods m.double
    some (r.1, [])
  | .click x y => do
    let r ← Release.fieldClick cw f x y
    some (r.1, [])
  | .focus b => do
    let f' ← Release.fieldSetFocus cw f b
    some (f', [])
  | .area a => do
    let f' ← Release.fieldSetArea cw f a
    some (f', [])

/-- The events given one after the other to a field in a release build. -/
def giveReleaseEvents (cw : Char → Nat) (alnum : Char → Bool) : InputField → List SessionEvent → Run (InputField × List Text)
  | f, [] => some (f, [])
  | f, e :: es => do
    let r ← giveReleaseEvent cw alnum f e
    let q ← giveReleaseEvents cw alnum r.1 es
    some (q.1, r.2 :: q.2)

/-- The areas given to a field are in the screen; they may have no column. -/
def OnScreenEvent : SessionEvent → Prop
  | .area a => OnScreen a
  | _ => True

end Spec
end Verif
