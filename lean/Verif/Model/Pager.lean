import Verif.Model.Tty
/-! Model of the application of `examples/scrollable/main.rs`: a markdown view, alone on the screen, redrawn after each event. -/
namespace Verif

/-- What is queued on the writer: `Clear(ClearType::All)`, or a command of the view.
See examples/scrollable/main.rs 31-62, examples/inputs/view.rs and examples/render-input-markdown/view.rs 93. -/
inductive AppCmd
  | clearAll
  | view (cmd : TtyCmd)
  deriving DecidableEq, Repr

namespace Pager

/-- What `event::read()` returns, examples/scrollable/main.rs 40-54: a key, whatever its modifiers, a change of the size of the terminal (with the size
measured when the event is handled), or anything else, errors included. -/
inductive Event
  | key (code : KeyCode)
  | resize (width height : Nat)
  | other
  deriving DecidableEq, Repr

/-- `view_area`, examples/scrollable/main.rs 25-29, with `Area::full_screen`, src/area.rs 53-61, for a terminal of the given size. -/
def viewArea (width height : Nat) : Run Area := (⟨0, 0, width, height⟩ : Area).padForMaxWidth 120

/-- The start of a turn of the loop, examples/scrollable/main.rs 37-38. -/
def draw (cw : Char → Nat) (ws : Char → Bool) (m : MadView) : Run (List AppCmd) := do
  let v ← m.view cw ws
  let cmds ← v.cmds m.skin
  some (cmds.map .view)

/-- The end of a turn of the loop, examples/scrollable/main.rs 39-55: what is queued and the new view, or nothing when the loop is left. -/
def handle (cw : Char → Nat) (ws : Char → Bool) (m : MadView) : Event → Run (Option (List AppCmd × MadView))
  | .key .up => (m.tryScrollLines cw ws (-1)).map fun m => some ([], m)
  | .key .down => (m.tryScrollLines cw ws 1).map fun m => some ([], m)
  | .key .pageUp => (m.tryScrollPages cw ws (-1)).map fun m => some ([], m)
  | .key .pageDown => (m.tryScrollPages cw ws 1).map fun m => some ([], m)
  | .key _ => some none
  | .resize width height => (viewArea width height).map fun a => some ([.clearAll], m.resize a)
  | .other => some (some ([], m))

/-- The view at the start, examples/scrollable/main.rs 36, with the parsed lines of its markdown. -/
def start (mlines : List MLine) (skin : Skin) (width height : Nat) : Run MadView :=
  (viewArea width height).map fun area => { mlines, area, skin }

end Pager
end Verif
