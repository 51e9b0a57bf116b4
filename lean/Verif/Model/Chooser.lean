import Verif.Model.PagerMain
import Verif.Model.Print
/-! Model of `examples/stderr/main.rs`: a text displayed on the error stream until a key chooses what is printed on the standard output. -/
namespace Verif.Chooser
open Verif.AppMain

/-- What `event::read()` returns, examples/stderr/main.rs 62: a key, with or without modifiers, or anything else, changes of size and errors included. -/
inductive Event
  | key (code : KeyCode) (modified : Bool)
  | other
  deriving DecidableEq, Repr

/-- The area of the view, examples/stderr/main.rs 54-56, with `Area::full_screen`, src/area.rs 53-61, for a terminal of the given size. -/
def viewArea (width height : Nat) : Run Area := do
  let area ← (⟨0, 0, width, height⟩ : Area).pad 1 1
  area.padForMaxWidth 120

/-- The events which break the loop, examples/stderr/main.rs 62-76. -/
def leaves : Event → Bool
  | .key _ true => false
  | .key .up false => false
  | .key .down false => false
  | .key .pageUp false => false
  | .key .pageDown false => false
  | .key _ false => true
  | .other => false

/-- The other ones, examples/stderr/main.rs 62-70. -/
def handle (cw : Char → Nat) (ws : Char → Bool) (m : MadView) : Event → Run MadView
  | .key _ true => some m
  | .key .up false => m.tryScrollLines cw ws (-1)
  | .key .down false => m.tryScrollLines cw ws 1
  | .key .pageUp false => m.tryScrollPages cw ws (-1)
  | .key .pageDown false => m.tryScrollPages cw ws 1
  | .key _ false => some m
  | .other => some m

/-- `user_char` after the event which breaks the loop, examples/stderr/main.rs 58 and 71-75. -/
def userChar : Event → Option Char
  | .key (.char c) _ => some c
  | _ => none

/-- The view of `run_app`, examples/stderr/main.rs 54-76, drawn at each turn of the loop (60-61). `torn` is what is queued before the panic when the drawing of a view panics. The second
part of an event isn't seen by the application. -/
def program {α : Type} (cw : Char → Nat) (ws : Char → Bool) (mlines : List MLine) (skin : Skin) (width height : Nat) (torn : MadView → List AppCmd) :
    Program MadView (Event × α) where
  start := (viewArea width height).map fun area => { mlines, area, skin }
  quits e := leaves e.1
  apply m e := (handle cw ws m e.1).map fun m => (m, true)
  draw m := Pager.draw cw ws m
  torn

/-- What is printed on the standard output: a text, or a formatted text. See examples/stderr/main.rs 92-97. -/
inductive Printed
  | raw (text : Text)
  | formatted (cmds : List TtyCmd)
  deriving DecidableEq, Repr

/-- The last received event. The one which ended the loop of examples/stderr/main.rs 45-82. -/
def lastGot {ε : Type} (trace : List (Item ε)) : Option ε :=
  trace.foldl (fun last i => match i with | .got e => some e | _ => last) none

/-- The end of `main`, examples/stderr/main.rs 92-97. `told` is what the system tells of the size of the terminal. -/
def output (cw : Char → Nat) (ws : Char → Bool) (mlines : List MLine) (skin : Skin) (told : Option (Nat × Nat)) : Option Char → Run Printed
  | some '1' => some (.raw ['.', '.'])
  | some '2' => some (.raw ['/'])
  | some '3' => some (.raw ['~'])
  | _ => (skin.printText cw ws told mlines).map .formatted

/-- `main`, examples/stderr/main.rs 84-98: `run_app` (46-82) is, but for its view, the same as in examples/scrollable (`Model/PagerMain.lean`), then, if it ended normally, something is printed on
the standard output. An error of `run_app` is a panic, and nothing is printed then. (What is printed before a panic of the printing isn't modelled.) The error stream isn't buffered, which is one of the behaviours of the writer. -/
def main {α : Type} (cw : Char → Nat) (ws : Char → Bool) (mlines : List MLine) (skin : Skin) (width height : Nat) (torn : MadView → List AppCmd) (told : Option (Nat × Nat))
    (io : Answers) (es : List (Event × α)) : Proc (Event × α) × Stop MadView × Option Printed :=
  match Pager.runMain (program cw ws mlines skin width height torn) io es with
  | (p, .left) =>
    match output cw ws mlines skin told ((lastGot p.trace).bind fun e => userChar e.1) with
    | some printed => (p, .left, some printed)
    | none => (p, .panicked, none)
  | (p, .waiting m) => (p, .waiting m, none)
  | (p, _) => (p, .panicked, none)

end Verif.Chooser
