import Verif.Model.AppMain
import Verif.Spec.Form
/-! Specification of a terminal with two screens, and of what happens to it when an application runs. -/
namespace Verif.Spec
open Verif.AppMain Verif.Form

/-- A terminal: the screen of the user, the alternate screen, which one is displayed, and its modes. -/
structure Terminal where
  user : Tty
  app : Tty
  alternate : Bool := false
  raw : Bool := false
  mouse : Bool := false
  cursor : Bool := true

/-- The effect of a command changing the mode of the terminal: the alternate screen is blank when it's entered. -/
def Terminal.control (t : Terminal) : Control → Terminal
  | .enterAlternate => if t.alternate then t else { t with alternate := true, app := { t.user with cells := blankCells } }
  | .leaveAlternate => { t with alternate := false }
  | .hideCursor => { t with cursor := false }
  | .showCursor => { t with cursor := true }
  | .enableMouse => { t with mouse := true }
  | .disableMouse => { t with mouse := false }

/-- The effect of a command. The other ones change the displayed screen. -/
def Terminal.exec (cw : Char → Nat) (t : Terminal) : OutCmd → Terminal
  | .control c => t.control c
  | .app c => if t.alternate then { t with app := t.app.execApp cw c } else { t with user := t.user.execApp cw c }

/-- An event, with what became the cells of the alternate screen if something (a change of size, another process) changed them at this time. -/
abbrev Happening (ε : Type) := ε × Option (Cells CompoundStyle)

/-- The effect of what happens. -/
def Terminal.see {ε : Type} (cw : Char → Nat) (t : Terminal) : Item (Happening ε) → Terminal
  | .out c => t.exec cw c
  | .raw on => { t with raw := on }
  | .got e => { t with app := { t.app with cells := e.2.getD t.app.cells } }

/-- The terminal after all that happened. -/
def Terminal.after {ε : Type} (cw : Char → Nat) (t : Terminal) (trace : List (Item (Happening ε))) : Terminal := trace.foldl (Terminal.see cw) t

/-- The events received by the application. -/
def received {ε : Type} : List (Item ε) → List ε
  | [] => []
  | .got e :: is => e :: received is
  | _ :: is => received is

/-- A terminal as it's when a program starts: with its modes off, its cursor shown and a default pen. -/
structure AtRest (t : Terminal) : Prop where
  normal : t.alternate = false
  cooked : t.raw = false
  silent : t.mouse = false
  shown : t.cursor = true
  pen : t.user.pen = {}

/-- A terminal in the modes of the application. -/
structure Captured (t : Terminal) : Prop where
  alternate : t.alternate = true
  raw : t.raw = true
  mouse : t.mouse = true
  hidden : t.cursor = false

/-- The modes, and what is on the screen of the user, are the same. -/
structure SameModes (t t' : Terminal) : Prop where
  user : t'.user = t.user
  alternate : t'.alternate = t.alternate
  raw : t'.raw = t.raw
  mouse : t'.mouse = t.mouse
  cursor : t'.cursor = t.cursor

/-- No call fails. -/
structure NoFailure (io : Answers) : Prop where
  writes : ∀ k, ∃ n, io.writes k = .ok n
  raws : ∀ k, io.raws k = true

/-- The state of an application after some events, if it doesn't panic. -/
def stateAfter {σ ε : Type} (prog : Program σ ε) : Run σ → List ε → Run σ
  | s, [] => s
  | s, e :: es => stateAfter prog (s.bind fun s => (prog.apply s e).map Prod.fst) es

/-- The events for which no redraw is asked, when the application is in some state. -/
def Unused {σ ε : Type} (prog : Program σ ε) : σ → List ε → Prop
  | _, [] => True
  | s, e :: es => ∃ s', prog.apply s e = some (s', false) ∧ Unused prog s' es

/-- What the alternate screen shows after some events: the state of the application when it was drawn for the last time. -/
def ShowsLast {σ ε : Type} (cw : Char → Nat) (prog : Program σ (Happening ε)) (es : List (Happening ε)) (t : Tty) : Prop :=
  ∃ (pre post : List (Happening ε)) (s : σ) (cmds : List AppCmd) (before : Tty),
    es = pre ++ post ∧ stateAfter prog prog.start pre = some s ∧ prog.draw s = some cmds ∧ Unused prog s post ∧
    before.pen = {} ∧ ((∀ e ∈ post, e.2 = none) → t = before.playApp cw cmds)

/-- The drawings of an application, for the states of a history, leave a default pen. -/
def CleanDrawings {σ ε : Type} (cw : Char → Nat) (prog : Program σ (Happening ε)) (es : List (Happening ε)) : Prop :=
  ∀ pre, pre <+: es → ∀ s, stateAfter prog prog.start pre = some s → ∀ cmds, prog.draw s = some cmds →
    ∀ t : Tty, t.pen = {} → (t.playApp cw cmds).pen = {}

/-- No event is handled without a redraw when it should have one: for each event after which there's no redraw, no text was selected, the clipboard accepted what was cut, and
nothing else wrote on the screen. -/
def Attentive {σ : Type} (prog : Program σ (Happening View.Event)) (selected : σ → Bool) (es : List (Happening View.Event)) : Prop :=
  ∀ pre e post s s', es = pre ++ e :: post → stateAfter prog prog.start pre = some s → prog.apply s e = some (s', false) →
    selected s = false ∧ (∀ clip, e.1 = .key ⟨.char 'x', [], modCtrl⟩ clip → clip.accepts = true) ∧ e.2 = none

/-- There's a selected text in the widget which has the focus. -/
def formSelected (v : View) : Bool :=
  match v.focus with
  | .login => v.login.content.hasWideSelection
  | .password => v.password.content.hasWideSelection
  | .comments => v.comments.content.hasWideSelection
  | .introduction => false

end Verif.Spec
