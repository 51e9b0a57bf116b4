import Verif.Spec.FieldSession
import Verif.Spec.LiveEdit
/-! Specification: the texts edited in applications, with the clipboard, as those of a reference editor. -/
namespace Verif.Spec
open Verif.Form Verif.LiveEdit InputField

/-- The reference of a new live editor: the cursor is at the end of the text, which has the focus. -/
def liveStart (text : Text) (w h : Nat) : FieldDoc :=
  ⟨⟨⟨keptText text, []⟩, none⟩, true, if largeEnough w h then fieldHalf w h else unplaced⟩

/-- The effect of an event on the reference, and the text which is put in the clipboard: ctrl-c copies the selected text, ctrl-x cuts it and ctrl-v pastes the
text of the clipboard, if it has one. The place of the text where the mouse is is given. -/
def liveNext (cw : Char → Nat) (alnum : Char → Bool) (s : FieldDoc) (e : View.Event) (p : Pos) : FieldDoc × Option Text :=
  let ctrl := fun c : Char => (⟨.char c, [], modCtrl⟩ : KeyComb)
  let cmd := fun c : EditCmd => s.play cw alnum [keyEnter] (.cmd c) p
  match e with
  | .key k clip =>
    if k = ctrl 'c' then (s, if clip.accepts then some s.sel.selected else none)
    else if k = ctrl 'x' then ((cmd .cut).1, if clip.accepts then some (cmd .cut).2 else none)
    else if k = ctrl 'v' then
      match clip.gives with
      | some t => ((cmd (.paste t)).1, none)
      | none => (s, none)
    else ((cmd (.key k)).1, none)
  | .mouse m => ((s.play cw alnum [keyEnter] (.mouse m) p).1, none)
  | .resize w h => (if largeEnough w h then { s with area := fieldHalf w h } else s, none)
  | .other => (s, none)

/-- All the events, with a place for each of them, and the texts put in the clipboard. -/
def liveNexts (cw : Char → Nat) (alnum : Char → Bool) (s : FieldDoc) : List (View.Event × Pos) → FieldDoc × List Text
  | [] => (s, [])
  | e :: es =>
    let r := liveNext cw alnum s e.1 e.2
    let q := liveNexts cw alnum r.1 es
    (q.1, r.2.toList ++ q.2)

/-- The editor after the events, and the texts which were put in the clipboard. -/
def runLiveClips (cw : Char → Nat) (alnum : Char → Bool) (v : Editor) : List View.Event → Run (Editor × List Text)
  | [] => some (v, [])
  | e :: es => do
    let r ← v.apply cw alnum e
    let q ← runLiveClips cw alnum r.1 es
    some (q.1, r.2.2.toList ++ q.2)

/-- The reference of a field of a new form: only the comments have a text, and the focus is on the login. -/
def formStart (text : Text) (w h : Nat) (n : InputName) : FieldDoc :=
  ⟨⟨⟨if n = .comments then keptText text else [], []⟩, none⟩, decide (n = .login), (Desk.start w h).inputArea n⟩

/-- The events of a session which are in the operations given to a field. -/
def sessionOf : List FieldOp → List SessionEvent
  | [] => []
  | .key k :: ops => .cmd (.key k) :: sessionOf ops
  | .cutSelection :: ops => .cmd .cut :: sessionOf ops
  | .replaceSelection s :: ops => .cmd (.paste s) :: sessionOf ops
  | .mouse kind x y mods double :: ops => .mouse ⟨kind, x, y, mods, double⟩ :: sessionOf ops
  | .setFocus b :: ops => .focus b :: sessionOf ops
  | .setArea a :: ops => .area a :: sessionOf ops
  | _ :: ops => sessionOf ops

end Verif.Spec
