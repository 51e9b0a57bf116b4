import Verif.Model.Form
/-! Model of the view of `examples/render-input-markdown`: an input field, and the rendering of the markdown it contains. -/
namespace Verif.LiveEdit
open Form

/-- What doesn't change: the parser of markdown (`minimad::parse`, called by `FmtText::from`, src/text.rs 41-44), the skin of the rendering and the styles of
the input, examples/render-input-markdown/view.rs 29-33. -/
structure Setup where
  parse : Text → List MLine
  skin : Skin
  styles : FieldStyles

/-- `View`, examples/render-input-markdown/view.rs 18-24. -/
structure Editor where
  area : Area := noArea
  drawable : Bool := false
  input : InputField
  renderArea : Area := noArea

namespace Editor

/-- `View::default`, examples/render-input-markdown/view.rs 28-45; the text is a parameter. -/
def default (cw : Char → Nat) (text : Text) : Run Editor := do
  let input ← { InputField.default with newLineKeys := InputField.default.newLineKeys ++ [keyEnter] }.setStr cw text
  some { input }

/-- `View::resize`, examples/render-input-markdown/view.rs 54-67. -/
def resize (cw : Char → Nat) (v : Editor) (area : Area) : Run (Editor × Bool) :=
  if v.area = area then some (v, false)
  else if area.width ≥ 20 ∧ area.height ≥ 15 then do
    let dh ← csub area.height 2
    let h := dh / 2
    let w ← csub area.width 2
    let top ← u16Add h 2
    let w' ← csub area.width 2
    let rest ← csub area.height h
    let height ← csub rest 2
    let input ← v.input.setArea cw ⟨1, 1, w, h⟩
    some ({ area, drawable := true, input, renderArea := ⟨1, top, w', height⟩ }, true)
  else some ({ v with drawable := false, area }, true)

/-- `View::new`, examples/render-input-markdown/view.rs 49-53. -/
def new (cw : Char → Nat) (text : Text) (area : Area) : Run Editor := do
  let v ← default cw text
  let r ← v.resize cw area
  some r.1

/-- `View::apply_key_event`, examples/render-input-markdown/view.rs 68-76, for the key combination of the key event; examples/render-input-markdown/clipboard.rs is the same
file as the one of `examples/inputs`. The last value is what was put in the clipboard. -/
def applyKey (cw : Char → Nat) (clip : Clipboard) (v : Editor) (key : KeyComb) : Run (Editor × Bool × Option Text) :=
  if key = ⟨.char 'c', [], modCtrl⟩ then (copyFromInput clip v.input).map fun r => ({ v with input := r.1 }, r.2)
  else if key = ⟨.char 'x', [], modCtrl⟩ then (cutFromInput cw clip v.input).map fun r => ({ v with input := r.1 }, r.2)
  else if key = ⟨.char 'v', [], modCtrl⟩ then (pasteIntoInput cw clip v.input).map fun r => ({ v with input := r.1 }, r.2)
  else (v.input.applyKeyCombination cw key).map fun r => ({ v with input := r.1 }, r.2, none)

/-- `View::apply_timed_event`, examples/render-input-markdown/view.rs 83-90, with `View::apply_mouse_event`, 77-82. -/
def apply (cw : Char → Nat) (alnum : Char → Bool) (v : Editor) : View.Event → Run (Editor × Bool × Option Text)
  | .key k clip => v.applyKey cw clip k
  | .mouse e => (v.input.applyMouseEvent cw alnum e.kind e.x e.y e.mods e.double).map fun r => ({ v with input := r.1 }, r.2, none)
  | .resize width height => (v.resize cw ⟨0, 0, width, height⟩).map fun r => (r.1, r.2, none)
  | .other => some (v, false, none)

/-- `View::queue_on`, examples/render-input-markdown/view.rs 92-103. -/
def queueOn (cw : Char → Nat) (ws : Char → Bool) (c : Setup) (v : Editor) : Run (List AppCmd) :=
  if v.drawable then do
    let input ← c.styles.cmds cw v.input
    let width ← csub v.renderArea.width 1
    let text ← FmtText.fromText cw ws c.skin (c.parse v.input.content.toText) (some width)
    let cmds ← ({ area := v.renderArea, lines := text.lines } : TextView).cmds c.skin
    some (.clearAll :: input.map .view ++ cmds.map .view)
  else some [.clearAll]

end Editor
end Verif.LiveEdit
