import Verif.Model.Pager
import Verif.Model.FieldCopy
/-! Model of the view of `examples/inputs`: a markdown view, three input fields with their labels, the focus and the clipboard. -/
namespace Verif

/-- `InputField::ENTER`, src/views/input_field.rs 75, and the other keys of the example, examples/inputs/view.rs 136-147; codes which have no role in an input
field and sets of modifiers are numbered. -/
def keyEnter : KeyComb := ⟨.other 0, [], .none⟩
/-- `key!(esc)`. See examples/inputs/view.rs 136. -/
def keyEsc : KeyComb := ⟨.other 1, [], .none⟩
/-- `key!(tab)`. See examples/inputs/view.rs 139. -/
def keyTab : KeyComb := ⟨.other 2, [], .none⟩
/-- The modifier of `key!(ctrl-c)`. See examples/inputs/view.rs 144-148. -/
def modCtrl : KeyMods := .other 0

/-- What the clipboard answers, `terminal_clipboard` in examples/inputs/clipboard.rs 9-35: whether it accepts a string, and the one it gives. -/
structure Clipboard where
  accepts : Bool
  gives : Option Text
  deriving DecidableEq, Repr

/-- `copy_from_input`, examples/inputs/clipboard.rs 9-17: the last value is what was put in the clipboard. -/
def copyFromInput (clip : Clipboard) (f : InputField) : Run (InputField × Bool × Option Text) := do
  let s ← f.copySelection
  some (f, clip.accepts, if clip.accepts then some s else none)

/-- `cut_from_input`, examples/inputs/clipboard.rs 18-26. -/
def cutFromInput (cw : Char → Nat) (clip : Clipboard) (f : InputField) : Run (InputField × Bool × Option Text) := do
  let p ← f.cutSelection cw
  some (p.1, clip.accepts, if clip.accepts then some p.2 else none)

/-- `paste_into_input`, examples/inputs/clipboard.rs 27-34. -/
def pasteIntoInput (cw : Char → Nat) (clip : Clipboard) (f : InputField) : Run (InputField × Bool × Option Text) :=
  match clip.gives with
  | some s => (f.replaceSelection cw s).map fun f => (f, true, none)
  | none => some (f, false, none)

/-- What a key does to the focused input, examples/inputs/view.rs 141-152. -/
def inputKey (cw : Char → Nat) (clip : Clipboard) (f : InputField) (key : KeyComb) : Run (InputField × Bool × Option Text) := do
  let p ← f.applyKeyCombination cw key
  if p.2 then some (p.1, true, none)
  else if key = ⟨.char 'c', [], modCtrl⟩ then copyFromInput clip p.1
  else if key = ⟨.char 'x', [], modCtrl⟩ then cutFromInput cw clip p.1
  else if key = ⟨.char 'v', [], modCtrl⟩ then pasteIntoInput cw clip p.1
  else some (p.1, false, none)

namespace Form

/-- `Focus`, examples/inputs/view.rs 33-38. -/
inductive Focus
  | introduction | login | password | comments
  deriving DecidableEq, Repr

/-- `Focus::next`, examples/inputs/view.rs 41-49. -/
def Focus.next : Focus → Focus
  | .introduction => .login
  | .login => .password
  | .password => .comments
  | .comments => .introduction

/-- `Area::uninitialized`, src/area.rs 33-40. -/
def noArea : Area := ⟨0, 0, 5, 1⟩

/-- The texts of the example, examples/inputs/view.rs 180-224, by their parsed lines, its skins and the styles of the inputs: they are
parameters of the model. -/
structure Config where
  introduction : List MLine
  skin : Skin
  labelSkin : Skin
  loginLabel : List MLine
  passwordLabel : List MLine
  commentsLabel : List MLine
  tooSmall : List MLine
  styles : FieldStyles

/-- `View`, examples/inputs/view.rs 18-30. -/
structure View where
  area : Area := noArea
  drawable : Bool := false
  introduction : MadView
  loginLabelArea : Area := noArea
  login : InputField
  passwordLabelArea : Area := noArea
  password : InputField
  commentsLabelArea : Area := noArea
  comments : InputField
  focus : Focus := .login

namespace View

/-- `View::set_focus`, examples/inputs/view.rs 100-105. -/
def setFocus (cw : Char → Nat) (v : View) (focus : Focus) : Run View := do
  let login ← v.login.setFocus cw (focus == .login)
  let password ← v.password.setFocus cw (focus == .password)
  let comments ← v.comments.setFocus cw (focus == .comments)
  some { v with focus, login, password, comments }

/-- `View::default`, examples/inputs/view.rs 54-83; the text of the comments is a parameter. -/
def default (cw : Char → Nat) (c : Config) (text : Text) : Run View := do
  let v : View := {
    introduction := { mlines := c.introduction, area := noArea, skin := c.skin }
    login := InputField.default
    password := { InputField.default with passwordMode := true }
    comments := InputField.default }
  let v ← v.setFocus cw .login
  let comments ← { v.comments with newLineKeys := v.comments.newLineKeys ++ [keyEnter] }.setStr cw text
  some { v with comments }

/-- The places of the widgets, examples/inputs/view.rs 115-131. -/
def place (cw : Char → Nat) (v : View) (area : Area) : Run View := do
  let dh ← csub area.height 15
  let h := 4 + dh / 2
  let w ← csub area.width 3
  let intro : Area := ⟨1, 1, w, h⟩
  let bottom ← u16Add intro.top intro.height
  let y ← u16Add bottom 2
  let half := w / 2
  let left ← u16Add half 2
  let login ← v.login.changeArea cw left y half
  let y2 ← u16Add y 2
  let password ← v.password.changeArea cw left y2 half
  let y3 ← u16Add y2 2
  let below ← csub area.height 1
  let labelHeight ← csub below h
  let left3 ← u16Add half 2
  let rest ← csub area.height y3
  let commentsHeight ← csub rest 1
  let comments ← v.comments.setArea cw ⟨left3, y3, half, commentsHeight⟩
  some { v with
    introduction := v.introduction.resize intro, loginLabelArea := ⟨1, y, half, 1⟩, login, passwordLabelArea := ⟨1, y2, half, 1⟩, password
    commentsLabelArea := ⟨1, y3, half, labelHeight⟩, comments }

/-- `View::resize`, examples/inputs/view.rs 109-134. -/
def resize (cw : Char → Nat) (v : View) (area : Area) : Run (View × Bool) :=
  if v.area = area then some (v, false)
  else if area.width ≥ 20 ∧ area.height ≥ 15 then do
    let v ← v.place cw area
    some ({ v with drawable := true, area }, true)
  else some ({ v with drawable := false, area }, true)

/-- `View::new`, examples/inputs/view.rs 87-91. -/
def new (cw : Char → Nat) (c : Config) (text : Text) (area : Area) : Run View := do
  let v ← default cw c text
  let r ← v.resize cw area
  some r.1

/-- `View::apply_key_combination`, examples/inputs/view.rs 135-157, with `focused_input`, 92-99, and `focus_next`, 106-108. The last value is what was put
in the clipboard. -/
def applyKey (cw : Char → Nat) (ws : Char → Bool) (clip : Clipboard) (v : View) (key : KeyComb) : Run (View × Bool × Option Text) :=
  if key = keyEsc then (v.setFocus cw .introduction).map fun v => (v, true, none)
  else if key = keyTab then (v.setFocus cw v.focus.next).map fun v => (v, true, none)
  else
    match v.focus with
    | .login => (inputKey cw clip v.login key).map fun r => ({ v with login := r.1 }, r.2)
    | .password => (inputKey cw clip v.password key).map fun r => ({ v with password := r.1 }, r.2)
    | .comments => (inputKey cw clip v.comments key).map fun r => ({ v with comments := r.1 }, r.2)
    | .introduction => (v.introduction.applyKeyCombination cw ws key).map fun r => ({ v with introduction := r.1 }, r.2, none)

/-- `View::apply_mouse_event`, examples/inputs/view.rs 158-169. -/
def applyMouse (cw : Char → Nat) (alnum : Char → Bool) (v : View) (e : InputField.MouseInput) : Run View := do
  let r ← v.login.applyMouseEvent cw alnum e.kind e.x e.y e.mods e.double
  let v := { v with login := r.1 }
  if r.2 then v.setFocus cw .login
  else do
    let r ← v.password.applyMouseEvent cw alnum e.kind e.x e.y e.mods e.double
    let v := { v with password := r.1 }
    if r.2 then v.setFocus cw .password
    else do
      let r ← v.comments.applyMouseEvent cw alnum e.kind e.x e.y e.mods e.double
      let v := { v with comments := r.1 }
      if r.2 then v.setFocus cw .comments else v.setFocus cw .introduction

/-- An event, with what the clipboard would answer. See examples/inputs/view.rs 135-178. -/
inductive Event
  | key (key : KeyComb) (clip : Clipboard)
  | mouse (e : InputField.MouseInput)
  | resize (width height : Nat)
  | other

/-- `View::apply_timed_event`, examples/inputs/view.rs 170-177. -/
def apply (cw : Char → Nat) (ws alnum : Char → Bool) (v : View) : Event → Run (View × Bool × Option Text)
  | .key k clip => v.applyKey cw ws clip k
  | .mouse e => (v.applyMouse cw alnum e).map fun v => (v, true, none)
  | .resize width height => (v.resize cw ⟨0, 0, width, height⟩).map fun r => (r.1, r.2, none)
  | .other => some (v, false, none)

/-- What `skin.write_in_area_on` queues, src/skin.rs 377-382. -/
def areaCmds (cw : Char → Nat) (ws : Char → Bool) (skin : Skin) (mlines : List MLine) (area : Area) : Run (List AppCmd) := do
  let t ← skin.areaText cw ws mlines area
  let cmds ← ({ area, lines := t.lines, showScrollbar := false } : TextView).cmds skin
  some (cmds.map .view)

/-- `View::queue_on`, examples/inputs/view.rs 179-198. -/
def queueOn (cw : Char → Nat) (ws : Char → Bool) (c : Config) (v : View) : Run (List AppCmd) :=
  if v.drawable then do
    let intro ← Pager.draw cw ws v.introduction
    let label1 ← areaCmds cw ws c.labelSkin c.loginLabel v.loginLabelArea
    let login ← c.styles.cmds cw v.login
    let label2 ← areaCmds cw ws c.labelSkin c.passwordLabel v.passwordLabelArea
    let password ← c.styles.cmds cw v.password
    let label3 ← areaCmds cw ws c.labelSkin c.commentsLabel v.commentsLabelArea
    let comments ← c.styles.cmds cw v.comments
    some (.clearAll :: intro ++ label1 ++ login.map .view ++ label2 ++ password.map .view ++ label3 ++ comments.map .view)
  else do
    let cmds ← areaCmds cw ws v.introduction.skin c.tooSmall v.area
    some (.clearAll :: cmds)

end View
end Form
end Verif
