import Verif.Model.Form
import Verif.Spec.Pager
import Verif.Spec.InputField
/-! Specification of a form: who has the focus, where the widgets are, and what each of them receives. -/
namespace Verif.Spec
open Verif.Form InputField

/-- The input fields of the form. -/
inductive InputName
  | login | password | comments
  deriving DecidableEq, Repr

/-- The focus on a field. -/
def InputName.focus : InputName → Focus
  | .login => .login
  | .password => .password
  | .comments => .comments

/-- The fields of the view. -/
def input (v : View) : InputName → InputField
  | .login => v.login
  | .password => v.password
  | .comments => v.comments

/-- The form may be displayed in a terminal of this size. -/
def largeEnough (width height : Nat) : Bool := decide (20 ≤ width ∧ 15 ≤ height)

/-- Where the introduction is, in a terminal of this size: at the top, on about half of the height, with a margin of one cell and two at the right. -/
def introIn (width height : Nat) : Area := ⟨1, 1, width - 3, 4 + (height - 15) / 2⟩

/-- Where a field is: in the right half, from two rows after the introduction, on one row, or down to the row before the last one for the comments. -/
def inputIn (width height : Nat) : InputName → Area
  | .login => ⟨(width - 3) / 2 + 2, 4 + (height - 15) / 2 + 3, (width - 3) / 2, 1⟩
  | .password => ⟨(width - 3) / 2 + 2, 4 + (height - 15) / 2 + 5, (width - 3) / 2, 1⟩
  | .comments => ⟨(width - 3) / 2 + 2, 4 + (height - 15) / 2 + 7, (width - 3) / 2, height - (4 + (height - 15) / 2) - 8⟩

/-- Where its label is: at its left. The last one goes out of the screen. -/
def labelIn (width height : Nat) : InputName → Area
  | .login => ⟨1, 4 + (height - 15) / 2 + 3, (width - 3) / 2, 1⟩
  | .password => ⟨1, 4 + (height - 15) / 2 + 5, (width - 3) / 2, 1⟩
  | .comments => ⟨1, 4 + (height - 15) / 2 + 7, (width - 3) / 2, height - 1 - (4 + (height - 15) / 2)⟩

/-- What decides where the events go: the focus, the size of the terminal, and the last size which was large enough, for which the widgets are placed. -/
structure Desk where
  focus : Focus
  width : Nat
  height : Nat
  placed : Option (Nat × Nat)
  deriving DecidableEq, Repr

/-- The focus is on the login at the start. -/
def Desk.start (width height : Nat) : Desk := ⟨.login, width, height, if largeEnough width height then some (width, height) else none⟩

/-- The area of what isn't placed yet: the first five columns of the first line. -/
def unplaced : Area := ⟨0, 0, 5, 1⟩

/-- The area of the introduction. -/
def Desk.intro (d : Desk) : Area :=
  match d.placed with
  | some (w, h) => introIn w h
  | none => unplaced

/-- The area of a field. -/
def Desk.inputArea (d : Desk) (n : InputName) : Area :=
  match d.placed with
  | some (w, h) => inputIn w h n
  | none => unplaced

/-- The area of a label. -/
def Desk.labelArea (d : Desk) (n : InputName) : Area :=
  match d.placed with
  | some (w, h) => labelIn w h n
  | none => unplaced

/-- The cell is in the area. -/
def covers (a : Area) (x y : Nat) : Bool := decide (a.left ≤ x ∧ x < a.left + a.width ∧ a.top ≤ y ∧ y < a.top + a.height)

/-- What gets the focus when the mouse is at some place: the field which is there, or the introduction. -/
def Desk.pointed (d : Desk) (x y : Nat) : Focus :=
  if covers (d.inputArea .login) x y then .login
  else if covers (d.inputArea .password) x y then .password
  else if covers (d.inputArea .comments) x y then .comments
  else .introduction

/-- The widget which is after another one with the tab key: they are from the top to the bottom of the screen, then again from the top. -/
def afterTab : Focus → Focus
  | .introduction => .login
  | .login => .password
  | .password => .comments
  | .comments => .introduction

/-- The effect of an event: escape goes to the introduction, tab to the next widget, and the mouse to what it points; the widgets are placed by changes
of size to large enough ones. -/
def Desk.next (d : Desk) : View.Event → Desk
  | .key k _ => { d with focus := if k = keyEsc then .introduction else if k = keyTab then afterTab d.focus else d.focus }
  | .mouse e => { d with focus := d.pointed e.x e.y }
  | .resize w h => { d with width := w, height := h, placed := if largeEnough w h then some (w, h) else d.placed }
  | .other => d

/-- What a field receives from a key when it has the focus: the clipboard may be used. -/
def keyOps (k : KeyComb) (clip : Clipboard) : List FieldOp :=
  if k = ⟨.char 'c', [], modCtrl⟩ then []
  else if k = ⟨.char 'x', [], modCtrl⟩ then [.cutSelection]
  else if k = ⟨.char 'v', [], modCtrl⟩ then (clip.gives.map FieldOp.replaceSelection).toList
  else [.key k]

/-- What a field receives for an event: the changes of focus, the keys when it has it, the mouse when it's on it, the changes of area. -/
def Desk.gives (d : Desk) (n : InputName) : View.Event → List FieldOp
  | .key k clip =>
    if k = keyEsc ∨ k = keyTab then [.setFocus (decide ((d.next (.key k clip)).focus = n.focus))]
    else if d.focus = n.focus then keyOps k clip
    else []
  | .mouse e =>
    (if d.pointed e.x e.y = n.focus then [.mouse e.kind e.x e.y e.mods e.double] else []) ++ [.setFocus (decide (d.pointed e.x e.y = n.focus))]
  | .resize w h => if largeEnough w h then [.setArea (inputIn w h n)] else []
  | .other => []

/-- What a field receives first. -/
def firstOps (text : Text) (width height : Nat) (n : InputName) : List FieldOp :=
  (match n with
    | .login => []
    | .password => [.setPasswordMode true, .setFocus false]
    | .comments => [.setFocus false, .newLineOn keyEnter, .setStr text]) ++
  if largeEnough width height then [.setArea (inputIn width height n)] else []

/-- What a field receives for the events. -/
def Desk.givesAll (d : Desk) (n : InputName) : List View.Event → List FieldOp
  | [] => []
  | e :: es => d.gives n e ++ (d.next e).givesAll n es

/-- Operations on a field which is alone. -/
def alone (cw : Char → Nat) (alnum : Char → Bool) (f : InputField) : List FieldOp → Run InputField
  | [] => some f
  | op :: ops => do
    let r ← op.exec cw alnum f
    alone cw alnum r.1 ops

/-- What the introduction receives for an event: the keys when it has the focus, and the changes of area. -/
def Desk.toIntro (d : Desk) : View.Event → List MadOp
  | .key k _ => if k = keyEsc ∨ k = keyTab then [] else if d.focus = .introduction then [.key k] else []
  | .mouse _ => []
  | .resize w h => if largeEnough w h then [.resize (introIn w h)] else []
  | .other => []

/-- What the introduction receives for the events. -/
def Desk.toIntroAll (d : Desk) : List View.Event → List MadOp
  | [] => []
  | e :: es => d.toIntro e ++ (d.next e).toIntroAll es

/-- Operations on a markdown view which is alone. -/
def aloneMad (cw : Char → Nat) (ws : Char → Bool) (m : MadView) : List MadOp → Run MadView
  | [] => some m
  | op :: ops => do
    let m ← op.exec cw ws m
    aloneMad cw ws m ops

/-- The form after the events. -/
def runForm (cw : Char → Nat) (ws alnum : Char → Bool) (v : View) : List View.Event → Run View
  | [] => some v
  | e :: es => do
    let r ← v.apply cw ws alnum e
    runForm cw ws alnum r.1 es

/-- Terminals have less than 65000 rows and columns. -/
def SmallSize (width height : Nat) : Prop := width < 65000 ∧ height < 65000

/-- The changes of size in the events. -/
def SmallSizes (es : List View.Event) : Prop := ∀ w h, View.Event.resize w h ∈ es → SmallSize w h

/-- A skin for the texts of the form: all its marks take a column, its styles have no conflicting attributes, and it has no margins. -/
structure FormSkin (cw : Char → Nat) (skin : Skin) : Prop where
  tidy : TidySkin skin
  columns : OneColumnSkin cw skin
  thumb : piecesCols cw skin.scrollbar.thumb.display = 1
  track : piecesCols cw skin.scrollbar.track.display = 1
  margins : ∀ k ls, styleOf skin k = some ls → ls.leftMargin + ls.rightMargin = 0

/-- A text of the form: it fits in all the widths. -/
def FormText (cw : Char → Nat) (skin : Skin) (mlines : List MLine) : Prop := ∀ w, 3 ≤ w → FittingText cw skin w mlines

/-- Texts which can all be displayed. -/
structure FormTexts (cw : Char → Nat) (c : Config) : Prop where
  skin : FormSkin cw c.skin
  labelSkin : FormSkin cw c.labelSkin
  introduction : FormText cw c.skin c.introduction
  login : FormText cw c.labelSkin c.loginLabel
  password : FormText cw c.labelSkin c.passwordLabel
  comments : FormText cw c.labelSkin c.commentsLabel
  tooSmall : FormText cw c.skin c.tooSmall

/-- An input which can be displayed: without tabulations, unless they are hidden, and with less than 65536 lines and rows before its end. -/
def ShownInput (f : InputField) : Prop :=
  (f.passwordMode = true ∨ ∀ l ∈ f.content.lines, '\t' ∉ l) ∧ f.content.lines.length < 65536 ∧
    f.area.top + f.area.height + f.scroll.y + 1 < 65536

/-- The label of an input. -/
def labelText (c : Config) : InputName → List MLine
  | .login => c.loginLabel
  | .password => c.passwordLabel
  | .comments => c.commentsLabel

end Verif.Spec
