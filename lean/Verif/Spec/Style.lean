import Verif.Model.SkinOps
/-! Specification of the styles and styled characters. -/
namespace Verif

/-- What a compound is styled with, from the weakest to the strongest: the style of its line, then the style of each of
its markers. -/
def Spec.layers (skin : Skin) (ls : LineStyle) (c : Compound) : List CompoundStyle :=
  [ls.style] ++ (if c.flags.italic then [skin.italic] else []) ++ (if c.flags.strikeout then [skin.strikeout] else []) ++
    (if c.flags.bold then [skin.bold] else []) ++ (if c.flags.code then [skin.inlineCode] else [])

/-- The color defined by the strongest of the layers which define one. -/
def Spec.topmost (color : CompoundStyle → Option Color) (layers : List CompoundStyle) : Option Color :=
  layers.foldl (fun acc s => match color s with | some c => some c | none => acc) none

/-- What can be done to a `StyledChar`: its setters and `blend_with` (for some color and weight). -/
inductive SCOp
  | setChar (c : Char)
  | setFg (c : Color)
  | setBg (c : Color)
  | setCompoundStyle (s : CompoundStyle)
  | blendWith (mix : Color → Color)

/-- One operation, by the methods of src/styled_char.rs 50-103. -/
def SCOp.run (sc : StyledChar) : SCOp → StyledChar
  | .setChar c => sc.setChar c
  | .setFg c => sc.setFg c
  | .setBg c => sc.setBg c
  | .setCompoundStyle s => sc.setCompoundStyle s
  | .blendWith mix => sc.blendWith mix

/-- Is it one of the setters? -/
def SCOp.IsSetter : SCOp → Prop
  | .blendWith _ => False
  | _ => True

/-- What is drawn when the char is displayed is what the accessors (`get_char`, `compound_style`) say. -/
def Spec.DrawsItsState (sc : StyledChar) : Prop := sc.display = [(sc.style, [sc.char])]

/-- The setters of a skin. -/
inductive SkinOp
  | setFg (c : Color)
  | setBg (c : Color)
  | setHeadersFg (c : Color)
  | setHeadersBg (c : Color)
  | setGlobalBg (c : Color)
  | limitToAscii

/-- One operation, by the methods of src/skin.rs 166-271. -/
def SkinOp.run (skin : Skin) : SkinOp → Skin
  | .setFg c => skin.setFg c
  | .setBg c => skin.setBg c
  | .setHeadersFg c => skin.setHeadersFg c
  | .setHeadersBg c => skin.setHeadersBg c
  | .setGlobalBg c => skin.setGlobalBg c
  | .limitToAscii => skin.limitToAscii

/-- All the styled characters of a skin. -/
def Spec.IsCharOf (skin : Skin) (sc : StyledChar) : Prop :=
  sc = skin.bullet ∨ sc = skin.quoteMark ∨ sc = skin.horizontalRule ∨ sc = skin.scrollbar.track ∨ sc = skin.scrollbar.thumb ∨
    ∃ c, skin.specialChars c = some sc

end Verif
