import Verif.Spec.Style
import Verif.Spec.FmtText
/-! Specification of what the skin changes in what is written. -/
namespace Verif

/-- Alignment and margins of a line style: all but the colors and attributes. -/
def Spec.lineShape (ls : LineStyle) : Alignment × Nat × Nat := (ls.align, ls.leftMargin, ls.rightMargin)

/-- Two skins which only differ by colors and attributes: same alignments and margins, same characters, same indentation mode. -/
structure Spec.SameShape (a b : Skin) : Prop where
  paragraph : lineShape a.paragraph = lineShape b.paragraph
  codeBlock : lineShape a.codeBlock = lineShape b.codeBlock
  headers : ∀ i, lineShape (a.headers i) = lineShape (b.headers i)
  table : a.table.align = b.table.align
  indentMode : a.indentMode = b.indentMode
  bullet : a.bullet.drawn.2 = b.bullet.drawn.2
  quoteMark : a.quoteMark.drawn.2 = b.quoteMark.drawn.2
  horizontalRule : a.horizontalRule.char = b.horizontalRule.char
  borders : a.tableBorderChars = b.tableBorderChars
  special : ∀ c, (a.specialChars c).map (·.drawn.2) = (b.specialChars c).map (·.drawn.2)

/-- The text of all the lines displayed for a markdown text: formatting (`FmtText::from_text`) then display. -/
def Spec.shownText (cw : Char → Nat) (ws : Char → Bool) (skin : Skin) (mlines : List MLine) (width : Option Nat) : Option (List Text) := do
  let t ← FmtText.fromText cw ws skin mlines width
  let drawn ← t.display skin
  some (drawn.map piecesText)

/-- The same, with the styles. -/
def Spec.shownPieces (cw : Char → Nat) (ws : Char → Bool) (skin : Skin) (mlines : List MLine) (width : Option Nat) : Option (List (List Piece)) := do
  let t ← FmtText.fromText cw ws skin mlines width
  t.display skin

/-- What changes the colors of a skin. -/
inductive ColorOp
  | setFg (c : Color)
  | setBg (c : Color)
  | setHeadersFg (c : Color)
  | setHeadersBg (c : Color)
  | setGlobalBg (c : Color)
  | blendWith (mix : Color → Color)

/-- One operation, by the methods of src/skin.rs 178-271. -/
def ColorOp.run (skin : Skin) : ColorOp → Skin
  | .setFg c => skin.setFg c
  | .setBg c => skin.setBg c
  | .setHeadersFg c => skin.setHeadersFg c
  | .setHeadersBg c => skin.setHeadersBg c
  | .setGlobalBg c => skin.setGlobalBg c
  | .blendWith mix => skin.blendWith mix

/-- A composite without code, neither as a block nor inline. -/
def Spec.NoCode (kind : Kind) (cs : List Compound) : Prop := kind ≠ .code ∧ ∀ p ∈ styledChars cs, p.2.code = false

/-- A line without code. -/
def Spec.NoCodeLine : FmtLine → Prop
  | .normal fc => NoCode fc.kind fc.compounds
  | .tableRow cells => ∀ fc ∈ cells, NoCode fc.kind fc.compounds
  | _ => True

/-- The same, for a line of source. -/
def Spec.NoCodeSource : MLine → Prop
  | .normal k cs => NoCode k cs
  | .tableRow cells => ∀ c ∈ cells, NoCode c.1 c.2
  | _ => True

/-- The characters of a line of source. -/
def Spec.sourceChars : MLine → Text
  | .normal _ cs => (styledChars cs).map (·.1)
  | .tableRow cells => cells.flatMap fun c => (styledChars c.2).map (·.1)
  | _ => []

/-- The characters a skin may add: blanks, bullet, quote mark, rule, borders, replacements of compounds. -/
def Spec.IsSkinChar (skin : Skin) (ch : Char) : Prop :=
  ch = ' ' ∨ ch = skin.bullet.drawn.2 ∨ ch = skin.quoteMark.drawn.2 ∨ ch = skin.horizontalRule.char ∨
  ch ∈ [skin.tableBorderChars.horizontal, skin.tableBorderChars.vertical,
    skin.tableBorderChars.topLeftCorner, skin.tableBorderChars.topRightCorner,
    skin.tableBorderChars.bottomRightCorner, skin.tableBorderChars.bottomLeftCorner,
    skin.tableBorderChars.topJunction, skin.tableBorderChars.rightJunction,
    skin.tableBorderChars.bottomJunction, skin.tableBorderChars.leftJunction, skin.tableBorderChars.cross] ∨
  ∃ c sc, skin.specialChars c = some sc ∧ ch = sc.drawn.2

end Verif
