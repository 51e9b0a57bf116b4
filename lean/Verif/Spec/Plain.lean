import Verif.Model.Print
/-! Specification of what reaches a terminal when commands are written on it, for those which print. -/
namespace Verif.Spec

/-- The character starting the escape sequences. -/
def escChar : Char := '\x1b'

/-- What crossterm writes for a command (external): the characters of a text, which are all there is when there's no style, and, when there's
one, escape sequences. -/
structure AnsiWriter where
  enc : TtyCmd → Text
  print : ∀ t, enc (.print t) = t
  plain : ∀ t, enc (.styled {} t) = t
  colored : ∀ s t, s ≠ {} → escChar ∈ enc (.styled s t)

/-- The characters written for commands. -/
def AnsiWriter.stream (w : AnsiWriter) (cmds : List TtyCmd) : Text := cmds.flatMap w.enc

/-- A style which adds no color and no attribute to another one (the color of underline isn't added). -/
def AddsNothing (s : CompoundStyle) : Prop := s.fg = none ∧ s.bg = none ∧ s.attrs = 0#32

/-- A skin without colors and without attributes, the scrollbar excepted. -/
structure PlainSkin (skin : Skin) : Prop where
  paragraph : skin.paragraph.style = {}
  headers : ∀ i, (skin.headers i).style = {}
  codeBlock : skin.codeBlock.style = {}
  table : skin.table.style = {}
  ellipsis : skin.ellipsis = {}
  bold : AddsNothing skin.bold
  italic : AddsNothing skin.italic
  strikeout : AddsNothing skin.strikeout
  inlineCode : AddsNothing skin.inlineCode
  bullet : skin.bullet.drawn.1 = {}
  quoteMark : skin.quoteMark.drawn.1 = {}
  horizontalRule : skin.horizontalRule.style = {}
  special : ∀ c r, skin.specialChars c = some r → r.drawn.1 = {}

/-- Lines as characters, each one ended. -/
def endedLines (lines : List Text) : Text := lines.flatMap fun l => l ++ ['\n']

end Verif.Spec
