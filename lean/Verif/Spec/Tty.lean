import Verif.Model.Tty
import Verif.Spec.Cells
/-! Specification of a terminal with a pen: the colors and attributes which the next printed characters have. -/
namespace Verif.Spec

/-- A terminal. The pen has no color when it's the default one. -/
structure Tty where
  cells : Cells CompoundStyle
  x : Nat
  y : Nat
  pen : CompoundStyle := {}

/-- The color of the pen for a color which is set: `Color::Reset` is the default color. -/
def penColor (c : Color) : Option Color := if c = .reset then none else some c

/-- The pen changed by what is in a style. -/
def over (s pen : CompoundStyle) : CompoundStyle where
  fg := match s.fg with | some c => penColor c | none => pen.fg
  bg := match s.bg with | some c => penColor c | none => pen.bg
  underline := match s.underline with | some c => penColor c | none => pen.underline
  attrs := pen.attrs ||| s.attrs

/-- The pen after crossterm's `PrintStyledContent`: everything is reset if there are attributes, otherwise the background is reset if the
style has one, the foreground if the style has one or has a color of underline. -/
def penAfter (s pen : CompoundStyle) : CompoundStyle :=
  if s.attrs = 0#32 then
    { over s pen with
      fg := if s.fg.isSome ∨ s.underline.isSome then none else pen.fg
      bg := if s.bg.isSome then none else pen.bg }
  else {}

/-- The effect of a command. -/
def Tty.exec (cw : Char → Nat) (t : Tty) : TtyCmd → Tty
  | .moveTo x y => { t with x, y }
  | .setFg c => { t with pen := { t.pen with fg := penColor c } }
  | .setBg c => { t with pen := { t.pen with bg := penColor c } }
  | .print text => { t with cells := printText cw t.y t.pen t.x text t.cells, x := t.x + textWidth cw text }
  | .styled s text =>
    { t with cells := printText cw t.y (over s t.pen) t.x text t.cells, x := t.x + textWidth cw text, pen := penAfter s t.pen }
  | .clearLine => { t with cells := fun x y => if y = t.y ∧ t.x ≤ x then ({ bg := t.pen.bg }, ' ', 0) else t.cells x y }

/-- The effect of commands. -/
def Tty.play (cw : Char → Nat) (t : Tty) (cmds : List TtyCmd) : Tty := cmds.foldl (Tty.exec cw) t

/-- A style as it's seen on a terminal whose pen is the default one. -/
def seen (s : CompoundStyle) : CompoundStyle :=
  { s with fg := s.fg.bind penColor, bg := s.bg.bind penColor, underline := s.underline.bind penColor }

/-- A style which has no color of underline, or has attributes. (crossterm doesn't reset the color of underline without attributes.) -/
def Tidy (s : CompoundStyle) : Prop := s.underline = none ∨ s.attrs ≠ 0#32

/-- A skin whose styles are such (those of bold, italic, strikeout and inline code don't matter: their color of underline is never used). -/
structure TidySkin (skin : Skin) : Prop where
  paragraph : Tidy skin.paragraph.style
  headers : ∀ i, Tidy (skin.headers i).style
  codeBlock : Tidy skin.codeBlock.style
  table : Tidy skin.table.style
  ellipsis : Tidy skin.ellipsis
  bullet : Tidy skin.bullet.drawn.1
  quoteMark : Tidy skin.quoteMark.drawn.1
  horizontalRule : Tidy skin.horizontalRule.style
  thumb : Tidy skin.scrollbar.thumb.drawn.1
  track : Tidy skin.scrollbar.track.drawn.1
  special : ∀ c r, skin.specialChars c = some r → Tidy r.drawn.1

/-- Pieces as they are seen. -/
def seenPieces (ps : List Piece) : List Piece := ps.map fun p => (seen p.1, p.2)

/-- Printing rows of pieces. -/
def printSeen (cw : Char → Nat) (rows : List (Nat × Nat × List Piece)) (g : Cells CompoundStyle) : Cells CompoundStyle :=
  printRows cw (rows.map fun r => (r.1, r.2.1, seenPieces r.2.2)) g

/-- The rest of a line, cleared. -/
def clearFrom (x y : Nat) (g : Cells CompoundStyle) : Cells CompoundStyle :=
  fun x' y' => if y' = y ∧ x ≤ x' then ({}, ' ', 0) else g x' y'

/-- What a row of a list changes: the line is cleared or written, then there's the scrollbar. -/
def printBodyRow (cw : Char → Nat) (g : Cells CompoundStyle) (r : ListView.BodyRow) : Cells CompoundStyle :=
  let g1 := match r.content with
    | some (_, ps) => printSeen cw [(r.x, r.y, ps)] g
    | none => clearFrom r.x r.y g
  match r.bar with
  | some bar => printSeen cw [bar] g1
  | none => g1

/-- What a list changes. -/
def printList (cw : Char → Nat) (w : ListView.Written) (g : Cells CompoundStyle) : Cells CompoundStyle :=
  w.body.foldl (printBodyRow cw) (printSeen cw [(w.titles.x, w.titles.y, w.titles.pieces), (w.rule.x, w.rule.y, w.rule.pieces)] g)

end Verif.Spec
