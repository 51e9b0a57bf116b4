import Verif.Model.Basic
/-! Model of `src/compound_style.rs`, `src/styled_char.rs`, `src/line_style.rs`, `src/color.rs`,
`src/scrollbar_style.rs`, `src/table_border_chars.rs`. -/
namespace Verif

/-- `crossterm::style::Color` (external type, re-declared; `u8` components are `Nat`). -/
inductive Color
  | reset | black | darkGrey | red | darkRed | green | darkGreen | yellow | darkYellow | blue | darkBlue
  | magenta | darkMagenta | cyan | darkCyan | white | grey
  | rgb (r g b : Nat)
  | ansi (v : Nat)
  deriving DecidableEq, Repr

/-- `gray`, src/color.rs 13-16 (the argument is a `u8`, hence no overflow). -/
def gray (level : Nat) : Color := .ansi (0xE8 + min level 23)

/-- `crossterm::style::Attribute` (external type, re-declared in the same order). -/
inductive Attr
  | reset | bold | dim | italic | underlined | doubleUnderlined | undercurled | underdotted | underdashed
  | slowBlink | rapidBlink | reverse | hidden | crossedOut | fraktur | noBold | normalIntensity | noItalic
  | noUnderline | noBlink | noReverse | noHidden | notCrossedOut | framed | encircled | overLined
  | notFramedOrEncircled | notOverLined
  deriving DecidableEq, Repr

/-- `Attribute as u32` (external: declaration order). -/
def Attr.index : Attr → Nat
  | .reset => 0 | .bold => 1 | .dim => 2 | .italic => 3 | .underlined => 4 | .doubleUnderlined => 5
  | .undercurled => 6 | .underdotted => 7 | .underdashed => 8 | .slowBlink => 9 | .rapidBlink => 10
  | .reverse => 11 | .hidden => 12 | .crossedOut => 13 | .fraktur => 14 | .noBold => 15
  | .normalIntensity => 16 | .noItalic => 17 | .noUnderline => 18 | .noBlink => 19 | .noReverse => 20
  | .noHidden => 21 | .notCrossedOut => 22 | .framed => 23 | .encircled => 24 | .overLined => 25
  | .notFramedOrEncircled => 26 | .notOverLined => 27

/-- `crossterm::style::Attributes` (external): a bit set of attributes. -/
abbrev Attrs := BitVec 32

/-- `Attribute::bytes` (external): the bit of an attribute. -/
def Attr.bytes (a : Attr) : Attrs := BitVec.twoPow 32 (a.index + 1)

/-- `Attributes::set` (external). -/
def Attrs.set (s : Attrs) (a : Attr) : Attrs := s ||| a.bytes
/-- `Attributes::unset` (external). -/
def Attrs.unset (s : Attrs) (a : Attr) : Attrs := s &&& ~~~ a.bytes
/-- `Attributes::has` (external). -/
def Attrs.has (s : Attrs) (a : Attr) : Bool := (s &&& a.bytes) != 0#32
/-- `Attributes::extend` (external). -/
def Attrs.extend (s o : Attrs) : Attrs := s ||| o

/-- `CompoundStyle`, src/compound_style.rs 41-45, a wrapper over crossterm's `ContentStyle`. -/
structure CompoundStyle where
  fg : Option Color := none
  bg : Option Color := none
  underline : Option Color := none
  attrs : Attrs := 0#32
  deriving DecidableEq, Repr

namespace CompoundStyle

/-- `CompoundStyle::new`, src/compound_style.rs 63-76. -/
def new (fg bg : Option Color) (attrs : Attrs) : CompoundStyle := { fg, bg, underline := none, attrs }

/-- `CompoundStyle::blend_with`, src/compound_style.rs 82-93. `mix` is `coolor::Color::blend` with the given
destination color and weight (not modelled; a weight out of [0, 1] panics in debug). Both `if let` of the code look at the foreground. -/
def blendWith (s : CompoundStyle) (mix : Color → Color) : CompoundStyle :=
  let s1 := { s with fg := s.fg.map mix }
  { s1 with fg := s1.fg.map mix }

/-- `CompoundStyle::with_fgbg`, src/compound_style.rs 96-98. -/
def withFgBg (fg bg : Color) : CompoundStyle := new (some fg) (some bg) 0#32
/-- `CompoundStyle::with_fg`, src/compound_style.rs 101-103. -/
def withFg (fg : Color) : CompoundStyle := new (some fg) none 0#32
/-- `CompoundStyle::with_bg`, src/compound_style.rs 106-108. -/
def withBg (bg : Color) : CompoundStyle := new none (some bg) 0#32
/-- `CompoundStyle::add_attr`, src/compound_style.rs 134-136. -/
def addAttr (s : CompoundStyle) (a : Attr) : CompoundStyle := { s with attrs := Attrs.set s.attrs a }
/-- `CompoundStyle::with_attr`, src/compound_style.rs 111-115. -/
def withAttr (a : Attr) : CompoundStyle := ({} : CompoundStyle).addAttr a
/-- `CompoundStyle::set_fg`, src/compound_style.rs 118-120. -/
def setFg (s : CompoundStyle) (c : Color) : CompoundStyle := { s with fg := some c }
/-- `CompoundStyle::set_bg`, src/compound_style.rs 123-125. -/
def setBg (s : CompoundStyle) (c : Color) : CompoundStyle := { s with bg := some c }
/-- `CompoundStyle::set_fgbg`, src/compound_style.rs 128-131. -/
def setFgBg (s : CompoundStyle) (f b : Color) : CompoundStyle := { s with fg := some f, bg := some b }
/-- `CompoundStyle::has_attr`, src/compound_style.rs 139-141. -/
def hasAttr (s : CompoundStyle) (a : Attr) : Bool := Attrs.has s.attrs a
/-- `CompoundStyle::remove_attr`, src/compound_style.rs 144-146. -/
def removeAttr (s : CompoundStyle) (a : Attr) : CompoundStyle := { s with attrs := Attrs.unset s.attrs a }

/-- `CompoundStyle::overwrite_with`, src/compound_style.rs 150-162. The underline color is not touched. -/
def overwriteWith (s o : CompoundStyle) : CompoundStyle :=
  { s with
    fg := o.fg.or s.fg
    bg := o.bg.or s.bg
    attrs := Attrs.extend s.attrs o.attrs }

end CompoundStyle

/-- Something written on the terminal: a text in a style (`StyledContent`). See src/compound_style.rs 179 and 209. -/
abbrev Piece := CompoundStyle × Text

/-- `CompoundStyle::repeat_char`, `repeat_string` with a string of one character, and `repeat_space`, src/compound_style.rs 176-200, and
`LineStyle::repeat_char` and `repeat_space`, src/line_style.rs 78-86. -/
def repeatChar (s : CompoundStyle) (c : Char) (count : Nat) : List Piece :=
  if count > 0 then [(s, List.replicate count c)] else []

/-- `StyledChar`, src/styled_char.rs 25-30. `drawn` is the redundant `styled_char` field. -/
structure StyledChar where
  style : CompoundStyle
  char : Char
  drawn : CompoundStyle × Char
  deriving DecidableEq, Repr

namespace StyledChar

/-- `StyledChar::new`, src/styled_char.rs 33-39. -/
def new (style : CompoundStyle) (char : Char) : StyledChar := { style, char, drawn := (style, char) }
/-- `StyledChar::nude`, src/styled_char.rs 40-42. -/
def nude (char : Char) : StyledChar := new {} char
/-- `StyledChar::from_fg_char`, src/styled_char.rs 46-48. -/
def fromFgChar (fg : Color) (char : Char) : StyledChar := new (CompoundStyle.withFg fg) char
/-- `StyledChar::set_char`, src/styled_char.rs 50-53. -/
def setChar (s : StyledChar) (c : Char) : StyledChar := { s with char := c, drawn := (s.style, c) }
/-- `StyledChar::set_fg`, src/styled_char.rs 58-61. -/
def setFg (s : StyledChar) (c : Color) : StyledChar :=
  { s with style := s.style.setFg c, drawn := (s.style.setFg c, s.char) }
/-- `StyledChar::set_bg`, src/styled_char.rs 66-69. -/
def setBg (s : StyledChar) (c : Color) : StyledChar :=
  { s with style := s.style.setBg c, drawn := (s.style.setBg c, s.char) }
/-- `StyledChar::set_compound_style`, src/styled_char.rs 74-77. -/
def setCompoundStyle (s : StyledChar) (st : CompoundStyle) : StyledChar :=
  { s with style := st, drawn := (st, s.char) }
/-- `StyledChar::blend_with`, src/styled_char.rs 101-103: the redundant field isn't updated. -/
def blendWith (s : StyledChar) (mix : Color → Color) : StyledChar := { s with style := s.style.blendWith mix }
/-- `Display for StyledChar` and `StyledChar::queue`, src/styled_char.rs 97-100, 106-110. -/
def display (s : StyledChar) : List Piece := [(s.drawn.1, [s.drawn.2])]
/-- `StyledChar::repeated` and `queue_repeat`, src/styled_char.rs 83-96. -/
def repeated (s : StyledChar) (count : Nat) : List Piece := [(s.style, List.replicate count s.char)]

end StyledChar

/-- `LineStyle`, src/line_style.rs 19-24. -/
structure LineStyle where
  style : CompoundStyle := {}
  align : Alignment := .unspecified
  leftMargin : Nat := 0
  rightMargin : Nat := 0
  deriving DecidableEq, Repr

/-- `LineStyle::margins_in`, src/line_style.rs 29-36. -/
def LineStyle.marginsIn (ls : LineStyle) (available : Option Nat) : Nat × Nat :=
  match available with
  | some width => if width < ls.leftMargin + ls.rightMargin + 3 then (0, 0) else (ls.leftMargin, ls.rightMargin)
  | none => (ls.leftMargin, ls.rightMargin)

/-- `LineStyle::blend_with`, src/line_style.rs 88-90. -/
def LineStyle.blendWith (ls : LineStyle) (mix : Color → Color) : LineStyle :=
  { ls with style := ls.style.blendWith mix }

/-- `ScrollBarStyle`, src/scrollbar_style.rs 12-16. -/
structure ScrollBarStyle where
  track : StyledChar
  thumb : StyledChar
  deriving DecidableEq, Repr

/-- `ScrollBarStyle::new`, src/scrollbar_style.rs 19-25. -/
def ScrollBarStyle.new : ScrollBarStyle :=
  { track := StyledChar.fromFgChar (gray 5) '▐', thumb := StyledChar.fromFgChar (gray 21) '▐' }

/-- `ScrollBarStyle::set_bg`, src/scrollbar_style.rs 26-29. -/
def ScrollBarStyle.setBg (s : ScrollBarStyle) (c : Color) : ScrollBarStyle :=
  { track := s.track.setBg c, thumb := s.thumb.setBg c }

/-- `From<StyledChar> for ScrollBarStyle`, src/scrollbar_style.rs 38-46. -/
def ScrollBarStyle.ofStyledChar (sc : StyledChar) : ScrollBarStyle :=
  { track := StyledChar.fromFgChar (sc.style.bg.getD (gray 5)) sc.char
    thumb := StyledChar.fromFgChar (sc.style.fg.getD (gray 21)) sc.char }

/-- `TableBorderChars`, src/table_border_chars.rs 2-15. -/
structure TableBorderChars where
  horizontal : Char
  vertical : Char
  topLeftCorner : Char
  topRightCorner : Char
  bottomRightCorner : Char
  bottomLeftCorner : Char
  topJunction : Char
  rightJunction : Char
  bottomJunction : Char
  leftJunction : Char
  cross : Char
  deriving DecidableEq, Repr

/-- `STANDARD_TABLE_BORDER_CHARS`, src/table_border_chars.rs 43-55. -/
def TableBorderChars.standard : TableBorderChars where
  horizontal := '─'
  vertical := '│'
  topLeftCorner := '┌'
  topRightCorner := '┐'
  bottomRightCorner := '┘'
  bottomLeftCorner := '└'
  topJunction := '┬'
  rightJunction := '┤'
  bottomJunction := '┴'
  leftJunction := '├'
  cross := '┼'

/-- `ASCII_TABLE_BORDER_CHARS`, src/table_border_chars.rs 60-72. -/
def TableBorderChars.ascii : TableBorderChars where
  horizontal := '-'
  vertical := '|'
  topLeftCorner := '+'
  topRightCorner := '+'
  bottomRightCorner := '+'
  bottomLeftCorner := '+'
  topJunction := '+'
  rightJunction := '+'
  bottomJunction := '+'
  leftJunction := '+'
  cross := '+'

/-- `ROUNDED_TABLE_BORDER_CHARS`, src/table_border_chars.rs 80-92. -/
def TableBorderChars.rounded : TableBorderChars :=
  { TableBorderChars.standard with
    topLeftCorner := '╭', topRightCorner := '╮', bottomRightCorner := '╯', bottomLeftCorner := '╰' }

end Verif
