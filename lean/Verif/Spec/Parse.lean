import Verif.Model.Parse
/-! Specification of what is read of the writing of a style. -/
namespace Verif

/-- What is needed of the Unicode classes: they're the usual ones for ASCII characters. -/
structure Spec.RegexClasses (k : Classes) : Prop where
  space : k.ws ' ' = true
  visible : ∀ c : Char, 33 ≤ c.toNat → c.toNat < 127 → k.ws c = false
  digit : ∀ c : Char, c.toNat < 128 → k.dg c = decide (48 ≤ c.toNat ∧ c.toNat ≤ 57)
  word : ∀ c : Char, c.toNat < 128 → k.wd c =
    decide ((48 ≤ c.toNat ∧ c.toNat ≤ 57) ∨ (65 ≤ c.toNat ∧ c.toNat ≤ 90) ∨ (97 ≤ c.toNat ∧ c.toNat ≤ 122) ∨ c = '_')

/-- The color which is read back for a color: the `Reset` is lost, some dark colors are lightened, black and white are fixed ones. -/
def Spec.reread : Color → Option Color
  | .reset => none
  | .black => some (.ansi 16)
  | .white => some (.ansi 231)
  | .darkGrey => some .grey
  | .darkYellow => some .yellow
  | .darkBlue => some .blue
  | .darkCyan => some .cyan
  | c => some c

/-- The components are bytes. -/
def Spec.IsColor : Color → Prop
  | .rgb r g b => r < 256 ∧ g < 256 ∧ b < 256
  | .ansi v => v < 256
  | _ => True

/-- The attributes which are written. -/
def Spec.IsWritten (a : Attr) : Prop :=
  a = .bold ∨ a = .dim ∨ a = .italic ∨ a = .underlined ∨ a = .reverse ∨ a = .crossedOut ∨ a = .encircled ∨ a = .overLined

/-- The bits of the attributes which are written. -/
def Spec.writtenBits : Attrs :=
  Attr.bytes .bold ||| Attr.bytes .dim ||| Attr.bytes .italic ||| Attr.bytes .underlined |||
  Attr.bytes .reverse ||| Attr.bytes .crossedOut ||| Attr.bytes .encircled ||| Attr.bytes .overLined

/-- The style which is read back for a style: both colors are read back (when the foreground is `Reset`, the background is read
as foreground), the underline color is lost, and so are the attributes which aren't written. -/
def Spec.rereadStyle (s : CompoundStyle) : CompoundStyle where
  fg := if s.fg = some .reset then s.bg.bind reread else s.fg.bind reread
  bg := if s.fg = some .reset then none else s.bg.bind reread
  underline := none
  attrs := s.attrs &&& writtenBits

/-- The line style which is read back: margins over 65535 are lost. -/
def Spec.rereadLine (ls : LineStyle) : LineStyle where
  style := rereadStyle ls.style
  align := ls.align
  leftMargin := if ls.leftMargin < 65536 then ls.leftMargin else 0
  rightMargin := if ls.rightMargin < 65536 then ls.rightMargin else 0

/-- The token which is read back for a token, if any: digits are read as numbers, whitespace and parentheses aren't read. -/
def Spec.rereadToken (k : Classes) : StyleToken → Option StyleToken
  | .char c =>
    if k.ws c ∨ c = '(' ∨ c = ')' then none
    else if 48 ≤ c.toNat ∧ c.toNat ≤ 57 then some (.dimension (c.toNat - 48))
    else some (.char c)
  | .color c => (reread c).map .color
  | .align .unspecified => none
  | t => some t

/-- The numbers are in their types, and attributes are among those which are written for styles. -/
def Spec.IsToken : StyleToken → Prop
  | .color c => IsColor c
  | .attribute a => IsWritten a
  | .dimension n => n < 65536
  | _ => True

/-- Whitespace, parentheses and decimal digits can't be read as characters. -/
def Spec.IsReadable (k : Classes) (c : Char) : Prop :=
  k.ws c = false ∧ c ≠ '(' ∧ c ≠ ')' ∧ ¬ (48 ≤ c.toNat ∧ c.toNat ≤ 57)

/-- A color which is faithfully written. -/
def Spec.Faithful (c : Color) : Prop :=
  IsColor c ∧ c ≠ .reset ∧ c ≠ .black ∧ c ≠ .white ∧ c ≠ .darkGrey ∧ c ≠ .darkYellow ∧ c ≠ .darkBlue ∧ c ≠ .darkCyan

/-- A style whose colors are faithfully written, without underline color, and without other attributes than those which are written. -/
structure Spec.FaithfulStyle (s : CompoundStyle) : Prop where
  fg : ∀ c, s.fg = some c → Faithful c
  bg : ∀ c, s.bg = some c → Faithful c
  underline : s.underline = none
  attrs : s.attrs &&& writtenBits = s.attrs

end Verif
