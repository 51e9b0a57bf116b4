import Verif.Model.Serde
import Verif.Spec.Parse
/-! Specification of what is read of the serialization of a skin. -/
namespace Verif
open Spec

/-- The styled char which is read back: those which can't be read are replaced with a star. -/
noncomputable def Spec.rereadChar (k : Classes) (sc : StyledChar) : StyledChar :=
  open Classical in StyledChar.new (rereadStyle sc.style) (if IsReadable k sc.char then sc.char else '*')

/-- A scrollbar which is written in short: the same character for both parts, and no background. -/
def Spec.IsSimple (sb : ScrollBarStyle) : Prop :=
  sb.track.char = sb.thumb.char ∧ sb.track.style.bg = none ∧ sb.thumb.style.bg = none

/-- The scrollbar which is read back. In the short case, only the foreground colors are kept, with defaults. -/
noncomputable def Spec.rereadScrollbar (k : Classes) (sb : ScrollBarStyle) : ScrollBarStyle :=
  open Classical in
  if IsSimple sb then
    let colors := rereadStyle { fg := sb.thumb.style.fg, bg := sb.track.style.fg }
    let char := if IsReadable k sb.track.char then sb.track.char else '*'
    { track := StyledChar.new { fg := some (colors.bg.getD (gray 5)) } char
      thumb := StyledChar.new { fg := some (colors.fg.getD (gray 21)) } char }
  else { track := rereadChar k sb.track, thumb := rereadChar k sb.thumb }

/-- The three sets of characters for tables of the crate. -/
def Spec.IsStandardBorder (t : TableBorderChars) : Prop :=
  t = TableBorderChars.standard ∨ t = TableBorderChars.ascii ∨ t = TableBorderChars.rounded

/-- The skin which is read back for a skin: custom characters for tables, the indentation mode of list items and special characters are
lost. -/
noncomputable def Spec.rereadSkin (k : Classes) (skin : Skin) : Skin :=
  open Classical in
  { paragraph := rereadLine skin.paragraph
    bold := rereadStyle skin.bold
    italic := rereadStyle skin.italic
    strikeout := rereadStyle skin.strikeout
    inlineCode := rereadStyle skin.inlineCode
    codeBlock := rereadLine skin.codeBlock
    headers := fun i => rereadLine (skin.headers i)
    scrollbar := rereadScrollbar k skin.scrollbar
    table := rereadLine skin.table
    bullet := rereadChar k skin.bullet
    quoteMark := rereadChar k skin.quoteMark
    horizontalRule := rereadChar k skin.horizontalRule
    ellipsis := rereadStyle skin.ellipsis
    tableBorderChars := if IsStandardBorder skin.tableBorderChars then skin.tableBorderChars else TableBorderChars.standard
    indentMode := .block
    specialChars := fun _ => none }

/-- The components of the colors of a style are bytes. -/
def Spec.IsStyle (s : CompoundStyle) : Prop := (∀ c, s.fg = some c → IsColor c) ∧ (∀ c, s.bg = some c → IsColor c)

/-- The components of all the colors of a skin are bytes. -/
structure Spec.IsSkin (skin : Skin) : Prop where
  paragraph : IsStyle skin.paragraph.style
  bold : IsStyle skin.bold
  italic : IsStyle skin.italic
  strikeout : IsStyle skin.strikeout
  inlineCode : IsStyle skin.inlineCode
  codeBlock : IsStyle skin.codeBlock.style
  headers : ∀ i, IsStyle (skin.headers i).style
  track : IsStyle skin.scrollbar.track.style
  thumb : IsStyle skin.scrollbar.thumb.style
  table : IsStyle skin.table.style
  bullet : IsStyle skin.bullet.style
  quoteMark : IsStyle skin.quoteMark.style
  horizontalRule : IsStyle skin.horizontalRule.style
  ellipsis : IsStyle skin.ellipsis

/-- A line style which is faithfully written. -/
def Spec.FaithfulLine (ls : LineStyle) : Prop := FaithfulStyle ls.style ∧ ls.leftMargin < 65536 ∧ ls.rightMargin < 65536

/-- A styled char which is faithfully written (and which is drawn as it should). -/
def Spec.FaithfulChar (k : Classes) (sc : StyledChar) : Prop :=
  FaithfulStyle sc.style ∧ (IsReadable k sc.char ∨ sc.char = '*') ∧ sc.drawn = (sc.style, sc.char)

/-- A part of a scrollbar which is faithfully written in short: nothing but a foreground color. -/
def Spec.FaithfulPart (k : Classes) (sc : StyledChar) : Prop :=
  ∃ c, Faithful c ∧ sc.style = { fg := some c } ∧ (IsReadable k sc.char ∨ sc.char = '*') ∧ sc.drawn = (sc.style, sc.char)

/-- A skin which is faithfully written. -/
structure Spec.FaithfulSkin (k : Classes) (skin : Skin) : Prop where
  paragraph : FaithfulLine skin.paragraph
  bold : FaithfulStyle skin.bold
  italic : FaithfulStyle skin.italic
  strikeout : FaithfulStyle skin.strikeout
  inlineCode : FaithfulStyle skin.inlineCode
  codeBlock : FaithfulLine skin.codeBlock
  headers : ∀ i, FaithfulLine (skin.headers i)
  scrollbar : (IsSimple skin.scrollbar → FaithfulPart k skin.scrollbar.track ∧ FaithfulPart k skin.scrollbar.thumb) ∧
    (¬ IsSimple skin.scrollbar → FaithfulChar k skin.scrollbar.track ∧ FaithfulChar k skin.scrollbar.thumb)
  table : FaithfulLine skin.table
  bullet : FaithfulChar k skin.bullet
  quoteMark : FaithfulChar k skin.quoteMark
  horizontalRule : FaithfulChar k skin.horizontalRule
  ellipsis : FaithfulStyle skin.ellipsis
  borders : IsStandardBorder skin.tableBorderChars
  indentMode : skin.indentMode = .block
  specialChars : ∀ c, skin.specialChars c = none

/-- The fields of a skin which can't be changed by entries with the given keys are the same in both skins. -/
structure Spec.SameBut (keys : List String) (z a : Skin) : Prop where
  bold : (∀ key ∈ keys, ¬ (key = "bold")) → a.bold = z.bold
  italic : (∀ key ∈ keys, ¬ (key = "italic")) → a.italic = z.italic
  strikeout : (∀ key ∈ keys, ¬ (key = "strikeout")) → a.strikeout = z.strikeout
  inlineCode : (∀ key ∈ keys, ¬ (key = "inline_code" ∨ key = "inline-code")) → a.inlineCode = z.inlineCode
  ellipsis : (∀ key ∈ keys, ¬ (key = "ellipsis")) → a.ellipsis = z.ellipsis
  bullet : (∀ key ∈ keys, ¬ (key = "bullet")) → a.bullet = z.bullet
  quoteMark : (∀ key ∈ keys, ¬ (key = "quote_mark" ∨ key = "quote" ∨ key = "quote-mark")) → a.quoteMark = z.quoteMark
  horizontalRule : (∀ key ∈ keys, ¬ (key = "horizontal_rule" ∨ key = "horizontal-rule" ∨ key = "rule")) → a.horizontalRule = z.horizontalRule
  scrollbar : (∀ key ∈ keys, ¬ (key = "scrollbar")) → a.scrollbar = z.scrollbar
  paragraph : (∀ key ∈ keys, ¬ (key = "paragraph")) → a.paragraph = z.paragraph
  codeBlock : (∀ key ∈ keys, ¬ (key = "code_block" ∨ key = "code-block")) → a.codeBlock = z.codeBlock
  table : (∀ key ∈ keys, ¬ (key = "table")) → a.table = z.table
  headers : (∀ key ∈ keys, ¬ (key = "headers")) → a.headers = z.headers
  tableBorderChars : (∀ key ∈ keys, ¬ (key = "table_border_chars" ∨ key = "table-border-chars")) → a.tableBorderChars = z.tableBorderChars
  indentMode : a.indentMode = z.indentMode
  specialChars : a.specialChars = z.specialChars

/-- A style added to a header: colors and alignment are changed if they're specified, attributes are added, margins are kept. -/
def Spec.addedStyle (ls h : LineStyle) : LineStyle :=
  { h with
    style := { h.style with fg := ls.style.fg.or h.style.fg, bg := ls.style.bg.or h.style.bg, attrs := h.style.attrs ||| (ls.style.attrs &&& writtenBits) }
    align := if ls.align = .unspecified then h.align else ls.align }

end Verif
