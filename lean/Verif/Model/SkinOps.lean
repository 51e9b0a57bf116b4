import Verif.Model.Composite
/-! Model of the constructors and setters of `src/skin.rs` and of the setters of `src/line_style.rs`. -/
namespace Verif

namespace LineStyle

/-- `From<CompoundStyle> for LineStyle`, src/line_style.rs 93-101, and `LineStyle::new`, 38-45, without alignment. -/
def ofStyle (style : CompoundStyle) : LineStyle := { style }
/-- `LineStyle::set_fg`, src/line_style.rs 49-51. -/
def setFg (ls : LineStyle) (c : Color) : LineStyle := { ls with style := ls.style.setFg c }
/-- `LineStyle::set_bg`, src/line_style.rs 55-57. -/
def setBg (ls : LineStyle) (c : Color) : LineStyle := { ls with style := ls.style.setBg c }
/-- `LineStyle::set_fgbg`, src/line_style.rs 60-62. -/
def setFgBg (ls : LineStyle) (f b : Color) : LineStyle := { ls with style := ls.style.setFgBg f b }
/-- `LineStyle::add_attr`, src/line_style.rs 66-68. -/
def addAttr (ls : LineStyle) (a : Attr) : LineStyle := { ls with style := ls.style.addAttr a }

end LineStyle

namespace Skin

/-- `MadSkin::default`, src/skin.rs 71-102. -/
def default : Skin where
  paragraph := {}
  bold := CompoundStyle.withAttr .bold
  italic := CompoundStyle.withAttr .italic
  strikeout := CompoundStyle.withAttr .crossedOut
  inlineCode := CompoundStyle.withFgBg (gray 17) (gray 3)
  codeBlock := ({} : LineStyle).setFgBg (gray 17) (gray 3)
  headers := fun i =>
    let h := ({} : LineStyle).addAttr .underlined
    if i = 0 then { h.addAttr .bold with align := .center } else h
  scrollbar := ScrollBarStyle.new
  table := LineStyle.ofStyle (CompoundStyle.withFg (gray 7))
  bullet := StyledChar.fromFgChar (gray 8) '•'
  quoteMark := StyledChar.new (CompoundStyle.new (some (gray 12)) none (Attrs.set 0#32 .bold)) '▐'
  horizontalRule := StyledChar.fromFgChar (gray 6) '―'
  ellipsis := {}
  tableBorderChars := TableBorderChars.standard
  indentMode := .block
  specialChars := fun _ => none

/-- `MadSkin::no_style`, src/skin.rs 112-132. -/
def noStyle : Skin where
  paragraph := {}
  bold := {}
  italic := {}
  strikeout := {}
  inlineCode := {}
  codeBlock := {}
  headers := fun _ => {}
  scrollbar := ScrollBarStyle.new
  table := {}
  bullet := StyledChar.nude '•'
  quoteMark := StyledChar.nude '▐'
  horizontalRule := StyledChar.nude '―'
  ellipsis := {}
  indentMode := .block
  specialChars := fun _ => none
  tableBorderChars := TableBorderChars.standard

/-- The three first headers of `default_dark` and `default_light`. See src/skin.rs 143-145 and 158-160. -/
def headersFg (skin : Skin) (c0 c1 c2 : Color) : Skin :=
  { skin with headers := fun i =>
      if i = 0 then (skin.headers i).setFg c0 else if i = 1 then (skin.headers i).setFg c1 else if i = 2 then (skin.headers i).setFg c2 else skin.headers i }

/-- `MadSkin::default_dark`, src/skin.rs 139-147. -/
def defaultDark : Skin :=
  headersFg { default with codeBlock := default.codeBlock.setFgBg (gray 20) (gray 5), inlineCode := default.inlineCode.setFgBg (gray 20) (gray 5) }
    (gray 22) (gray 21) (gray 20)

/-- `MadSkin::default_light`, src/skin.rs 154-162. -/
def defaultLight : Skin :=
  headersFg { default with codeBlock := default.codeBlock.setFgBg (gray 3) (gray 20), inlineCode := default.inlineCode.setFgBg (gray 4) (gray 20) }
    (gray 0) (gray 2) (gray 4)

/-- `MadSkin::limit_to_ascii`, src/skin.rs 166-171. -/
def limitToAscii (skin : Skin) : Skin :=
  { skin with
    tableBorderChars := TableBorderChars.ascii
    bullet := skin.bullet.setChar '*'
    quoteMark := skin.quoteMark.setChar '>'
    horizontalRule := skin.horizontalRule.setChar '-' }

/-- `MadSkin::blend_with`, src/skin.rs 178-193: the scrollbar isn't changed. -/
def blendWith (skin : Skin) (mix : Color → Color) : Skin :=
  { skin with
    paragraph := skin.paragraph.blendWith mix
    bold := skin.bold.blendWith mix
    italic := skin.italic.blendWith mix
    inlineCode := skin.inlineCode.blendWith mix
    codeBlock := skin.codeBlock.blendWith mix
    table := skin.table.blendWith mix
    strikeout := skin.strikeout.blendWith mix
    headers := fun i => (skin.headers i).blendWith mix
    bullet := skin.bullet.blendWith mix
    quoteMark := skin.quoteMark.blendWith mix
    horizontalRule := skin.horizontalRule.blendWith mix
    ellipsis := skin.ellipsis.blendWith mix }

/-- `MadSkin::set_headers_fg`, src/skin.rs 249-253. -/
def setHeadersFg (skin : Skin) (c : Color) : Skin := { skin with headers := fun i => (skin.headers i).setFg c }

/-- `MadSkin::set_headers_bg`, src/skin.rs 259-263. -/
def setHeadersBg (skin : Skin) (c : Color) : Skin := { skin with headers := fun i => (skin.headers i).setBg c }

/-- `MadSkin::set_fg`, src/skin.rs 201-217. -/
def setFg (skin : Skin) (fg : Color) : Skin :=
  { skin.setHeadersFg fg with
    paragraph := skin.paragraph.setFg fg
    bold := skin.bold.setFg fg
    italic := skin.italic.setFg fg
    strikeout := skin.strikeout.setFg fg
    bullet := skin.bullet.setFg fg
    quoteMark := skin.quoteMark.setFg fg
    horizontalRule := skin.horizontalRule.setFg fg
    ellipsis := skin.ellipsis.setFg fg
    specialChars := fun c => (skin.specialChars c).map (·.setFg fg) }

/-- `MadSkin::set_bg`, src/skin.rs 225-243. -/
def setBg (skin : Skin) (bg : Color) : Skin :=
  { skin.setHeadersBg bg with
    paragraph := skin.paragraph.setBg bg
    bold := skin.bold.setBg bg
    italic := skin.italic.setBg bg
    strikeout := skin.strikeout.setBg bg
    table := skin.table.setBg bg
    bullet := skin.bullet.setBg bg
    quoteMark := skin.quoteMark.setBg bg
    horizontalRule := skin.horizontalRule.setBg bg
    ellipsis := skin.ellipsis.setBg bg
    scrollbar := skin.scrollbar.setBg bg
    specialChars := fun c => (skin.specialChars c).map (·.setBg bg) }

/-- `MadSkin::set_global_bg`, src/skin.rs 267-271. -/
def setGlobalBg (skin : Skin) (c : Color) : Skin :=
  { skin.setHeadersBg c with paragraph := skin.paragraph.setBg c, horizontalRule := skin.horizontalRule.setBg c }

end Skin
end Verif
