import Verif.Spec.SkinRender
/-! Specification of the colors of a skin whatever was done with it. -/
namespace Verif

/-- The parts of a skin which have colors; special characters are told by the compound they replace. -/
inductive SkinPart
  | paragraph | bold | italic | strikeout | inlineCode | codeBlock
  | header (i : Fin 8)
  | table | bullet | quoteMark | horizontalRule | ellipsis | track | thumb
  | special (c : Compound)
  deriving DecidableEq

/-- The style of a part, if it's in the skin. -/
def SkinPart.style (skin : Skin) : SkinPart → Option CompoundStyle
  | .paragraph => some skin.paragraph.style
  | .bold => some skin.bold
  | .italic => some skin.italic
  | .strikeout => some skin.strikeout
  | .inlineCode => some skin.inlineCode
  | .codeBlock => some skin.codeBlock.style
  | .header i => some (skin.headers i).style
  | .table => some skin.table.style
  | .bullet => some skin.bullet.style
  | .quoteMark => some skin.quoteMark.style
  | .horizontalRule => some skin.horizontalRule.style
  | .ellipsis => some skin.ellipsis
  | .track => some skin.scrollbar.track.style
  | .thumb => some skin.scrollbar.thumb.style
  | .special c => (skin.specialChars c).map (·.style)

/-- The skin with a part changed by the setter of its type. -/
def Skin.changePart (skin : Skin) (cs : CompoundStyle → CompoundStyle) (ls : LineStyle → LineStyle) (sc : StyledChar → StyledChar) : SkinPart → Skin
  | .paragraph => { skin with paragraph := ls skin.paragraph }
  | .bold => { skin with bold := cs skin.bold }
  | .italic => { skin with italic := cs skin.italic }
  | .strikeout => { skin with strikeout := cs skin.strikeout }
  | .inlineCode => { skin with inlineCode := cs skin.inlineCode }
  | .codeBlock => { skin with codeBlock := ls skin.codeBlock }
  | .header i => { skin with headers := fun j => if j = i then ls (skin.headers j) else skin.headers j }
  | .table => { skin with table := ls skin.table }
  | .bullet => { skin with bullet := sc skin.bullet }
  | .quoteMark => { skin with quoteMark := sc skin.quoteMark }
  | .horizontalRule => { skin with horizontalRule := sc skin.horizontalRule }
  | .ellipsis => { skin with ellipsis := cs skin.ellipsis }
  | .track => { skin with scrollbar := { skin.scrollbar with track := sc skin.scrollbar.track } }
  | .thumb => { skin with scrollbar := { skin.scrollbar with thumb := sc skin.scrollbar.thumb } }
  | .special c => { skin with specialChars := fun d => if d = c then (skin.specialChars d).map sc else skin.specialChars d }

/-- What may be called on a skin: one of its methods, or `set_fg` or `set_bg` on one of its parts. -/
inductive SkinCall
  | method (op : SkinOp)
  | blendWith (mix : Color → Color)
  | partFg (p : SkinPart) (c : Color)
  | partBg (p : SkinPart) (c : Color)

/-- A call, by the methods of src/skin.rs, or by those of src/compound_style.rs, src/line_style.rs or src/styled_char.rs on a part. -/
def SkinCall.run (skin : Skin) : SkinCall → Skin
  | .method op => op.run skin
  | .blendWith mix => skin.blendWith mix
  | .partFg p c => skin.changePart (·.setFg c) (·.setFg c) (·.setFg c) p
  | .partBg p c => skin.changePart (·.setBg c) (·.setBg c) (·.setBg c) p

/-- What happens to a color: it's replaced, or mixed if there's one. -/
inductive ColorChange
  | set (c : Color) | mix (f : Color → Color)

/-- The color after a list of changes. -/
def Spec.colorAfter (start : Option Color) (changes : List ColorChange) : Option Color :=
  changes.foldl (fun now ch => match ch with | .set c => some c | .mix f => now.map f) start

/-- What a call does of the foreground of a part, if it does something. `set_fg` is for all the parts but those of code, of the tables and of the
scrollbar, `set_headers_fg` for the headers; `blend_with` is for all the parts but the scrollbar and the special characters. -/
def SkinCall.fg : SkinCall → SkinPart → Option ColorChange
  | .method (.setFg c), p =>
    if p = .inlineCode ∨ p = .codeBlock ∨ p = .table ∨ p = .track ∨ p = .thumb then none else some (.set c)
  | .method (.setHeadersFg c), .header _ => some (.set c)
  | .blendWith mix, p => match p with
    | .track | .thumb | .special _ => none
    | _ => some (.mix fun c => mix (mix c))
  | .partFg q c, p => if p = q then some (.set c) else none
  | _, _ => none

/-- What a call does of the background of a part, if it does something. `set_bg` is for all the parts but those of code, `set_headers_bg` for the
headers, `set_global_bg` for the headers, the paragraphs and the rules; `blend_with` does nothing. -/
def SkinCall.bg : SkinCall → SkinPart → Option ColorChange
  | .method (.setBg c), p => if p = .inlineCode ∨ p = .codeBlock then none else some (.set c)
  | .method (.setHeadersBg c), .header _ => some (.set c)
  | .method (.setGlobalBg c), p => match p with
    | .header _ | .paragraph | .horizontalRule => some (.set c)
    | _ => none
  | .partBg q c, p => if p = q then some (.set c) else none
  | _, _ => none

end Verif
