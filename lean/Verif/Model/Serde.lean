import Verif.Model.Parse
import Verif.Model.SkinOps
/-! Model of `src/serde`: the serialization of skins. A data format (JSON, TOML, Hjson...) is seen as the list of the entries of a map; values
are strings, lists of strings, or maps of strings, others aren't accepted. -/
namespace Verif

/-- The values (of the `serde` data model) met in skins. External crate; they are read in src/serde/serde_skin.rs 42-156. -/
inductive DataValue
  | str (s : Text)
  | list (l : List Text)
  | map (m : List (String × Text))
  | other
  deriving DecidableEq, Repr

/-- The errors of a deserialization. See src/serde/serde_skin.rs 42-156. -/
inductive SkinError
  | style (e : ParseStyleTokenError)
  | wrongType
  deriving DecidableEq, Repr

/-- `TableBorderChars::key`, src/table_border_chars.rs 21-31. -/
def TableBorderChars.key (t : TableBorderChars) : Option Text :=
  if t = standard then some "standard".toList
  else if t = ascii then some "ascii".toList
  else if t = rounded then some "rounded".toList
  else none

/-- `TableBorderChars::by_key`, src/table_border_chars.rs 32-39. -/
def TableBorderChars.byKey (key : Text) : Option TableBorderChars :=
  if key = "standard".toList then some standard
  else if key = "ascii".toList then some ascii
  else if key = "rounded".toList then some rounded
  else none

/-- `ScrollBarStyleDef`, src/serde/serde_scrollbar_style.rs 19-27. -/
inductive ScrollBarStyleDef
  | simple (sc : StyledChar)
  | rich (track thumb : StyledChar)
  deriving DecidableEq, Repr

/-- `From<&ScrollBarStyle> for ScrollBarStyleDef`, src/serde/serde_scrollbar_style.rs 29-46. -/
def ScrollBarStyleDef.ofStyle (sb : ScrollBarStyle) : ScrollBarStyleDef :=
  if sb.track.char = sb.thumb.char ∧ sb.track.style.bg = none ∧ sb.thumb.style.bg = none then
    .simple (StyledChar.new (CompoundStyle.new sb.thumb.style.fg sb.track.style.fg 0#32) sb.track.char)
  else .rich sb.track sb.thumb

/-- `ScrollBarStyleDef::into_scrollbar_style`, src/serde/serde_scrollbar_style.rs 49-54. -/
def ScrollBarStyleDef.toStyle : ScrollBarStyleDef → ScrollBarStyle
  | .simple sc => ScrollBarStyle.ofStyledChar sc
  | .rich track thumb => { track, thumb }

/-- The derived serialization of the untagged `ScrollBarStyleDef`, src/serde/serde_scrollbar_style.rs 19-27. -/
def ScrollBarStyleDef.serialize : ScrollBarStyleDef → DataValue
  | .simple sc => .str (writeTokens sc.tokens)
  | .rich track thumb => .map [("track", writeTokens track.tokens), ("thumb", writeTokens thumb.tokens)]

/-- The errors of the parsing of a style, as errors of the deserialization (`de::Error::custom`).
See src/serde/serde_line_style.rs 20, src/serde/serde_styled_char.rs 20 and src/serde/serde_compound_style.rs 20. -/
def ofParsing {α : Type} : Except ParseStyleTokenError α → Except SkinError α
  | .ok a => .ok a
  | .error e => .error (.style e)

/-- `Deserialize for CompoundStyle`, src/serde/serde_compound_style.rs 14-22, which is also what is done in `visit_map`. -/
def readStyle (k : Classes) : DataValue → Except SkinError CompoundStyle
  | .str s => ofParsing (parseCompoundStyle k s)
  | _ => .error .wrongType

/-- `Deserialize for StyledChar`, src/serde/serde_styled_char.rs 14-22, which is also what is done in `visit_map`. -/
def readChar (k : Classes) : DataValue → Except SkinError StyledChar
  | .str s => ofParsing (parseStyledChar k s '*')
  | _ => .error .wrongType

/-- `Deserialize for LineStyle`, src/serde/serde_line_style.rs 14-22, which is also what is done in `visit_map`. -/
def readLine (k : Classes) : DataValue → Except SkinError LineStyle
  | .str s => ofParsing (parseLineStyle k s)
  | _ => .error .wrongType

/-- The value of a key in a map which must have it exactly once (derived deserialization of a struct: a missing or duplicate field is an
error, unknown fields are ignored). See src/serde/serde_scrollbar_style.rs 19-27. -/
def uniqueField (m : List (String × Text)) (key : String) : Except SkinError Text :=
  match m.filter (fun e => e.1 == key) with
  | [e] => .ok e.2
  | _ => .error .wrongType

/-- The derived deserialization of the untagged `ScrollBarStyleDef`, src/serde/serde_scrollbar_style.rs 19-27 (errors are
merged; derived structs may also be given as lists of their fields). -/
def readScrollbar (k : Classes) : DataValue → Except SkinError ScrollBarStyleDef
  | .str s => do
    let sc ← readChar k (.str s)
    .ok (.simple sc)
  | .map m => do
    let track ← uniqueField m "track"
    let thumb ← uniqueField m "thumb"
    let track ← readChar k (.str track)
    let thumb ← readChar k (.str thumb)
    .ok (.rich track thumb)
  | .list [track, thumb] => do
    let track ← readChar k (.str track)
    let thumb ← readChar k (.str thumb)
    .ok (.rich track thumb)
  | _ => .error .wrongType

/-- The deserialization of a list of line styles. See src/serde/serde_skin.rs 207-212. -/
def readLines (k : Classes) : List Text → Except SkinError (List LineStyle)
  | [] => .ok []
  | s :: ss => do
    let ls ← readLine k (.str s)
    let rest ← readLines k ss
    .ok (ls :: rest)

/-- The addition of the attributes of a style, src/serde/serde_skin.rs 118-122. -/
def CompoundStyle.addAttrsOf (s o : CompoundStyle) : CompoundStyle :=
  writtenAttributes.foldl (fun s a => if o.hasAttr a then s.addAttr a else s) s

/-- The addition of a style to a header, src/serde/serde_skin.rs 111-126. -/
def LineStyle.addTo (ls h : LineStyle) : LineStyle :=
  let s := match ls.style.fg with
    | some c => h.style.setFg c
    | none => h.style
  let s := match ls.style.bg with
    | some c => s.setBg c
    | none => s
  { h with style := s.addAttrsOf ls.style, align := if ls.align ≠ .unspecified then ls.align else h.align }

/-- The `headers` key, src/serde/serde_skin.rs 109-136: a string is added to all levels, a list gives the levels one by one (at most
`MAX_HEADER_DEPTH`, which is 8). -/
def Skin.readHeaders (k : Classes) (skin : Skin) : DataValue → Except SkinError Skin
  | .str s => do
    let ls ← readLine k (.str s)
    .ok { skin with headers := fun i => ls.addTo (skin.headers i) }
  | .list l => do
    let levels ← readLines k l
    .ok { skin with headers := fun i => (levels[i.val]?).getD (skin.headers i) }
  | _ => .error .wrongType

/-- A turn of the loop of `visit_map`, src/serde/serde_skin.rs 41-156. The message about an unknown key isn't modelled. -/
def Skin.setEntry (k : Classes) (skin : Skin) (key : String) (v : DataValue) : Except SkinError Skin :=
  if key = "bold" then do let x ← readStyle k v; .ok { skin with bold := x }
  else if key = "italic" then do let x ← readStyle k v; .ok { skin with italic := x }
  else if key = "strikeout" then do let x ← readStyle k v; .ok { skin with strikeout := x }
  else if key = "inline_code" ∨ key = "inline-code" then do let x ← readStyle k v; .ok { skin with inlineCode := x }
  else if key = "ellipsis" then do let x ← readStyle k v; .ok { skin with ellipsis := x }
  else if key = "bullet" then do let x ← readChar k v; .ok { skin with bullet := x }
  else if key = "quote_mark" ∨ key = "quote" ∨ key = "quote-mark" then do let x ← readChar k v; .ok { skin with quoteMark := x }
  else if key = "horizontal_rule" ∨ key = "horizontal-rule" ∨ key = "rule" then do
    let x ← readChar k v; .ok { skin with horizontalRule := x }
  else if key = "scrollbar" then do let x ← readScrollbar k v; .ok { skin with scrollbar := x.toStyle }
  else if key = "paragraph" then do let x ← readLine k v; .ok { skin with paragraph := x }
  else if key = "code_block" ∨ key = "code-block" then do let x ← readLine k v; .ok { skin with codeBlock := x }
  else if key = "table" then do let x ← readLine k v; .ok { skin with table := x }
  else if key = "headers" then skin.readHeaders k v
  else if key = "table_border_chars" ∨ key = "table-border-chars" then
    match v with
    | .str s =>
      match TableBorderChars.byKey s with
      | some chars => .ok { skin with tableBorderChars := chars }
      | none => .ok skin
    | _ => .error .wrongType
  else
    match v with
    | .str _ => .ok skin
    | _ => .error .wrongType

/-- `Deserialize for MadSkin`, src/serde/serde_skin.rs 23-164: starting from the default skin, entries are handled in order, until an
error. -/
def Skin.deserialize (k : Classes) (entries : List (String × DataValue)) : Except SkinError Skin :=
  entries.foldl (fun r e => r.bind fun skin => skin.setEntry k e.1 e.2) (.ok Skin.default)

/-- `Serialize for MadSkin`, src/serde/serde_skin.rs 166-208. Styles are written with `to_style_tokens_string`. -/
def Skin.serialize (skin : Skin) : List (String × DataValue) :=
  [("bold", .str (writeTokens skin.bold.tokens)),
   ("italic", .str (writeTokens skin.italic.tokens)),
   ("strikeout", .str (writeTokens skin.strikeout.tokens)),
   ("inline_code", .str (writeTokens skin.inlineCode.tokens)),
   ("ellipsis", .str (writeTokens skin.ellipsis.tokens)),
   ("bullet", .str (writeTokens skin.bullet.tokens)),
   ("quote", .str (writeTokens skin.quoteMark.tokens)),
   ("horizontal_rule", .str (writeTokens skin.horizontalRule.tokens)),
   ("scrollbar", (ScrollBarStyleDef.ofStyle skin.scrollbar).serialize),
   ("paragraph", .str (writeTokens skin.paragraph.tokens)),
   ("code_block", .str (writeTokens skin.codeBlock.tokens)),
   ("table", .str (writeTokens skin.table.tokens)),
   ("headers", .list ((List.finRange 8).map fun i => writeTokens (skin.headers i).tokens))] ++
  match skin.tableBorderChars.key with
  | some key => [("table_border_chars", .str key)]
  | none => []

end Verif
