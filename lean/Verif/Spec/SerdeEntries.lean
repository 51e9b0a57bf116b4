import Verif.Spec.Serde
/-! Specification of what can be given by a user for a skin (C40). -/
namespace Verif.Spec

/-- The main name of an entry which may be given under several names. See src/serde/serde_skin.rs 61, 79, 84, 104 and 146. -/
def mainKey (key : String) : String :=
  if key = "inline-code" then "inline_code"
  else if key = "quote" ∨ key = "quote-mark" then "quote_mark"
  else if key = "rule" ∨ key = "horizontal-rule" then "horizontal_rule"
  else if key = "code-block" then "code_block"
  else if key = "table-border-chars" then "table_border_chars"
  else key

/-- The entries which are styles (under their main names). -/
def styleKeys : List String :=
  ["bold", "italic", "strikeout", "inline_code", "ellipsis", "bullet", "quote_mark", "horizontal_rule", "scrollbar", "paragraph", "code_block",
    "table", "headers"]

/-- A string which can be read as a style. -/
def ReadsAsStyle (k : Classes) (s : Text) : Prop := ∃ tokens, parseStyleTokens k s = .ok tokens

/-- An entry which is accepted: a string, which must be a style if the entry is one; for the headers, also a list of styles; for the
scrollbar, also the styles of the track and of the thumb, each given once. -/
def AcceptedEntry (k : Classes) (key : String) (v : DataValue) : Prop :=
  (∃ s, v = .str s ∧ (mainKey key ∈ styleKeys → ReadsAsStyle k s)) ∨
  (key = "headers" ∧ ∃ l, v = .list l ∧ ∀ s ∈ l, ReadsAsStyle k s) ∨
  (key = "scrollbar" ∧ ∃ track thumb, ReadsAsStyle k track ∧ ReadsAsStyle k thumb ∧
    (v = .list [track, thumb] ∨ ∃ m, v = .map m ∧ m.filter (·.1 == "track") = [("track", track)] ∧ m.filter (·.1 == "thumb") = [("thumb", thumb)]))

/-- The fields which are styles of compounds. -/
def compoundFields : List (String × (Skin → CompoundStyle)) :=
  [("bold", (·.bold)), ("italic", (·.italic)), ("strikeout", (·.strikeout)), ("inline_code", (·.inlineCode)), ("ellipsis", (·.ellipsis))]

/-- The fields which are styled chars. -/
def charFields : List (String × (Skin → StyledChar)) :=
  [("bullet", (·.bullet)), ("quote_mark", (·.quoteMark)), ("horizontal_rule", (·.horizontalRule))]

/-- The fields which are styles of lines. -/
def lineFields : List (String × (Skin → LineStyle)) :=
  [("paragraph", (·.paragraph)), ("code_block", (·.codeBlock)), ("table", (·.table))]

end Verif.Spec
