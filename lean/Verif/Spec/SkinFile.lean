import Verif.Spec.Serde
/-! Specification of the skin read in data written by a user. -/
namespace Verif.Spec
open Verif

/-- The last value given with one of the keys. -/
def lastOf (keys : List String) (entries : List (String × DataValue)) : Option DataValue :=
  ((entries.filter fun e => e.1 ∈ keys).getLast?).map Prod.snd

/-- The value `x` is the default one when no key of the setting is given, or else what's parsed of the last given string. -/
def Setting {ε α : Type} (parse : Text → Except ε α) (keys : List String) (entries : List (String × DataValue)) (default x : α) : Prop :=
  match lastOf keys entries with
  | none => x = default
  | some v => ∃ s, v = .str s ∧ parse s = .ok x

/-- The setting changed by a key, if it's a known one. -/
def settingOf (key : String) : Option String :=
  if key ∈ ["bold", "italic", "strikeout", "ellipsis", "bullet", "scrollbar", "paragraph", "table", "headers"] then some key
  else if key ∈ ["inline_code", "inline-code"] then some "inline_code"
  else if key ∈ ["quote_mark", "quote", "quote-mark"] then some "quote"
  else if key ∈ ["horizontal_rule", "horizontal-rule", "rule"] then some "horizontal_rule"
  else if key ∈ ["code_block", "code-block"] then some "code_block"
  else if key ∈ ["table_border_chars", "table-border-chars"] then some "table_border_chars"
  else none

/-- Two keys which change different settings (a key which is unknown changes nothing). -/
def OtherSetting (a b : String) : Prop := settingOf a = none ∨ settingOf a ≠ settingOf b

/-- A string which can be parsed. -/
def IsParsed {ε α : Type} (parse : Text → Except ε α) (s : Text) : Prop := ∃ x, parse s = .ok x

/-- The values accepted with a key: a string, which must be a valid style, styled char or line style when the key is the one of such
a setting; for a scrollbar also two styled chars; for headers also a list of line styles. -/
def Accepted (k : Classes) (key : String) (v : DataValue) : Prop :=
  if key ∈ ["bold", "italic", "strikeout", "inline_code", "inline-code", "ellipsis"] then
    ∃ s, v = .str s ∧ IsParsed (parseCompoundStyle k) s
  else if key ∈ ["bullet", "quote_mark", "quote", "quote-mark", "horizontal_rule", "horizontal-rule", "rule"] then
    ∃ s, v = .str s ∧ IsParsed (parseStyledChar k · '*') s
  else if key ∈ ["paragraph", "code_block", "code-block", "table"] then
    ∃ s, v = .str s ∧ IsParsed (parseLineStyle k) s
  else if key = "scrollbar" then
    (∃ s, v = .str s ∧ IsParsed (parseStyledChar k · '*') s) ∨
      ∃ track thumb, IsParsed (parseStyledChar k · '*') track ∧ IsParsed (parseStyledChar k · '*') thumb ∧
        (v = .list [track, thumb] ∨ ∃ m, v = .map m ∧ m.filter (·.1 = "track") = [("track", track)] ∧
          m.filter (·.1 = "thumb") = [("thumb", thumb)])
  else if key = "headers" then
    (∃ s, v = .str s ∧ IsParsed (parseLineStyle k) s) ∨ ∃ l, v = .list l ∧ ∀ s ∈ l, IsParsed (parseLineStyle k) s
  else ∃ s, v = .str s

end Verif.Spec
