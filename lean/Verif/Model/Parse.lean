import Verif.Model.Style
/-! Model of `src/parse`: reading and writing of styles. -/
namespace Verif

/-- The Unicode classes used by the regular expressions: `\s`, `\w` and `\d` (external). -/
structure Classes where
  ws : Char → Bool
  wd : Char → Bool
  dg : Char → Bool

/-! ### Regular expressions -/

/-- Whether a lowercase character of a case insensitive pattern matches a character (simple case folding of the regex crate: the
kelvin sign is a `k`, the long s is a `s`). -/
def ciChar (p c : Char) : Bool :=
  c == p || c == p.toUpper || (p == 'k' && c == Char.ofNat 0x212A) || (p == 's' && c == Char.ofNat 0x17F)

/-- What follows the pattern, if the text starts with it.
The patterns are in src/parse/parse_color.rs 59-97, src/parse/parse_attribute.rs 45-63, src/parse/parse_align.rs 24-28 and src/parse/mod.rs 114. -/
def ciPrefix : Text → Text → Option Text
  | [], s => some s
  | _ :: _, [] => none
  | p :: ps, c :: cs => if ciChar p c then ciPrefix ps cs else none

/-- `regex_is_match!("pat"i, s)`: the pattern isn't anchored.
The patterns are in src/parse/parse_color.rs 59-97, src/parse/parse_attribute.rs 45-63, src/parse/parse_align.rs 24-28 and src/parse/mod.rs 114. -/
def ciContains (pat : Text) : Text → Bool
  | [] => (ciPrefix pat []).isSome
  | c :: cs => (ciPrefix pat (c :: cs)).isSome || ciContains pat cs

/-- A pattern `a[_-]?b`. See src/parse/parse_attribute.rs 47, 53, 55, 61 and 63. -/
def ciContainsSep (a b : Text) (s : Text) : Bool :=
  ciContains (a ++ b) s || ciContains (a ++ '_' :: b) s || ciContains (a ++ '-' :: b) s

/-- `(\d+)` followed by something. See src/parse/parse_color.rs 60-71. -/
def takeDigits (k : Classes) (s : Text) : Option (Text × Text) :=
  if s.takeWhile k.dg = [] then none else some (s.takeWhile k.dg, s.dropWhile k.dg)

/-- `(\d+)\)$`. See src/parse/parse_color.rs 60, 64 and 71. -/
def digitsEnd (k : Classes) (s : Text) : Option Text := do
  let (ds, rest) ← takeDigits k s
  if rest = [')'] then some ds else none

/-- `(\d+),\s*` followed by something. See src/parse/parse_color.rs 71. -/
def digitsComma (k : Classes) (s : Text) : Option (Text × Text) := do
  let (ds, rest) ← takeDigits k s
  match rest with
  | ',' :: rest => some (ds, rest.dropWhile k.ws)
  | _ => none

/-! ### Numbers (external: `str::parse` and formatting of unsigned integers) -/

/-- The value of a decimal digit. Standard library, used in src/parse/parse_color.rs 61, 65 and 72. -/
def digitVal (c : Char) : Option Nat := if '0'.toNat ≤ c.toNat ∧ c.toNat ≤ '9'.toNat then some (c.toNat - '0'.toNat) else none

/-- The value of an hexadecimal digit. Standard library, used in src/parse/parse_color.rs 52-58. -/
def hexVal (c : Char) : Option Nat :=
  if '0'.toNat ≤ c.toNat ∧ c.toNat ≤ '9'.toNat then some (c.toNat - '0'.toNat)
  else if 'a'.toNat ≤ c.toNat ∧ c.toNat ≤ 'f'.toNat then some (c.toNat - 'a'.toNat + 10)
  else if 'A'.toNat ≤ c.toNat ∧ c.toNat ≤ 'F'.toNat then some (c.toNat - 'A'.toNat + 10)
  else none

/-- The value of digits in a base, from the left. Standard library, used in src/parse/parse_color.rs 52-81 and src/parse/mod.rs 117. -/
def digitsVal (val : Char → Option Nat) (base : Nat) : Nat → Text → Option Nat
  | acc, [] => some acc
  | acc, c :: cs => do
    let d ← val c
    digitsVal val base (acc * base + d) cs

/-- An optional plus sign is skipped. Standard library, used in src/parse/parse_color.rs 52-81 and src/parse/mod.rs 117. -/
def stripPlus : Text → Text
  | [] => []
  | c :: cs => if c = '+' then cs else c :: cs

/-- The parsing of an unsigned integer under a limit: an optional plus sign, then digits.
Standard library, used in src/parse/parse_color.rs 52-81 and src/parse/mod.rs 117. -/
def parseUnsigned (limit : Nat) (s : Text) : Option Nat :=
  if stripPlus s = [] then none
  else do
    let n ← digitsVal digitVal 10 0 (stripPlus s)
    if n < limit then some n else none

/-- The decimal writing of a number; the first argument bounds the number of digits. Standard library, used in src/parse/parse_color.rs 39-40. -/
def decimalAux : Nat → Nat → Text
  | 0, _ => []
  | fuel + 1, n => (if n < 10 then [] else decimalAux fuel (n / 10)) ++ [Char.ofNat ('0'.toNat + n % 10)]

/-- The decimal writing of a number. Standard library, used in src/parse/parse_color.rs 39-40. -/
def decimal (n : Nat) : Text := decimalAux (n + 1) n

/-! ### Colors, attributes, alignments -/

/-- `ParseColorError`, src/parse/parse_color.rs 12-18. -/
inductive ParseColorError
  | unrecognized
  | invalidGreyLevel (level : Nat)
  deriving DecidableEq, Repr

/-- `write_color`, src/parse/parse_color.rs 20-42. -/
def writeColor : Color → Text
  | .reset => []
  | .black => "Black".toList
  | .darkGrey => "DarkGrey".toList
  | .red => "Red".toList
  | .darkRed => "DarkRed".toList
  | .green => "Green".toList
  | .darkGreen => "DarkGreen".toList
  | .yellow => "Yellow".toList
  | .darkYellow => "DarkYellow".toList
  | .blue => "Blue".toList
  | .darkBlue => "DarkBlue".toList
  | .magenta => "Magenta".toList
  | .darkMagenta => "DarkMagenta".toList
  | .cyan => "Cyan".toList
  | .darkCyan => "DarkCyan".toList
  | .white => "White".toList
  | .grey => "Grey".toList
  | .rgb r g b => "rgb(".toList ++ decimal r ++ ", ".toList ++ decimal g ++ ", ".toList ++ decimal b ++ [')']
  | .ansi code => "ansi(".toList ++ decimal code ++ [')']

/-- The regex `^ansi\((?<value>\d+)\)$`, src/parse/parse_color.rs 60. -/
def matchAnsi (k : Classes) (s : Text) : Option Text := do
  let rest ← ciPrefix "ansi(".toList s
  digitsEnd k rest

/-- The regex `^gr[ae]y(?:scale)?\((?<level>\d+)\)$`, src/parse/parse_color.rs 64. -/
def matchGray (k : Classes) (s : Text) : Option Text := do
  let rest ← (ciPrefix "gray".toList s).or (ciPrefix "grey".toList s)
  let rest ← (ciPrefix "scale(".toList rest).or (ciPrefix "(".toList rest)
  digitsEnd k rest

/-- The regex `^rgb\((?<r>\d+),\s*(?<g>\d+),\s*(?<b>\d+)\)$`, src/parse/parse_color.rs 71. -/
def matchRgb (k : Classes) (s : Text) : Option (Text × Text × Text) := do
  let rest ← ciPrefix "rgb(".toList s
  let (r, rest) ← digitsComma k rest
  let (g, rest) ← digitsComma k rest
  let b ← digitsEnd k rest
  some (r, g, b)

/-- The class `[\da-f]`, case insensitive. See src/parse/parse_color.rs 77. -/
def isHexClass (k : Classes) (c : Char) : Bool :=
  k.dg c || ('a' ≤ c && c ≤ 'f') || ('A' ≤ c && c ≤ 'F')

/-- The regex `^#(?<r>[\da-f]{1,2})(?<g>[\da-f]{1,2})(?<b>[\da-f]{1,2})$`, src/parse/parse_color.rs 77: the first groups are the
longest ones. -/
def matchHex (k : Classes) : Text → Option (Text × Text × Text)
  | ['#', a, b, c] => if [a, b, c].all (isHexClass k) then some ([a], [b], [c]) else none
  | ['#', a, a', b, c] => if [a, a', b, c].all (isHexClass k) then some ([a, a'], [b], [c]) else none
  | ['#', a, a', b, b', c] => if [a, a', b, b', c].all (isHexClass k) then some ([a, a'], [b, b'], [c]) else none
  | ['#', a, a', b, b', c, c'] => if [a, a', b, b', c, c'].all (isHexClass k) then some ([a, a'], [b, b'], [c, c']) else none
  | _ => none

/-- `hex`, src/parse/parse_color.rs 52-58: a single digit is doubled. (A character of several bytes isn't an hexadecimal digit, so that it
gives an error whether doubled or not.) -/
def parseHex : Text → Option Nat
  | [a] => digitsVal hexVal 16 0 [a, a]
  | s => digitsVal hexVal 16 0 s

/-- The names, in the order of src/parse/parse_color.rs 83-97. -/
def colorNames : List (Text × Color) := [
  ("black".toList, .ansi 16), ("blue".toList, .blue), ("cyan".toList, .cyan), ("darkblue".toList, .darkBlue),
  ("darkcyan".toList, .darkCyan), ("darkgreen".toList, .darkGreen), ("darkmagenta".toList, .darkMagenta),
  ("darkred".toList, .darkRed), ("green".toList, .green), ("grey".toList, .grey), ("magenta".toList, .magenta),
  ("red".toList, .red), ("yellow".toList, .yellow), ("darkyellow".toList, .darkYellow), ("white".toList, .ansi 231)]

/-- `parse_color`, src/parse/parse_color.rs 51-100. -/
def parseColor (k : Classes) (s : Text) : Except ParseColorError Color :=
  match matchAnsi k s with
  | some value =>
    match parseUnsigned 256 value with
    | some v => .ok (.ansi v)
    | none => .error .unrecognized
  | none =>
  match matchGray k s with
  | some level =>
    match parseUnsigned 256 level with
    | some l => if l > 23 then .error (.invalidGreyLevel l) else .ok (gray l)
    | none => .error .unrecognized
  | none =>
  match matchRgb k s with
  | some (r, g, b) =>
    match parseUnsigned 256 r, parseUnsigned 256 g, parseUnsigned 256 b with
    | some r, some g, some b => .ok (.rgb r g b)
    | _, _, _ => .error .unrecognized
  | none =>
  match matchHex k s with
  | some (r, g, b) =>
    match parseHex r, parseHex g, parseHex b with
    | some r, some g, some b => .ok (.rgb r g b)
    | _, _, _ => .error .unrecognized
  | none =>
  match colorNames.find? fun nc => ciContains nc.1 s with
  | some nc => .ok nc.2
  | none => .error .unrecognized

/-- `write_attribute`, src/parse/parse_attribute.rs 13-41. -/
def writeAttribute : Attr → Text
  | .bold => "Bold".toList
  | .dim => "Dim".toList
  | .italic => "Italic".toList
  | .underlined => "Underlined".toList
  | .slowBlink => "SlowBlink".toList
  | .rapidBlink => "RapidBlink".toList
  | .reverse => "Reverse".toList
  | .hidden => "Hidden".toList
  | .crossedOut => "CrossedOut".toList
  | .fraktur => "Fraktur".toList
  | .noBold => "NoBold".toList
  | .normalIntensity => "NormalIntensity".toList
  | .noItalic => "NoItalic".toList
  | .noUnderline => "NoUnderline".toList
  | .noBlink => "NoBlink".toList
  | .noReverse => "NoReverse".toList
  | .noHidden => "NoHidden".toList
  | .notCrossedOut => "NotCrossedOut".toList
  | .framed => "Framed".toList
  | .encircled => "Encircled".toList
  | .overLined => "OverLined".toList
  | .notFramedOrEncircled => "NotFramedOrEncircled".toList
  | .notOverLined => "NotOverLined".toList
  | _ => []

/-- `parse_attribute`, src/parse/parse_attribute.rs 44-68. -/
def parseAttribute (s : Text) : Option Attr :=
  if ciContains "bold".toList s then some .bold
  else if ciContainsSep "crossed".toList "out".toList s then some .crossedOut
  else if ciContains "dim".toList s then some .dim
  else if ciContains "italic".toList s then some .italic
  else if ciContainsSep "under".toList "lined".toList s then some .underlined
  else if ciContainsSep "over".toList "lined".toList s then some .overLined
  else if ciContains "reverse".toList s then some .reverse
  else if ciContains "encircled".toList s then some .encircled
  else if ciContainsSep "slow".toList "blink".toList s then some .slowBlink
  else if ciContainsSep "rapid".toList "blink".toList s then some .rapidBlink
  else none

/-- `write_align`, src/parse/parse_align.rs 13-20. -/
def writeAlign : Alignment → Text
  | .left => "left".toList
  | .center => "center".toList
  | .right => "right".toList
  | .unspecified => []

/-- `parse_align`, src/parse/parse_align.rs 23-33. -/
def parseAlign (s : Text) : Option Alignment :=
  if ciContains "left".toList s then some .left
  else if ciContains "center".toList s then some .center
  else if ciContains "right".toList s then some .right
  else none

/-! ### Tokens -/

/-- `StyleToken`, src/parse/mod.rs 45-53. -/
inductive StyleToken
  | char (c : Char)
  | color (c : Color)
  | attribute (a : Attr)
  | align (a : Alignment)
  | dimension (n : Nat)
  | none
  deriving DecidableEq, Repr

/-- `ParseStyleTokenError`, src/parse/mod.rs 36-41. -/
inductive ParseStyleTokenError
  | unrecognized (s : Text)
  | invalidColor (e : ParseColorError)
  deriving DecidableEq, Repr

/-- `Display for StyleToken`, src/parse/mod.rs 55-66. -/
def StyleToken.write : StyleToken → Text
  | .char c => [c]
  | .color c => writeColor c
  | .attribute a => writeAttribute a
  | .align a => writeAlign a
  | .dimension n => decimal n
  | .none => "none".toList

/-- A turn of the loop of `to_style_tokens_string` and `style_tokens_to_string`. See src/parse/mod.rs 75-82 and 102-109. -/
def pushToken (s : Text) (t : StyleToken) : Text := if s ≠ [] then s ++ ' ' :: t.write else t.write

/-- `PushStyleTokens::to_style_tokens_string`, src/parse/mod.rs 71-84, and `style_tokens_to_string`, 100-111. -/
def writeTokens (tokens : List StyleToken) : Text := tokens.foldl pushToken []

/-- `write_style_tokens`, src/parse/mod.rs 87-98. -/
def writeStyleTokens : List StyleToken → Text
  | [] => []
  | t :: ts => ' ' :: t.write ++ (ts.map StyleToken.write).flatten

/-- `parse_style_token`, src/parse/mod.rs 113-143. -/
def parseStyleToken (k : Classes) (s : Text) : Except ParseStyleTokenError StyleToken :=
  if ciContains "none".toList s then .ok .none
  else match parseUnsigned 65536 s with
  | some n => .ok (.dimension n)
  | none =>
  match parseColor k s with
  | .ok c => .ok (.color c)
  | .error (.invalidGreyLevel l) => .error (.invalidColor (.invalidGreyLevel l))
  | .error .unrecognized =>
  match parseAttribute s with
  | some a => .ok (.attribute a)
  | none =>
  match parseAlign s with
  | some a => .ok (.align a)
  | none =>
  match s with
  | [c] => .ok (.char c)
  | _ => .error (.unrecognized s)

/-- The class `[\s()]`. See src/parse/mod.rs 147. -/
def Classes.sep (k : Classes) (c : Char) : Bool := k.ws c || c == '(' || c == ')'

/-- The class `[\w,\s]`. See src/parse/mod.rs 147. -/
def Classes.arg (k : Classes) (c : Char) : Bool := k.wd c || c == ',' || k.ws c

/-- The group `(\([\w,\s]+\))?` of src/parse/mod.rs 147, and what follows. -/
def tokenGroup (k : Classes) : Text → Option (Text × Text)
  | '(' :: s =>
    if s.takeWhile k.arg = [] then none
    else match s.dropWhile k.arg with
      | ')' :: rest => some ('(' :: s.takeWhile k.arg ++ [')'], rest)
      | _ => none
  | _ => none

/-- The matches of the regex `[^\s()]+(\([\w,\s]+\))?`, src/parse/mod.rs 147. The first argument bounds the number of turns: there's at
least a character by turn. -/
def styleWordsAux (k : Classes) : Nat → Text → List Text
  | 0, _ => []
  | _ + 1, [] => []
  | fuel + 1, c :: cs =>
    if k.sep c then styleWordsAux k fuel cs
    else
      let word := c :: cs.takeWhile (fun c => !k.sep c)
      match tokenGroup k (cs.dropWhile (fun c => !k.sep c)) with
      | some (group, rest) => (word ++ group) :: styleWordsAux k fuel rest
      | none => word :: styleWordsAux k fuel (cs.dropWhile (fun c => !k.sep c))

/-- All the matches. See src/parse/mod.rs 147. -/
def styleWords (k : Classes) (s : Text) : List Text := styleWordsAux k s.length s

/-- The loop of `parse_style_tokens`. See src/parse/mod.rs 147-149. -/
def parseTokens (k : Classes) : List Text → Except ParseStyleTokenError (List StyleToken)
  | [] => .ok []
  | s :: ss => do
    let t ← parseStyleToken k s
    let ts ← parseTokens k ss
    .ok (t :: ts)

/-- `parse_style_tokens`, src/parse/mod.rs 145-151. -/
def parseStyleTokens (k : Classes) (s : Text) : Except ParseStyleTokenError (List StyleToken) := parseTokens k (styleWords k s)

/-! ### Styles -/

/-- `ATTRIBUTES`, src/compound_style.rs 30-39. -/
def writtenAttributes : List Attr := [.bold, .dim, .italic, .underlined, .reverse, .crossedOut, .encircled, .overLined]

/-- `PushStyleTokens for CompoundStyle`, src/parse/parse_compound_style.rs 64-80. -/
def CompoundStyle.tokens (s : CompoundStyle) : List StyleToken :=
  (match s.fg with
    | some fg => [.color fg]
    | none => if s.bg.isSome then [.none] else []) ++
  (match s.bg with
    | some bg => [.color bg]
    | none => []) ++
  (writtenAttributes.filter s.hasAttr).map .attribute

/-- A turn of the loop of `From<&[StyleToken]> for CompoundStyle`; the flag is `fg_set`. See src/parse/parse_compound_style.rs 31-59. -/
def CompoundStyle.addToken : CompoundStyle × Bool → StyleToken → CompoundStyle × Bool
  | (s, fgSet), .color c => if fgSet then (s.setBg c, fgSet) else (s.setFg c, true)
  | (s, _), .none => (s, true)
  | (s, fgSet), .attribute a => (s.addAttr a, fgSet)
  | st, _ => st

/-- `From<&[StyleToken]> for CompoundStyle`, src/parse/parse_compound_style.rs 25-62. -/
def CompoundStyle.ofTokens (tokens : List StyleToken) : CompoundStyle := (tokens.foldl CompoundStyle.addToken ({}, false)).1

/-- `parse_compound_style`, src/parse/parse_compound_style.rs 20-23. -/
def parseCompoundStyle (k : Classes) (s : Text) : Except ParseStyleTokenError CompoundStyle := do
  let tokens ← parseStyleTokens k s
  .ok (CompoundStyle.ofTokens tokens)

/-- `PushStyleTokens for LineStyle`, src/parse/parse_line_style.rs 44-53. -/
def LineStyle.tokens (ls : LineStyle) : List StyleToken :=
  ls.style.tokens ++ [.align ls.align] ++
  if ls.leftMargin > 0 ∨ ls.rightMargin > 0 then
    [.dimension (min ls.leftMargin 65536 % 65536), .dimension (min ls.rightMargin 65536 % 65536)]
  else []

/-- The alignment, and the first and last dimensions of tokens: a turn of the loop of src/parse/parse_line_style.rs 18-32. -/
def LineStyle.addToken : Alignment × Option Nat × Option Nat → StyleToken → Alignment × Option Nat × Option Nat
  | (_, l, r), .align a => (a, l, r)
  | (al, some l, _), .dimension n => (al, some l, some n)
  | (al, none, r), .dimension n => (al, some n, r)
  | st, _ => st

/-- `From<&[StyleToken]> for LineStyle`, src/parse/parse_line_style.rs 12-42. -/
def LineStyle.ofTokens (tokens : List StyleToken) : LineStyle :=
  let st := tokens.foldl LineStyle.addToken (.unspecified, none, none)
  { style := CompoundStyle.ofTokens tokens, align := st.1, leftMargin := st.2.1.getD 0, rightMargin := st.2.2.getD 0 }

/-- `parse_line_style`, src/parse/parse_line_style.rs 7-10. -/
def parseLineStyle (k : Classes) (s : Text) : Except ParseStyleTokenError LineStyle := do
  let tokens ← parseStyleTokens k s
  .ok (LineStyle.ofTokens tokens)

/-- `PushStyleTokens for StyledChar`, src/parse/parse_styled_char.rs 23-28. -/
def StyledChar.tokens (sc : StyledChar) : List StyleToken := .char sc.char :: sc.style.tokens

/-- The first character of tokens, src/parse/parse_styled_char.rs 13-18. -/
def firstChar : List StyleToken → Option Char
  | [] => none
  | .char c :: _ => some c
  | _ :: ts => firstChar ts

/-- `parse_styled_char`, src/parse/parse_styled_char.rs 7-21. -/
def parseStyledChar (k : Classes) (s : Text) (default : Char) : Except ParseStyleTokenError StyledChar := do
  let tokens ← parseStyleTokens k s
  .ok (StyledChar.new (CompoundStyle.ofTokens tokens) ((firstChar tokens).getD default))

end Verif
