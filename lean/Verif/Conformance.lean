import Verif.Model.FmtText
import Verif.Model.Fitter
import Verif.Model.Fit
import Verif.Model.Input
import Verif.Model.Parse
import Verif.Model.SkinOps
import Verif.Model.Serde
import Verif.Props.Parse
/-! The unit tests of the repository, run on the model.

These are tests of the faithfulness of the model, not proofs of properties. What minimad parses is given as its result.
The widths and classes of characters are given for the characters of the tests. -/
namespace Verif.Conformance

/-- The widths of the characters of the tests: combining characters, CJK, others. -/
def width (c : Char) : Nat :=
  if 0x300 ≤ c.toNat ∧ c.toNat < 0x370 then 0
  else if 0x3000 ≤ c.toNat ∧ c.toNat < 0xA000 ∨ 0xFF00 ≤ c.toNat ∧ c.toNat ≤ 0xFF60 then 2
  else 1
/-- The whitespace of the tests. -/
def blank (c : Char) : Bool := c == ' ' || c == '\n'
/-- The alphanumeric characters of the tests. -/
def alnum (c : Char) : Bool := c.isAlphanum

/-! ### src/views/input_field_content.rs 665-755 -/

/-- `make_content`, 685-692; the cursor is given as a number. -/
def makeContent (value : String) (x : Nat) : Run Content := do
  let c ← Content.ofText value.toList
  some { c with pos := ⟨0, x⟩ }

/-- `test_char_iterator`, 665-671. -/
example : ["this has\nthree lines\n", "", "123", "\n\n"].all (fun s =>
    (do let c ← Content.ofText s.toList; c.isStr s.toList) == some true) = true := by decide +kernel

/-- `test_new_line`, 700-714. -/
example : (do let c ← makeContent "12345" 2; c.insertChar '6') = makeContent "126345" 3 := by decide +kernel
example : (do let c ← makeContent "126345" 3; let c ← c.insertNewLine; c.isStr "126\n345".toList) = some true := by decide +kernel
example : (do
    let c ← ({} : Content).insertChar '1'
    let c ← c.insertChar '2'
    let c ← c.insertNewLine
    let c ← c.insertChar '3'
    let c ← c.insertChar '4'
    c.isStr "12\n34".toList) = some true := by decide +kernel

/-- `test_del_word_right`, 716-738. -/
def delRight (value : String) (x : Nat) : Run Content := do
  let c ← makeContent value x
  (c.delWordRight alnum).map (·.1)
example : delRight "aaa bbb ccc" 5 = makeContent "aaa bccc" 5 ∧ delRight "aaa bccc" 5 = makeContent "aaa b" 4 ∧
    delRight "aaa b" 4 = makeContent "aaa " 3 ∧ delRight "aaa " 3 = makeContent "aaa" 3 ∧
    delRight "aaa" 3 = makeContent "aaa" 2 ∧ delRight "aaa" 2 = makeContent "aa" 1 ∧
    delRight "aa" 1 = makeContent "a" 0 ∧ delRight "a" 0 = makeContent "" 0 ∧ delRight "" 0 = makeContent "" 0 := by
  decide +kernel

/-- `test_select_clear_del_selection` and `test_select_del_char_left_del_selection`, 740-754. -/
example : (do
    let c ← makeContent "aaa bbb ccc" 5
    let c ← c.setSelectionTail (← c.endPos)
    c.clear.delSelection).isSome = true := by decide +kernel
example : (do
    let c ← makeContent "aaa bbb ccc" 5
    let c ← c.setSelectionTail (← c.endPos)
    let (c, _) ← c.delCharLeft
    c.delSelection).isSome = true := by decide +kernel

/-! ### src/fit/str_fit.rs 97-124 -/

/-- `test_count_fitting`. -/
example : StrFit.countFitting width "test".toList 3 = (3, 3) ∧ StrFit.countFitting width "test".toList 5 = (4, 4) ∧
    StrFit.countFitting width "Comunicações".toList 12 = (14, 12) ∧ StrFit.countFitting width "Comunicações".toList 10 = (12, 10) ∧
    StrFit.countFitting width "Comunicações".toList 11 = (13, 11) ∧
    StrFit.countFitting width "Comunicações".toList 12 = (16, 12) ∧
    StrFit.countFitting width "概要".toList 1 = (0, 0) ∧ StrFit.countFitting width "概要".toList 2 = (3, 2) ∧
    StrFit.countFitting width "概要".toList 3 = (3, 2) ∧ StrFit.countFitting width "概要".toList 4 = (6, 4) ∧
    StrFit.countFitting width "概要".toList 5 = (6, 4) := by decide +kernel

/-! ### src/fit/wrap.rs 160-274 -/

/-- A compound without style. -/
def raw (s : String) : Compound := { src := s.toList }
def bold (s : String) : Compound := { src := s.toList, flags := { bold := true } }
def italic (s : String) : Compound := { src := s.toList, flags := { italic := true } }
def code (s : String) : Compound := { src := s.toList, flags := { code := true } }

/-- The text of `check_hard_wrapping_simple_text`, 219-231. -/
def simpleText : List MLine := [
  .normal .paragraph [raw "This is a ", italic "long", raw " line which needs to be ", bold "broken", raw "."],
  .normal .paragraph [raw "And the text goes on with a list:"],
  .normal (.listItem 0) [raw "short item"],
  .normal (.listItem 0) [raw "a ", italic "somewhat longer item", raw " (with a part in ", bold "bold", raw ")"]]

/-- `visible_fmt_line_length`, 169-174. -/
def visibleFmtLineLength (skin : Skin) : FmtLine → Nat
  | .normal fc => skin.visibleCompositeLength width fc.kind fc.compounds
  | _ => 0

/-- `check_no_overflow`, 180-198. -/
def noOverflow (skin : Skin) (src : List MLine) (w : Nat) : Bool :=
  match FmtText.fromText width blank skin src (some w) with
  | some t => t.lines.all fun l => decide (visibleFmtLineLength skin l ≤ w ∧ 0 < visibleFmtLineLength skin l)
  | none => false
example : (List.range' 3 47).all (noOverflow Skin.default simpleText) = true := by decide +kernel
example : (FmtText.fromText width blank Skin.default simpleText (some 25)).map (fun t => t.lines.map (visibleFmtLineLength Skin.default)) =
    some [25, 19, 25, 7, 12, 25, 23] := by decide +kernel

/-- `check_space_removing`, 233-241. -/
example : (hardWrapComposite width blank Skin.default (FmtComposite.ofComposite Skin.default width .paragraph [raw "syntax coloring"]) 8).map
    (fun r => r.toOption.map (·.length)) = some (some 2) := by decide +kernel

/-- `check_issue_17`, 250-262. -/
example : (FmtText.fromText width blank Skin.default [.normal .paragraph [
      italic "Now I'll describe this example with more words than necessary, in order to be sure to demonstrate scrolling (and ",
      { src := "wrapping".toList, flags := { bold := true, italic := true } }, italic ", too, thanks to long sentences)."]] (some 120)).map
    (fun t => (t.lines.length, t.lines[1]?.map fun
      | .normal fc => fc.compounds.head?
      | _ => none)) =
    some (2, some (some { src := "wrapping".toList, flags := { bold := true, italic := true } })) := by decide +kernel

/-! ### src/fit/composite_fit.rs 337-385 -/

/-- `check_fit`, 353-369. -/
def checkFit (cs : List Compound) (w : Nat) : Bool :=
  [Alignment.right, .left, .center, .unspecified].all fun align =>
    match (Fitter.forAlign align).fit width blank (FmtComposite.ofComposite Skin.default width .paragraph cs) w Skin.default with
    | some fc => decide (fc.visibleLength ≤ w)
    | none => false
def sentence : List Compound :=
  [raw "This sentence has ", bold "short", raw " and ", bold "much longer", raw " parts, and some Korean: ", italic "一曰道，二曰天", raw "."]
def fiveIssues : List Compound := [raw "一曰道，二曰天，三曰地，四曰將，五曰法。"]
def statusLine : List Compound := [raw "ab ", italic "cd", raw " ", code "12345 123456789"]
example : checkFit sentence 60 = true ∧ checkFit sentence 40 = true ∧ checkFit fiveIssues 15 = true ∧ checkFit fiveIssues 8 = true ∧
    checkFit statusLine 17 = true ∧ checkFit statusLine 2 = true := by decide +kernel

/-! ### src/parse/parse_color.rs 102-119 and src/parse/mod.rs 153-197 -/

/-- `test_parse_color`. -/
example : parseColor Props.asciiClasses "rgb(255, 35, 45)".toList = .ok (.rgb 255 35 45) ∧
    parseColor Props.asciiClasses "rgb(255, 260, 45)".toList = .error .unrecognized ∧
    parseColor Props.asciiClasses "gray(25)".toList = .error (.invalidGreyLevel 25) ∧
    parseColor Props.asciiClasses "gray(11)".toList = parseColor Props.asciiClasses "GREY(11)".toList ∧
    parseColor Props.asciiClasses "gray(11)".toList = .ok (gray 11) ∧
    parseColor Props.asciiClasses "Green".toList = .ok .green ∧
    parseColor Props.asciiClasses "ansi(11)".toList = .ok (.ansi 11) := ⟨rfl, rfl, rfl, rfl, rfl, rfl, rfl⟩

/-- `test_parse_style_tokens`. -/
example : parseStyleTokens Props.asciiClasses "red bold left".toList = .ok [.color .red, .attribute .bold, .align .left] ∧
    (parseStyleTokens Props.asciiClasses "red pissenlit".toList).toOption = none ∧
    parseStyleTokens Props.asciiClasses "Center grey(15) RGB(51, 47, 58) bold".toList =
      .ok [.align .center, .color (gray 15), .color (.rgb 51 47 58), .attribute .bold] ∧
    parseStyleTokens Props.asciiClasses " Yellow Italic ".toList = .ok [.color .yellow, .attribute .italic] ∧
    parseStyleTokens Props.asciiClasses "| Yellow red".toList = .ok [.char '|', .color .yellow, .color .red] ∧
    parseStyleTokens Props.asciiClasses "rgb(255,0,100) #fb0".toList = .ok [.color (.rgb 255 0 100), .color (.rgb 255 187 0)] ∧
    parseStyleTokens Props.asciiClasses " red gray(40) ".toList = .error (.invalidColor (.invalidGreyLevel 40)) :=
  ⟨rfl, rfl, rfl, rfl, rfl, rfl, rfl⟩

end Verif.Conformance
