import Verif.Model.Basic
/-! Model of `src/views/input_field_content.rs` and `src/views/pos.rs`. Functions taking `&mut self` return the new content;
`alnum` is `char::is_alphanumeric`, `cw` is `UnicodeWidthChar::width(c).unwrap_or(0)`. -/
namespace Verif

/-- `Pos`, src/views/pos.rs 11-14. -/
structure Pos where
  y : Nat
  x : Nat
  deriving DecidableEq, Repr

/-- The derived order of `Pos`, src/views/pos.rs 10: on `y` then on `x`. -/
def Pos.blt (a b : Pos) : Bool := a.y < b.y || (a.y == b.y && a.x < b.x)

/-- `Range`, src/views/pos.rs 16-24. -/
structure Range where
  min : Pos
  max : Pos
  deriving DecidableEq, Repr

/-- `Range::contains`, src/views/pos.rs 33-45. -/
def Range.contains (r : Range) (x y : Nat) : Bool :=
  if r.min.y = r.max.y then y == r.min.y && r.min.x ≤ x && x ≤ r.max.x
  else if y < r.min.y || y > r.max.y then false
  else if y = r.min.y then x ≥ r.min.x
  else if y = r.max.y then x ≤ r.max.x
  else true

/-- `Range::contains_pos`, src/views/pos.rs 46-48. -/
def Range.containsPos (r : Range) (p : Pos) : Bool := r.contains p.x p.y

/-- `InputFieldContent`, src/views/input_field_content.rs 11-33; a `Line` (11-14) is its list of characters. -/
structure Content where
  pos : Pos := ⟨0, 0⟩
  tail : Option Pos := none
  lines : List Text := [[]]
  deriving DecidableEq, Repr

/-- `Vec::split_off`: panics if the index is after the end. Standard library. -/
def vecSplitOff (l : List α) (i : Nat) : Run (List α × List α) :=
  if i ≤ l.length then some (l.take i, l.drop i) else none

/-- `Vec::insert`: panics if the index is after the end. Standard library. -/
def vecInsert (l : List α) (i : Nat) (a : α) : Run (List α) :=
  if i ≤ l.length then some (l.take i ++ a :: l.drop i) else none

/-- `Vec::remove` (the remaining elements): panics if there's no such element. Standard library. -/
def vecRemove (l : List α) (i : Nat) : Run (List α) :=
  if i < l.length then some (l.take i ++ l.drop (i + 1)) else none

/-- `Vec::drain(a..b)` (the remaining elements): panics unless `a ≤ b ≤ len`. Standard library. -/
def vecDrain (l : List α) (a b : Nat) : Run (List α) :=
  if a ≤ b ∧ b ≤ l.length then some (l.take a ++ l.drop b) else none

/-- `v[i] = a`: panics if there's no such element. Standard library. -/
def vecSet (l : List α) (i : Nat) (a : α) : Run (List α) :=
  if i < l.length then some (l.set i a) else none

/-- `InputFieldContent::char_width`, src/views/input_field_content.rs 654-662. -/
def inputCharWidth (cw : Char → Nat) (c : Char) : Nat := if c = '\t' then 2 else cw c

/-- The loop of `Line::col_to_char_idx`, src/views/input_field_content.rs 105-112. -/
def colToCharIdxLoop (cw : Char → Nat) (col : Nat) : Nat → Nat → Text → Option Nat
  | _, _, [] => none
  | idx, sum, c :: t => if col ≤ sum then some idx else colToCharIdxLoop cw col (idx + 1) (sum + inputCharWidth cw c) t

/-- `Line::col_to_char_idx`, src/views/input_field_content.rs 104-113. -/
def colToCharIdx (cw : Char → Nat) (line : Text) (col : Nat) : Option Nat := colToCharIdxLoop cw col 0 0 line

/-- `Line::char_idx_to_col`, src/views/input_field_content.rs 114-119. -/
def charIdxToCol (cw : Char → Nat) (line : Text) (idx : Nat) : Run Nat :=
  if idx ≤ line.length then some (((line.take idx).map (inputCharWidth cw)).sum) else none

/-- `Line::width`, src/views/input_field_content.rs 120-125. -/
def lineWidth (cw : Char → Nat) (line : Text) : Nat := (line.map (inputCharWidth cw)).sum

namespace Content

/-- `Display::fmt` of a content, src/views/input_field_content.rs 87-101. -/
def fmtLines : List Text → Text
  | [] => []
  | [l] => l
  | l :: m :: ls => l ++ '\n' :: fmtLines (m :: ls)

/-- `InputFieldContent::to_string`, from `Display`, src/views/input_field_content.rs 87-101. -/
def toText (c : Content) : Text := fmtLines c.lines

/-- `Chars::next`, src/views/input_field_content.rs 37-52: the character and the new position. -/
def charsNext (c : Content) (stop pos : Pos) : Run (Option (Char × Pos)) :=
  if stop.blt pos then some none
  else do
    let line ← c.lines[pos.y]?
    match line[pos.x]? with
    | some ch => some (some (ch, { pos with x := pos.x + 1 }))
    | none => some (if pos.y + 1 < c.lines.length then some ('\n', ⟨pos.y + 1, 0⟩) else none)

/-- `Chars` collected, src/views/input_field_content.rs 36-53 and 229. The first argument is a bound on the number of
characters, whose exhaustion would be reported as a panic. -/
def charsCollect (c : Content) (stop : Pos) : Nat → Pos → Run Text
  | 0, _ => none
  | fuel + 1, pos => do
    match ← c.charsNext stop pos with
    | none => some []
    | some (ch, pos') => do
      let t ← charsCollect c stop fuel pos'
      some (ch :: t)

/-- More than the number of characters of the content, used as bound for iterations.
Not in the code, whose iterator, src/views/input_field_content.rs 35-53, needs no bound. -/
def size (c : Content) : Nat := (c.lines.map (fun l => l.length + 1)).sum + 1

/-- `InputFieldContent::current_line`, src/views/input_field_content.rs 140-144. -/
def currentLine (c : Content) : Run Text := c.lines[c.pos.y]?

/-- `InputFieldContent::line_saturating`, src/views/input_field_content.rs 135-139: the last line is evaluated in all cases. -/
def lineSaturating (c : Content) (y : Nat) : Run Text := do
  let i ← csub c.lines.length 1
  let last ← c.lines[i]?
  some (c.lines[y]?.getD last)

/-- `InputFieldContent::end`, src/views/input_field_content.rs 246-252. -/
def endPos (c : Content) : Run Pos := do
  let y ← csub c.lines.length 1
  let l ← c.lines[y]?
  some ⟨y, l.length⟩

/-- `InputFieldContent::make_valid_pos`, src/views/input_field_content.rs 159-166. -/
def makeValidPos (c : Content) (p : Pos) : Run Pos :=
  if p.y ≥ c.lines.length then c.endPos
  else do
    let l ← c.lines[p.y]?
    some { p with x := min p.x l.length }

/-- `InputFieldContent::set_cursor_pos`, src/views/input_field_content.rs 155-157. -/
def setCursorPos (c : Content) (p : Pos) : Run Content := do
  let p ← c.makeValidPos p
  some { c with pos := p }

/-- `InputFieldContent::make_selection`, src/views/input_field_content.rs 168-172. -/
def makeSelection (c : Content) : Content :=
  match c.tail with
  | none => { c with tail := some c.pos }
  | some _ => c

/-- `InputFieldContent::unselect`, src/views/input_field_content.rs 173-175. -/
def unselect (c : Content) : Content := { c with tail := none }

/-- `InputFieldContent::set_selection_tail`, src/views/input_field_content.rs 176-185 (the column is bounded by the length
of the line of the cursor). -/
def setSelectionTail (c : Content) (p : Pos) : Run Content :=
  if p.y ≥ c.lines.length then do
    let e ← c.endPos
    some { c with tail := some e }
  else do
    let l ← c.lines[c.pos.y]?
    some { c with tail := some ⟨p.y, min p.x l.length⟩ }

/-- `InputFieldContent::fix_selection_tail`, src/views/input_field_content.rs 189-193. -/
def fixSelectionTail (c : Content) : Run Content :=
  match c.tail with
  | none => some c
  | some t => do
    let t ← c.makeValidPos t
    some { c with tail := some t }

/-- `InputFieldContent::fix_selection`, with `fix_pos`, src/views/input_field_content.rs 186-197. -/
def fixSelection (c : Content) : Run Content := do
  let p ← c.makeValidPos c.pos
  fixSelectionTail { c with pos := p }

/-- `InputFieldContent::selection`, src/views/input_field_content.rs 198-217. -/
def selection (c : Content) : Range :=
  match c.tail with
  | some t => if t.blt c.pos then ⟨t, c.pos⟩ else ⟨c.pos, t⟩
  | none => ⟨c.pos, c.pos⟩

/-- `InputFieldContent::selection_string`, with `selection_chars`, src/views/input_field_content.rs 218-230. -/
def selectionString (c : Content) : Run Text := c.charsCollect c.selection.max c.size c.selection.min

/-- The characters of the iterator of the whole content, src/views/input_field_content.rs 54-64. -/
def chars (c : Content) : Run Text := do
  let e ← c.endPos
  c.charsCollect e c.size ⟨0, 0⟩

/-- `InputFieldContent::is_empty`, src/views/input_field_content.rs 231-236. -/
def isEmpty (c : Content) : Bool :=
  match c.lines with
  | [l] => l.isEmpty
  | _ => false

/-- `InputFieldContent::has_wide_selection`, src/views/input_field_content.rs 240-243. -/
def hasWideSelection (c : Content) : Bool :=
  match c.tail with
  | some t => t ≠ c.pos
  | none => false

/-- `InputFieldContent::push_char`, with `last_line`, src/views/input_field_content.rs 253-268. -/
def pushChar (c : Content) (ch : Char) : Run Content :=
  if ch = '\n' then some { c with lines := c.lines ++ [[]] }
  else if ch = '\r' ∨ ch = '\x08' then some c
  else do
    let y ← csub c.lines.length 1
    let l ← c.lines[y]?
    let ls ← vecSet c.lines y (l ++ [ch])
    some { c with lines := ls }

/-- `InputFieldContent::clear`, src/views/input_field_content.rs 275-280. -/
def clear (_ : Content) : Content := {}

/-- `InputFieldContent::insert_new_line`, src/views/input_field_content.rs 281-289. -/
def insertNewLine (c : Content) : Run Content := do
  let l ← c.lines[c.pos.y]?
  let p ← vecSplitOff l c.pos.x
  let ls ← vecSet c.lines c.pos.y p.1
  let ls ← vecInsert ls (c.pos.y + 1) p.2
  fixSelection { c with lines := ls, pos := ⟨c.pos.y + 1, 0⟩ }

/-- `InputFieldContent::insert_char`, src/views/input_field_content.rs 290-301. -/
def insertChar (c : Content) (ch : Char) : Run Content :=
  if ch = '\n' then c.insertNewLine
  else if ch = '\r' ∨ ch = '\x08' then some c
  else do
    let l ← c.lines[c.pos.y]?
    let l ← vecInsert l c.pos.x ch
    let ls ← vecSet c.lines c.pos.y l
    some { c with lines := ls, pos := { c.pos with x := c.pos.x + 1 } }

/-- `InputFieldContent::insert_str`, src/views/input_field_content.rs 302-307. -/
def insertStr (c : Content) : Text → Run Content
  | [] => some c
  | ch :: s => do
    let c ← c.insertChar ch
    insertStr c s

/-- `InputFieldContent::from`, src/views/input_field_content.rs 269-274. -/
def ofText (s : Text) : Run Content := insertStr {} s

/-- The loop of `InputFieldContent::is_str`, src/views/input_field_content.rs 311-323. -/
def isStrLoop (c : Content) (stop : Pos) : Pos → Text → Run Bool
  | pos, [] => do
    match ← c.charsNext stop pos with
    | none => some true
    | some _ => some false
  | pos, b :: s => do
    match ← c.charsNext stop pos with
    | none => some false
    | some (a, pos') => if a = b then isStrLoop c stop pos' s else some false

/-- `InputFieldContent::is_str`, src/views/input_field_content.rs 308-324. -/
def isStr (c : Content) (s : Text) : Run Bool := do
  let e ← c.endPos
  c.isStrLoop e ⟨0, 0⟩ s

/-- `InputFieldContent::set_str`, src/views/input_field_content.rs 325-335. -/
def setStr (c : Content) (s : Text) : Run Content := do
  if ← c.isStr s then some c
  else c.clear.insertStr s

/-- The removal in the line in `del_char_left`, src/views/input_field_content.rs 340-342. -/
def removeLeft (l : Text) (i : Nat) : Run Text := if l.isEmpty then some l else vecRemove l i

/-- `InputFieldContent::del_char_left`, src/views/input_field_content.rs 336-355. -/
def delCharLeft (c : Content) : Run (Content × Bool) :=
  if c.pos.x > 0 then do
    let l ← c.lines[c.pos.y]?
    let l' ← removeLeft l (c.pos.x - 1)
    let ls ← vecSet c.lines c.pos.y l'
    let c' ← fixSelection { c with lines := ls, pos := { c.pos with x := c.pos.x - 1 } }
    some (c', true)
  else if c.pos.y > 0 ∧ c.lines.length > 1 then do
    let removed ← c.lines[c.pos.y]?
    let ls ← vecRemove c.lines c.pos.y
    let l ← ls[c.pos.y - 1]?
    let ls ← vecSet ls (c.pos.y - 1) (l ++ removed)
    let c' ← fixSelection { c with lines := ls, pos := ⟨c.pos.y - 1, l.length⟩ }
    some (c', true)
  else some (c, false)

/-- `is_word_char`, src/views/input_field_content.rs 673-675. -/
def isWordChar (alnum : Char → Bool) (ch : Char) : Bool := alnum ch || ch == '_'

/-- The first loop of `select_word_around`, src/views/input_field_content.rs 364-366. -/
def wordStart (alnum : Char → Bool) (chars : Text) : Nat → Run Nat
  | 0 => some 0
  | start + 1 => do
    let ch ← chars[start]?
    if isWordChar alnum ch then wordStart alnum chars start else some (start + 1)

/-- The second loop of `select_word_around`, src/views/input_field_content.rs 368-370. The first argument is a bound on
the number of turns (the length of the line is enough, and the exhaustion would be reported as a panic). -/
def wordEnd (alnum : Char → Bool) (chars : Text) : Nat → Nat → Run Nat
  | 0, _ => none
  | fuel + 1, stop =>
    if stop + 1 < chars.length then do
      let ch ← chars[stop + 1]?
      if isWordChar alnum ch then wordEnd alnum chars fuel (stop + 1) else some stop
    else some stop

/-- `InputFieldContent::select_word_around`, src/views/input_field_content.rs 357-374. -/
def selectWordAround (alnum : Char → Bool) (c : Content) : Run (Content × Bool) := do
  let chars ← c.lines[c.pos.y]?
  if c.pos.x ≥ chars.length then some (c, false)
  else do
    let ch ← chars[c.pos.x]?
    if isWordChar alnum ch then do
      let start ← wordStart alnum chars c.pos.x
      let stop ← wordEnd alnum chars (chars.length + 1) c.pos.x
      some ({ c with tail := some ⟨c.pos.y, start⟩, pos := { c.pos with x := stop } }, true)
    else some (c, false)

/-- `InputFieldContent::del_char_below`, src/views/input_field_content.rs 376-401. -/
def delCharBelow (c : Content) : Run (Content × Bool) := do
  let l ← c.currentLine
  if l.length = 0 then
    if c.lines.length > 1 then do
      let ls ← vecRemove c.lines c.pos.y
      let c' ← fixSelection { c with lines := ls }
      some (c', true)
    else some (c, false)
  else if c.pos.x < l.length then do
    let l' ← vecRemove l c.pos.x
    let ls ← vecSet c.lines c.pos.y l'
    let c' ← fixSelection { c with lines := ls }
    some (c', true)
  else if c.lines.length > c.pos.y + 1 then do
    let removed ← c.lines[c.pos.y + 1]?
    let ls ← vecRemove c.lines (c.pos.y + 1)
    let l ← ls[c.pos.y]?
    let ls ← vecSet ls c.pos.y (l ++ removed)
    let c' ← fixSelection { c with lines := ls }
    some (c', true)
  else some (c, false)

/-- An empty list of lines is replaced with a list of one empty line, src/views/input_field_content.rs 413-415 and 437-439. -/
def atLeastOneLine (ls : List Text) : List Text := if ls.isEmpty then [[]] else ls

/-- The removal of a selection inside a line, src/views/input_field_content.rs 409-421. -/
def delInLine (c : Content) (min max : Pos) : Run (List Text) := do
  let l ← c.lines[min.y]?
  if max.x = l.length then
    if min.x = 0 then do
      let ls ← vecDrain c.lines min.y (min.y + 1)
      some (atLeastOneLine ls)
    else do
      let l' ← vecDrain l min.x l.length
      vecSet c.lines min.y l'
  else do
    let l' ← vecDrain l min.x (max.x + 1)
    vecSet c.lines min.y l'

/-- The first line of a removal on several lines, src/views/input_field_content.rs 423-428. -/
def delFirstLine (ls : List Text) (min : Pos) : Run (List Text × Nat) :=
  if min.x > 0 then do
    let l ← ls[min.y]?
    let ls ← vecSet ls min.y (l.take min.x)
    some (ls, min.y + 1)
  else some (ls, min.y)

/-- The last line of a removal on several lines, src/views/input_field_content.rs 429-434. -/
def delLastLine (ls : List Text) (max : Pos) : Run (List Text × Nat) := do
  let l ← ls[max.y]?
  if max.x < l.length then do
    let l' ← vecDrain l 0 max.x
    let ls ← vecSet ls max.y l'
    let y ← csub max.y 1
    some (ls, y)
  else some (ls, max.y)

/-- The removal of a selection on several lines, src/views/input_field_content.rs 423-441. -/
def delInLines (c : Content) (min max : Pos) : Run (List Text) := do
  let p ← delFirstLine c.lines min
  let q ← delLastLine p.1 max
  if q.2 > p.2 then do
    let ls ← vecDrain q.1 p.2 (Min.min (q.2 + 1) q.1.length)
    some (atLeastOneLine ls)
  else some q.1

/-- The removal of the lines and parts of lines of a selection, src/views/input_field_content.rs 405-441. -/
def delRange (c : Content) (r : Range) : Run (List Text) :=
  if r.min.y = r.max.y then c.delInLine r.min r.max else c.delInLines r.min r.max

/-- `InputFieldContent::del_selection`, src/views/input_field_content.rs 403-445. -/
def delSelection (c : Content) : Run (Content × Bool) :=
  let r := c.selection
  if r.min.y = r.max.y ∧ r.min.x = r.max.x then c.delCharBelow
  else do
    let ls ← c.delRange r
    let c' ← setCursorPos { c with lines := ls } r.min
    some ({ c' with tail := none }, true)

/-- `InputFieldContent::swap_lines`, src/views/input_field_content.rs 446-456. -/
def swapLines (c : Content) (ya yb : Nat) : Run (Content × Bool) :=
  if ya ≠ yb ∧ ya < c.lines.length ∧ yb < c.lines.length then do
    let la ← c.lines[ya]?
    let lb ← c.lines[yb]?
    let c' ← fixSelection { c with lines := (c.lines.set ya lb).set yb la }
    some (c', true)
  else some (c, false)

/-- `InputFieldContent::move_current_line_up`, src/views/input_field_content.rs 458-467. -/
def moveCurrentLineUp (c : Content) : Run (Content × Bool) :=
  if c.pos.y > 0 then do
    let r ← c.swapLines (c.pos.y - 1) c.pos.y
    if r.2 then do
      let y ← csub r.1.pos.y 1
      let c' ← fixSelection { r.1 with pos := { r.1.pos with y } }
      some (c', true)
    else some (r.1, false)
  else some (c, false)

/-- `InputFieldContent::move_current_line_down`, src/views/input_field_content.rs 469-478. -/
def moveCurrentLineDown (c : Content) : Run (Content × Bool) := do
  let r ← c.swapLines (c.pos.y + 1) c.pos.y
  if r.2 then do
    let c' ← fixSelection { r.1 with pos := { r.1.pos with y := r.1.pos.y + 1 } }
    some (c', true)
  else some (r.1, false)

/-- `InputFieldContent::can_move_right`, src/views/input_field_content.rs 481-483. -/
def canMoveRight (c : Content) : Run Bool := do
  let l ← c.lines[c.pos.y]?
  let n ← csub c.lines.length 1
  some (c.pos.x < l.length || c.pos.y < n)

/-- `InputFieldContent::move_right`, src/views/input_field_content.rs 485-498. -/
def moveRight (c : Content) : Run (Content × Bool) := do
  let l ← c.lines[c.pos.y]?
  if c.pos.x < l.length then some ({ c with pos := { c.pos with x := c.pos.x + 1 } }, true)
  else do
    let n ← csub c.lines.length 1
    if c.pos.y < n then some ({ c with pos := ⟨c.pos.y + 1, 0⟩ }, true) else some (c, false)

/-- `InputFieldContent::move_lines_up`, src/views/input_field_content.rs 499-510. -/
def moveLinesUp (cw : Char → Nat) (c : Content) (n : Nat) : Run (Content × Bool) :=
  if c.pos.y > 0 then do
    let l ← c.lines[c.pos.y]?
    let cols ← charIdxToCol cw l c.pos.x
    let y := c.pos.y - min n c.pos.y
    let line ← c.lines[y]?
    some ({ c with pos := ⟨y, (colToCharIdx cw line cols).getD line.length⟩ }, true)
  else some (c, false)

/-- `InputFieldContent::move_up`, src/views/input_field_content.rs 511-514. -/
def moveUp (cw : Char → Nat) (c : Content) : Run (Content × Bool) := c.moveLinesUp cw 1

/-- `InputFieldContent::move_lines_down`, src/views/input_field_content.rs 515-526. -/
def moveLinesDown (cw : Char → Nat) (c : Content) (n : Nat) : Run (Content × Bool) :=
  if c.pos.y + 1 < c.lines.length then do
    let l ← c.lines[c.pos.y]?
    let cols ← charIdxToCol cw l c.pos.x
    let y := c.pos.y + min n (c.lines.length - c.pos.y - 1)
    let line ← c.lines[y]?
    some ({ c with pos := ⟨y, (colToCharIdx cw line cols).getD line.length⟩ }, true)
  else some (c, false)

/-- `InputFieldContent::move_down`, src/views/input_field_content.rs 527-529. -/
def moveDown (cw : Char → Nat) (c : Content) : Run (Content × Bool) := c.moveLinesDown cw 1

/-- `InputFieldContent::can_move_left`, src/views/input_field_content.rs 530-532. -/
def canMoveLeft (c : Content) : Bool := c.pos.x > 0 || c.pos.y > 0

/-- `InputFieldContent::move_left`, src/views/input_field_content.rs 533-544. -/
def moveLeft (c : Content) : Run (Content × Bool) :=
  if c.pos.x > 0 then some ({ c with pos := { c.pos with x := c.pos.x - 1 } }, true)
  else if c.pos.y > 0 then do
    let l ← c.lines[c.pos.y - 1]?
    some ({ c with pos := ⟨c.pos.y - 1, l.length⟩ }, true)
  else some (c, false)

/-- `InputFieldContent::move_to_end`, src/views/input_field_content.rs 545-553. -/
def moveToEnd (c : Content) : Run (Content × Bool) := do
  let p ← c.endPos
  if p = c.pos then some (c, false) else some ({ c with pos := p }, true)

/-- `InputFieldContent::move_to_start`, src/views/input_field_content.rs 554-562. -/
def moveToStart (c : Content) : Content × Bool :=
  if (⟨0, 0⟩ : Pos) = c.pos then (c, false) else ({ c with pos := ⟨0, 0⟩ }, true)

/-- `InputFieldContent::move_to_line_end`, src/views/input_field_content.rs 563-571. -/
def moveToLineEnd (c : Content) : Run (Content × Bool) := do
  let l ← c.lines[c.pos.y]?
  if c.pos.x < l.length then some ({ c with pos := { c.pos with x := l.length } }, true) else some (c, false)

/-- `InputFieldContent::move_to_line_start`, src/views/input_field_content.rs 572-579. -/
def moveToLineStart (c : Content) : Content × Bool :=
  if c.pos.x > 0 then ({ c with pos := { c.pos with x := 0 } }, true) else (c, false)

/-- The loop of `move_word_left`, src/views/input_field_content.rs 583-588, with the column before the decrement. -/
def wordLeftLoop (alnum : Char → Bool) (chars : Text) : Nat → Run Nat
  | 0 => none
  | x + 1 =>
    if x = 0 then some 0
    else do
      let ch ← chars[x - 1]?
      if alnum ch then wordLeftLoop alnum chars x else some x

/-- `InputFieldContent::move_word_left`, src/views/input_field_content.rs 580-593. -/
def moveWordLeft (alnum : Char → Bool) (c : Content) : Run (Content × Bool) :=
  if c.pos.x > 0 then do
    let chars ← c.lines[c.pos.y]?
    let x ← wordLeftLoop alnum chars c.pos.x
    some ({ c with pos := { c.pos with x } }, true)
  else some (c, false)

/-- The loop of `move_word_right`, src/views/input_field_content.rs 597-602, with the column before the increment. The
first argument is a bound on the number of turns (the length of the line is enough, and the exhaustion would be
reported as a panic). -/
def wordRightLoop (alnum : Char → Bool) (chars : Text) : Nat → Nat → Run Nat
  | 0, _ => none
  | fuel + 1, x =>
    if x + 2 ≥ chars.length then some (x + 1)
    else do
      let ch ← chars[x + 2]?
      if alnum ch then wordRightLoop alnum chars fuel (x + 1) else some (x + 1)

/-- `InputFieldContent::move_word_right`, src/views/input_field_content.rs 594-607. -/
def moveWordRight (alnum : Char → Bool) (c : Content) : Run (Content × Bool) := do
  let chars ← c.lines[c.pos.y]?
  if c.pos.x < chars.length then do
    let x ← wordRightLoop alnum chars (chars.length + 1) c.pos.x
    some ({ c with pos := { c.pos with x } }, true)
  else some (c, false)

/-- The loop of `del_word_left`, src/views/input_field_content.rs 611-617: remaining characters and column. -/
def delWordLeftLoop (alnum : Char → Bool) : Nat → Text → Run (Text × Nat)
  | 0, _ => none
  | x + 1, chars => do
    let chars ← vecRemove chars x
    if x = 0 then some (chars, 0)
    else do
      let ch ← chars[x - 1]?
      if alnum ch then delWordLeftLoop alnum x chars else some (chars, x)

/-- `InputFieldContent::del_word_left`, src/views/input_field_content.rs 608-623. -/
def delWordLeft (alnum : Char → Bool) (c : Content) : Run (Content × Bool) :=
  if c.pos.x > 0 then do
    let chars ← c.lines[c.pos.y]?
    let p ← delWordLeftLoop alnum c.pos.x chars
    let ls ← vecSet c.lines c.pos.y p.1
    let c' ← fixSelection { c with lines := ls, pos := { c.pos with x := p.2 } }
    some (c', true)
  else some (c, false)

/-- The loop of `del_word_right`, src/views/input_field_content.rs 631-643: remaining characters and column. The first
argument is a bound on the number of turns (the length of the line is enough, and the exhaustion would be reported as a panic). -/
def delWordRightLoop (alnum : Char → Bool) (x : Nat) : Nat → Text → Run (Text × Nat)
  | 0, _ => none
  | fuel + 1, chars => do
    let ch ← chars[x]?
    let chars ← vecRemove chars x
    if alnum ch then
      if x = chars.length then some (chars, x - 1) else delWordRightLoop alnum x fuel chars
    else some (chars, x)

/-- `InputFieldContent::del_word_right`, src/views/input_field_content.rs 628-652. -/
def delWordRight (alnum : Char → Bool) (c : Content) : Run (Content × Bool) := do
  let chars ← c.lines[c.pos.y]?
  if c.pos.x < chars.length then do
    let p ← delWordRightLoop alnum c.pos.x (chars.length + 1) chars
    let ls ← vecSet c.lines c.pos.y p.1
    let c' ← fixSelection { c with lines := ls, pos := { c.pos with x := p.2 } }
    some (c', true)
  else if c.pos.x = chars.length ∧ c.pos.x > 0 then
    some ({ c with pos := { c.pos with x := c.pos.x - 1 } }, true)
  else some (c, false)

end Content
end Verif
