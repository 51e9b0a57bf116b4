import Verif.Model.Basic
/-! Model of `src/fit/str_fit.rs`, `src/fit/filling.rs` and `src/fit/crop_writer.rs`. -/
namespace Verif

/-- The tabulation. See src/fit/str_fit.rs 32 and src/fit/crop_writer.rs 73. -/
def tabChar : Char := '\t'
/-- The backspace, `'\x08'`. See src/fit/str_fit.rs 37. -/
def bsChar : Char := '\x08'

/-- `TAB_REPLACEMENT`, src/fit/str_fit.rs 6. -/
def tabReplacement : Text := [' ', ' ']

/-- `StrFit`, src/fit/str_fit.rs 18-23. -/
structure StrFit where
  bytesCount : Nat
  colsCount : Nat
  hasTab : Bool
  deriving DecidableEq, Repr

namespace StrFit

/-- The width given to a character by `StrFit::from`, src/fit/str_fit.rs 31-42. -/
def charWidth (cw : Char → Nat) (c : Char) : Int :=
  if c = tabChar then 2
  else if c = bsChar then -1
  else (cw c : Int)

/-- The loop of `StrFit::from`, src/fit/str_fit.rs 30-49. `idx` is the byte index of the next character;
`i32` columns are unbounded `Int`s. -/
def loop (cw : Char → Nat) (colsMax : Nat) : Text → (idx : Nat) → (bytes : Nat) → (cols : Int) → (tab : Bool) →
    Nat × Int × Bool
  | [], _, bytes, cols, tab => (bytes, cols, tab)
  | c :: t, idx, bytes, cols, tab =>
    let tab := if c = tabChar then true else tab
    let next := cols + charWidth cw c
    if next > 0 ∧ next.toNat > colsMax then (bytes, cols, tab)
    else loop cw colsMax t (idx + c.utf8Size) (idx + c.utf8Size) next tab

/-- `StrFit::from`, src/fit/str_fit.rs 26-55. -/
def from_ (cw : Char → Nat) (s : Text) (colsMax : Nat) : StrFit :=
  let r := loop cw colsMax s 0 0 0 false
  { bytesCount := r.1, colsCount := (max r.2.1 0).toNat, hasTab := r.2.2 }

/-- `str::replace('\t', TAB_REPLACEMENT)`. See src/fit/str_fit.rs 72 and 89. -/
def untab : Text → Text
  | [] => []
  | c :: t => (if c = tabChar then tabReplacement else [c]) ++ untab t

/-- `StrFit::count_fitting`, src/fit/str_fit.rs 59-62. -/
def countFitting (cw : Char → Nat) (s : Text) (colsMax : Nat) : Nat × Nat :=
  let fit := from_ cw s colsMax
  (fit.bytesCount, fit.colsCount)

/-- `StrFit::make_string`, src/fit/str_fit.rs 69-77, and `make_cow`, 85-94 (which only differs by borrowing). -/
def makeString (cw : Char → Nat) (s : Text) (colsMax : Nat) : Run (Text × Nat) := do
  let fit := from_ cw s colsMax
  let t ← sliceBytes s 0 fit.bytesCount
  if fit.hasTab then pure (untab t, fit.colsCount) else pure (t, fit.colsCount)

end StrFit

/-- `FILLING_STRING_CHAR_LEN`, src/fit/filling.rs 12. -/
def fillingStringCharLen : Nat := 1000

/-- `Filling`, src/fit/filling.rs 15-18. -/
structure Filling where
  fillingString : Text
  charSize : Nat

namespace Filling

/-- `Filling::from_char`, src/fit/filling.rs 21-31. -/
def fromChar (c : Char) : Filling :=
  { fillingString := List.replicate fillingStringCharLen c, charSize := c.utf8Size }

/-- `Filling::queue_unstyled`, src/fit/filling.rs 32-39, and `queue_styled`, 40-52: the list of the strings
printed, all with the same style. -/
def queue (f : Filling) (len : Nat) : Run (List Text) :=
  if _h : 0 < len then do
    let sl := min len fillingStringCharLen
    let chunk ← sliceBytes f.fillingString 0 (sl * f.charSize)
    let rest ← queue f (len - sl)
    pure (chunk :: rest)
  else pure []
termination_by len
decreasing_by
  simp only [fillingStringCharLen]; omega

end Filling

/-- `CropWriter`, src/fit/crop_writer.rs 15-26, with the text written so far. Styles are not part of this model:
escape codes take no column. -/
structure CropWriter where
  allowed : Nat
  tabRepl : Text := [' ', ' ']
  out : Text := []

namespace CropWriter

/-- `CropWriter::new`, src/fit/crop_writer.rs 32-38; `DEFAULT_TAB_REPLACEMENT` is two spaces, src/fit/mod.rs. -/
def new (limit : Nat) : CropWriter := { allowed := limit }

/-- `CropWriter::is_full`, src/fit/crop_writer.rs 39-41. -/
def isFull (w : CropWriter) : Bool := w.allowed = 0

/-- Printing a text. See src/fit/crop_writer.rs 53, 62, 68, 79, 95, 100, 115 and 119. -/
def print (w : CropWriter) (t : Text) : CropWriter := { w with out := w.out ++ t }

/-- `queue_unstyled_str`, src/fit/crop_writer.rs 47-55, and `queue_str`, 56-63. -/
def queueStr (cw : Char → Nat) (w : CropWriter) (s : Text) : Run CropWriter :=
  if w.isFull then pure w
  else do
    let (string, len) ← StrFit.makeString cw s w.allowed
    let allowed ← csub w.allowed len
    pure ({ w with allowed }.print string)

/-- `queue_char`, src/fit/crop_writer.rs 64-71. -/
def queueChar (cw : Char → Nat) (w : CropWriter) (c : Char) : Run CropWriter :=
  if cw c < w.allowed then do
    let allowed ← csub w.allowed (cw c)
    pure ({ w with allowed }.print [c])
  else pure w

/-- `queue_unstyled_char`, src/fit/crop_writer.rs 72-82. -/
def queueUnstyledChar (cw : Char → Nat) (w : CropWriter) (c : Char) : Run CropWriter :=
  if c = tabChar then queueStr cw w w.tabRepl
  else queueChar cw w c

/-- `queue_unstyled_g_string`, src/fit/crop_writer.rs 85-102, and `queue_g_string`, 105-120. The truncation at
the index given by `char_indices` is modelled on characters: the loop stops at the first character of rank
`allowed` (counting from 0) if there is one. -/
def queueGString (w : CropWriter) (s : Text) : Run CropWriter :=
  if w.isFull then pure w
  else if s.length > w.allowed then pure ({ w with allowed := 0 }.print (s.take w.allowed))
  else do
    let allowed ← csub w.allowed s.length
    pure ({ w with allowed }.print s)

/-- `repeat`, src/fit/crop_writer.rs 136-145, and `repeat_unstyled`, 146-154, for a filling built from `c`. -/
def repeat_ (w : CropWriter) (c : Char) (len : Nat) : Run CropWriter := do
  let len := min len w.allowed
  let allowed ← csub w.allowed len
  let chunks ← (Filling.fromChar c).queue len
  pure ({ w with allowed }.print chunks.flatten)

/-- `fill`, `fill_unstyled`, `fill_with_space`, src/fit/crop_writer.rs 127-135. -/
def fill (w : CropWriter) (c : Char) : Run CropWriter := w.repeat_ c w.allowed

/-- A call on a crop writer. The functions are those of src/fit/crop_writer.rs 47-154. -/
inductive Op
  | str (s : Text)
  | char (c : Char)
  | unstyledChar (c : Char)
  | gString (s : Text)
  | fill (c : Char)
  | repeat_ (c : Char) (len : Nat)
  | setTabReplacement (t : Text)

/-- One call. The functions are those of src/fit/crop_writer.rs 47-154. -/
def step (cw : Char → Nat) (w : CropWriter) : Op → Run CropWriter
  | .str s => queueStr cw w s
  | .char c => queueChar cw w c
  | .unstyledChar c => queueUnstyledChar cw w c
  | .gString s => queueGString w s
  | .fill c => fill w c
  | .repeat_ c len => repeat_ w c len
  | .setTabReplacement t => pure { w with tabRepl := t }

/-- A sequence of calls. The functions are those of src/fit/crop_writer.rs 47-154. -/
def run (cw : Char → Nat) (w : CropWriter) : List Op → Run CropWriter
  | [] => pure w
  | op :: ops => (step cw w op).bind (fun w => run cw w ops)

end CropWriter
end Verif
