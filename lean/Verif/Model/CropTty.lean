import Verif.Model.Fit
import Verif.Model.Tty
/-! Model of `src/fit/crop_writer.rs` with the styles: what is queued on the wrapped writer. -/
namespace Verif

/-- `CropWriter`, src/fit/crop_writer.rs 15-26, with what was queued on the writer `w`. -/
structure CropTty where
  allowed : Nat
  tabRepl : Text := [' ', ' ']
  cmds : List TtyCmd := []

namespace CropTty

/-- `CropWriter::new`, src/fit/crop_writer.rs 32-38. -/
def new (limit : Nat) : CropTty := { allowed := limit }

/-- `w.queue(…)`. See src/fit/crop_writer.rs 47-154. -/
def queue (w : CropTty) (cmds : List TtyCmd) : CropTty := { w with cmds := w.cmds ++ cmds }

/-- `queue_unstyled_str`, src/fit/crop_writer.rs 47-55, with `cropped_str`, 44-46. -/
def queueUnstyledStr (cw : Char → Nat) (w : CropTty) (s : Text) : Run CropTty :=
  if w.allowed = 0 then some w
  else do
    let (string, len) ← StrFit.makeString cw s w.allowed
    let allowed ← csub w.allowed len
    some ({ w with allowed }.queue [.print string])

/-- `queue_str`, src/fit/crop_writer.rs 56-63. -/
def queueStr (cw : Char → Nat) (w : CropTty) (cs : CompoundStyle) (s : Text) : Run CropTty :=
  if w.allowed = 0 then some w
  else do
    let (string, len) ← StrFit.makeString cw s w.allowed
    let allowed ← csub w.allowed len
    some ({ w with allowed }.queue [.styled cs string])

/-- `queue_char`, src/fit/crop_writer.rs 64-71. -/
def queueChar (cw : Char → Nat) (w : CropTty) (cs : CompoundStyle) (c : Char) : Run CropTty :=
  if cw c < w.allowed then do
    let allowed ← csub w.allowed (cw c)
    some ({ w with allowed }.queue [.styled cs [c]])
  else some w

/-- `queue_unstyled_char`, src/fit/crop_writer.rs 72-82. -/
def queueUnstyledChar (cw : Char → Nat) (w : CropTty) (c : Char) : Run CropTty :=
  if c = tabChar then queueUnstyledStr cw w w.tabRepl
  else if cw c < w.allowed then do
    let allowed ← csub w.allowed (cw c)
    some ({ w with allowed }.queue [.print [c]])
  else some w

/-- `queue_unstyled_g_string`, src/fit/crop_writer.rs 85-102. The truncation at the index given by `char_indices` is modelled on
characters. -/
def queueUnstyledGString (w : CropTty) (s : Text) : Run CropTty :=
  if w.allowed = 0 then some w
  else if s.length > w.allowed then some ({ w with allowed := 0 }.queue [.print (s.take w.allowed)])
  else do
    let allowed ← csub w.allowed s.length
    some ({ w with allowed }.queue [.print s])

/-- `queue_g_string`, src/fit/crop_writer.rs 105-120. -/
def queueGString (w : CropTty) (cs : CompoundStyle) (s : Text) : Run CropTty :=
  if w.allowed = 0 then some w
  else if s.length > w.allowed then some ({ w with allowed := 0 }.queue [.styled cs (s.take w.allowed)])
  else do
    let allowed ← csub w.allowed s.length
    some ({ w with allowed }.queue [.styled cs s])

/-- `queue_fg`, src/fit/crop_writer.rs 121-123. -/
def queueFg (w : CropTty) (cs : CompoundStyle) : CropTty := w.queue cs.queueFg

/-- `queue_bg`, src/fit/crop_writer.rs 124-126. -/
def queueBg (w : CropTty) (cs : CompoundStyle) : CropTty := w.queue cs.queueBg

/-- `repeat`, src/fit/crop_writer.rs 136-145, for a filling built from `c`, with `Filling::queue_styled`, src/fit/filling.rs 40-52. -/
def repeat_ (w : CropTty) (cs : CompoundStyle) (c : Char) (len : Nat) : Run CropTty := do
  let len := min len w.allowed
  let allowed ← csub w.allowed len
  let chunks ← (Filling.fromChar c).queue len
  some ({ w with allowed }.queue (chunks.map (.styled cs)))

/-- `repeat_unstyled`, src/fit/crop_writer.rs 146-154, for a filling built from `c`, with `Filling::queue_unstyled`,
src/fit/filling.rs 32-39. -/
def repeatUnstyled (w : CropTty) (c : Char) (len : Nat) : Run CropTty := do
  let len := min len w.allowed
  let allowed ← csub w.allowed len
  let chunks ← (Filling.fromChar c).queue len
  some ({ w with allowed }.queue (chunks.map .print))

/-- `fill`, src/fit/crop_writer.rs 127-129. -/
def fill (w : CropTty) (cs : CompoundStyle) (c : Char) : Run CropTty := w.repeat_ cs c w.allowed

/-- `fill_unstyled`, src/fit/crop_writer.rs 130-132. -/
def fillUnstyled (w : CropTty) (c : Char) : Run CropTty := w.repeatUnstyled c w.allowed

/-- `fill_with_space`, src/fit/crop_writer.rs 133-135; `SPACE_FILLING`, src/fit/mod.rs 34. -/
def fillWithSpace (w : CropTty) (cs : CompoundStyle) : Run CropTty := w.repeat_ cs ' ' w.allowed

/-- A call on a crop writer (the replacement of tabulations is a public field). The functions are those of src/fit/crop_writer.rs 47-154. -/
inductive Op
  | unstyledStr (s : Text)
  | str (cs : CompoundStyle) (s : Text)
  | char (cs : CompoundStyle) (c : Char)
  | unstyledChar (c : Char)
  | unstyledGString (s : Text)
  | gString (cs : CompoundStyle) (s : Text)
  | fg (cs : CompoundStyle)
  | bg (cs : CompoundStyle)
  | fill (cs : CompoundStyle) (c : Char)
  | fillUnstyled (c : Char)
  | fillWithSpace (cs : CompoundStyle)
  | repeat_ (cs : CompoundStyle) (c : Char) (len : Nat)
  | repeatUnstyled (c : Char) (len : Nat)
  | setTabReplacement (t : Text)

/-- One call. The functions are those of src/fit/crop_writer.rs 47-154. -/
def step (cw : Char → Nat) (w : CropTty) : Op → Run CropTty
  | .unstyledStr s => queueUnstyledStr cw w s
  | .str cs s => queueStr cw w cs s
  | .char cs c => queueChar cw w cs c
  | .unstyledChar c => queueUnstyledChar cw w c
  | .unstyledGString s => queueUnstyledGString w s
  | .gString cs s => queueGString w cs s
  | .fg cs => some (queueFg w cs)
  | .bg cs => some (queueBg w cs)
  | .fill cs c => fill w cs c
  | .fillUnstyled c => fillUnstyled w c
  | .fillWithSpace cs => fillWithSpace w cs
  | .repeat_ cs c len => repeat_ w cs c len
  | .repeatUnstyled c len => repeatUnstyled w c len
  | .setTabReplacement t => some { w with tabRepl := t }

/-- A sequence of calls. The functions are those of src/fit/crop_writer.rs 47-154. -/
def run (cw : Char → Nat) (w : CropTty) : List Op → Run CropTty
  | [] => some w
  | op :: ops => (step cw w op).bind fun w => run cw w ops

end CropTty
end Verif
