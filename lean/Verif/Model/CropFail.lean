import Verif.Model.Fit
/-! Model of `src/fit/crop_writer.rs` on a writer which may fail. -/
namespace Verif.CropWriter

/-- `w.queue(Print(t))` on a writer which accepts `kept` characters and then fails: the text which is written, and whether the result is
`Ok`. See src/fit/crop_writer.rs 53, 62, 68, 79, 95, 100, 115 and 119, where the error is returned. -/
def printUntil (w : CropWriter) (t : Text) (kept : Nat) : CropWriter × Bool := (w.print (t.take kept), t.length ≤ kept)

/-- `Filling::queue_unstyled`, src/fit/filling.rs 32-39, and `queue_styled`, 40-52: the loop is left on the first error. -/
def printChunksUntil (w : CropWriter) : List Text → (kept : Nat) → CropWriter × Bool
  | [], _ => (w, true)
  | t :: chunks, kept =>
    let r := w.printUntil t kept
    if r.2 then printChunksUntil r.1 chunks (kept - t.length) else r

/-- `queue_unstyled_str`, src/fit/crop_writer.rs 47-55, and `queue_str`, 56-63. -/
def queueStrUntil (cw : Char → Nat) (w : CropWriter) (s : Text) (kept : Nat) : Run (CropWriter × Bool) :=
  if w.isFull then some (w, true)
  else do
    let (string, len) ← StrFit.makeString cw s w.allowed
    let allowed ← csub w.allowed len
    some ({ w with allowed }.printUntil string kept)

/-- `queue_char`, src/fit/crop_writer.rs 64-71. -/
def queueCharUntil (cw : Char → Nat) (w : CropWriter) (c : Char) (kept : Nat) : Run (CropWriter × Bool) :=
  if cw c < w.allowed then do
    let allowed ← csub w.allowed (cw c)
    some ({ w with allowed }.printUntil [c] kept)
  else some (w, true)

/-- `queue_unstyled_char`, src/fit/crop_writer.rs 72-82. -/
def queueUnstyledCharUntil (cw : Char → Nat) (w : CropWriter) (c : Char) (kept : Nat) : Run (CropWriter × Bool) :=
  if c = tabChar then queueStrUntil cw w w.tabRepl kept
  else queueCharUntil cw w c kept

/-- `queue_unstyled_g_string`, src/fit/crop_writer.rs 85-102, and `queue_g_string`, 105-120. -/
def queueGStringUntil (w : CropWriter) (s : Text) (kept : Nat) : Run (CropWriter × Bool) :=
  if w.isFull then some (w, true)
  else if s.length > w.allowed then some ({ w with allowed := 0 }.printUntil (s.take w.allowed) kept)
  else do
    let allowed ← csub w.allowed s.length
    some ({ w with allowed }.printUntil s kept)

/-- `repeat`, src/fit/crop_writer.rs 136-145, and `repeat_unstyled`, 146-154. -/
def repeatUntil (w : CropWriter) (c : Char) (len kept : Nat) : Run (CropWriter × Bool) := do
  let len := min len w.allowed
  let allowed ← csub w.allowed len
  let chunks ← (Filling.fromChar c).queue len
  some ({ w with allowed }.printChunksUntil chunks kept)

/-- One call, during which the writer accepts at most `kept` characters, src/fit/crop_writer.rs 47-154. -/
def stepUntil (cw : Char → Nat) (w : CropWriter) (op : Op) (kept : Nat) : Run (CropWriter × Bool) :=
  match op with
  | .str s => queueStrUntil cw w s kept
  | .char c => queueCharUntil cw w c kept
  | .unstyledChar c => queueUnstyledCharUntil cw w c kept
  | .gString s => queueGStringUntil w s kept
  | .fill c => repeatUntil w c w.allowed kept
  | .repeat_ c len => repeatUntil w c len kept
  | .setTabReplacement t => some ({ w with tabRepl := t }, true)

/-- Calls, the caller going on after the errors: the result of each one is given. The functions are those of src/fit/crop_writer.rs 47-154. -/
def runUntil (cw : Char → Nat) (w : CropWriter) : List (Op × Nat) → Run (CropWriter × List Bool)
  | [] => some (w, [])
  | (op, kept) :: ops => do
    let r ← w.stepUntil cw op kept
    let rest ← runUntil cw r.1 ops
    some (rest.1, r.2 :: rest.2)

end Verif.CropWriter
