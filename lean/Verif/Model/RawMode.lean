import Verif.Model.Basic
/-! Model of the mode of the terminal as event sources are created and dropped, `src/events/event_source.rs`. -/
namespace Verif.RawMode

/-- The terminal, whose raw mode is on or not, and the event sources which are alive, each told by whether it combines keys.
See src/events/event_source.rs 90-96. -/
structure World where
  raw : Bool := false
  sources : List Bool := []
  deriving DecidableEq, Repr

/-- What the calls of `crossterm` and of the combiner of keys give when a source is created: whether raw mode can be enabled, and an error or
whether the terminal can combine keys. See src/events/event_source.rs 143-148. -/
structure Calls where
  rawOk : Bool
  combining : Option Bool
  deriving DecidableEq, Repr

/-- `EventSource::with_options`, src/events/event_source.rs 141-275, for the terminal: raw mode is enabled (143), then, if asked for, the combination of
keys (144-148), each with an early return of the error; then the source is built (269-275). The flag tells whether a source was returned. The keyboard protocol
enabled by the combiner, which it disables itself, is in Model/Keyboard. -/
def World.create (w : World) (combineKeys : Bool) (c : Calls) : World × Bool :=
  if c.rawOk then
    let w := { w with raw := true }
    if combineKeys then
      match c.combining with
      | some b => ({ w with sources := w.sources ++ [b] }, true)
      | none => (w, false)
    else ({ w with sources := w.sources ++ [false] }, true)
  else (w, false)

/-- `Drop for EventSource`, src/events/event_source.rs 305-309: the source number `i` is dropped; it panics if raw mode can't be disabled. -/
def World.drop (w : World) (i : Nat) (ok : Bool) : Run World :=
  if i < w.sources.length then
    (if ok then some { raw := false, sources := w.sources.eraseIdx i } else none)
  else none

/-- `EventSource::supports_multi_key_combinations`, src/events/event_source.rs 135-137. -/
def World.combines (w : World) (i : Nat) : Option Bool := w.sources[i]?

/-- What a program does with event sources. See src/events/event_source.rs 117-123, 141 and 305-309. -/
inductive Act
  | create (combineKeys : Bool) (calls : Calls)
  | drop (i : Nat) (ok : Bool)
  deriving DecidableEq, Repr

/-- The effect of an action. See src/events/event_source.rs 141-275 and 305-309. -/
def World.step (w : World) : Act → Run World
  | .create combineKeys c => some (w.create combineKeys c).1
  | .drop i ok => w.drop i ok

/-- The state after a list of actions, if none of them panics. A list of the calls of src/events/event_source.rs 141-275 and 305-309. -/
def World.run (w : World) : List Act → Run World
  | [] => some w
  | a :: acts =>
    match w.step a with
    | some w' => w'.run acts
    | none => none

end Verif.RawMode
