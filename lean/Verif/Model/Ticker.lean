/-! Model of `src/events/tick_beam.rs`: the ticker and the threads of its beams are the interleaved actions of a transition system. -/
namespace Verif.Ticks

/-- Where the thread of a beam is in its loop, src/events/tick_beam.rs 83-95: about to look at the remaining count (84-89), in `recv_timeout` (90),
about to send (94), or ended. -/
inductive Phase
  | check | wait | send | ended
  deriving DecidableEq, Repr

/-- A beam, src/events/tick_beam.rs 20-24, and its thread: `inbox` tells whether there's a message in the channel of the interrupts. The period isn't
modelled: the timeout may happen at any time. -/
structure Beam (P : Type) where
  payload : P
  remaining : Option Nat
  phase : Phase := .check
  inbox : Bool := false
  deriving DecidableEq, Repr

/-- `Ticker`, src/events/tick_beam.rs 34-39: `handles` are the ids of `beams`, `threads` the threads, in the order of their start, `ticks` the payloads
sent on the channel, with the thread which sent them. -/
structure Ticker (P : Type) where
  nextId : Nat := 0
  handles : List Nat := []
  threads : List (Beam P) := []
  ticks : List (Nat × P) := []
  dropped : Bool := false
  deriving DecidableEq, Repr

variable {P : Type}

/-- `TickBeamHandle::stop`, src/events/tick_beam.rs 42-44: the channel can hold the message, which is the only one as the handle is consumed. The error is ignored if the thread is ended. -/
def interrupt (threads : List (Beam P)) (id : Nat) : List (Beam P) := threads.modify id fun b => { b with inbox := true }

/-- `Vec::swap_remove`. Standard library, used in src/events/tick_beam.rs 67. -/
def swapRemove (l : List Nat) (idx : Nat) : List Nat := (l.set idx (l.getLast?.getD 0)).dropLast

namespace Ticker

/-- `Ticker::stop_all_beams`, src/events/tick_beam.rs 58-62. -/
def stopAll (t : Ticker P) : Ticker P := { t with handles := [], threads := t.handles.foldl interrupt t.threads }

/-- `Ticker::stop_beam`, src/events/tick_beam.rs 64-69. -/
def stop (t : Ticker P) (id : Nat) : Ticker P :=
  match t.handles.findIdx? (· = id) with
  | some idx => { t with handles := swapRemove t.handles idx, threads := interrupt t.threads (t.handles.getD idx 0) }
  | none => t

/-- `Ticker::start_beam`, src/events/tick_beam.rs 76-102: the id and the new ticker. The thread whose id is `n` is the one at this place. -/
def start (t : Ticker P) (payload : P) (count : Option Nat) : Nat × Ticker P :=
  (t.nextId, { t with nextId := t.nextId + 1, handles := t.handles ++ [t.nextId], threads := t.threads ++ [{ payload, remaining := count }] })

/-- `Ticker::tick_once`, src/events/tick_beam.rs 104-110. -/
def tickOnce (t : Ticker P) (payload : P) : Nat × Ticker P := t.start payload (some 1)

/-- `Ticker::tick_several_times`, src/events/tick_beam.rs 114-120. -/
def tickSeveralTimes (t : Ticker P) (payload : P) (count : Nat) : Nat × Ticker P := t.start payload (some count)

/-- `Ticker::tick_infinitely`, src/events/tick_beam.rs 122-128. -/
def tickInfinitely (t : Ticker P) (payload : P) : Nat × Ticker P := t.start payload none

end Ticker

/-- An action of the user, or of the thread of a beam: `check` the count, have the `timeout` or the interrupt (`stopped`) in `recv_timeout`, `send` the tick.
See src/events/tick_beam.rs 58-135. -/
inductive Act (P : Type)
  | start (payload : P) (count : Option Nat)
  | stop (id : Nat)
  | stopAll
  | drop
  | check (i : Nat) | timeout (i : Nat) | stopped (i : Nat) | send (i : Nat)
  deriving DecidableEq, Repr

/-- The start of the loop, src/events/tick_beam.rs 84-89. -/
def Beam.check (b : Beam P) : Beam P :=
  match b.remaining with
  | some 0 => { b with phase := .ended }
  | some (n + 1) => { b with remaining := some n, phase := .wait }
  | none => { b with phase := .wait }

/-- An action, if it's possible. `recv_timeout` takes a message if there's one. The drop of the ticker is at src/events/tick_beam.rs 131-135. -/
def step (t : Ticker P) : Act P → Option (Ticker P)
  | .start payload count => if t.dropped then none else some (t.start payload count).2
  | .stop id => if t.dropped then none else some (t.stop id)
  | .stopAll => if t.dropped then none else some t.stopAll
  | .drop => if t.dropped then none else some { t.stopAll with dropped := true }
  | .check i =>
    match t.threads[i]? with
    | some b => if b.phase = .check then some { t with threads := t.threads.set i b.check } else none
    | none => none
  | .timeout i =>
    match t.threads[i]? with
    | some b => if b.phase = .wait ∧ b.inbox = false then some { t with threads := t.threads.set i { b with phase := .send } } else none
    | none => none
  | .stopped i =>
    match t.threads[i]? with
    | some b => if b.phase = .wait ∧ b.inbox = true then some { t with threads := t.threads.set i { b with phase := .ended, inbox := false } } else none
    | none => none
  | .send i =>
    match t.threads[i]? with
    | some b =>
      if b.phase = .send then some { t with threads := t.threads.set i { b with phase := .check }, ticks := t.ticks ++ [(i, b.payload)] } else none
    | none => none

/-- The states of a ticker after a list of actions, `Ticker::new`, src/events/tick_beam.rs 48-56. -/
inductive Exec : List (Act P) → Ticker P → Prop
  | init : Exec [] {}
  | step {acts : List (Act P)} {t t' : Ticker P} (a : Act P) : Exec acts t → step t a = some t' → Exec (acts ++ [a]) t'

end Verif.Ticks
