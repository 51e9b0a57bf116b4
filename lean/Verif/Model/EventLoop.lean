import Verif.Model.EventSource
/-! Model of the loop on events of an application, as it's written in `examples/inputs/main.rs`, with the thread of its event source
(`src/events/event_source.rs`). -/
namespace Verif.Events

/-- An application in its loop, examples/inputs/main.rs 53-68. `state` is what is changed when handling the events, `received` is the number of
events taken from the channel, `pending` the value of `quit` for an event which is handled and not yet answered. -/
structure Loop (S K σ : Type) where
  source : Source S K
  state : σ
  received : Nat := 0
  pending : Option Bool := none
  left : Bool := false
  closed : Bool := false
  panicked : Bool := false

/-- The actions of the thread (`read`, `work`, `send` and `wake`) and those of the loop: `receive` an event and handle it, find that the
channel is closed (`hangup`), `answer` with `unblock`, and `close` the source and the receivers after the loop.
See src/events/event_source.rs 155-267 and examples/inputs/main.rs 53-68. -/
inductive LoopAct
  | read (ev : RawEvent) | work (now : Nat) | send | wake
  | receive | hangup | answer | close
  deriving DecidableEq, Repr

variable {S K σ : Type}

/-- An action of the thread. See src/events/event_source.rs 155-267. -/
def Loop.thread (tr : S → RawKey → Option K × S) (o : Options) (l : Loop S K σ) (a : Act) : Option (Loop S K σ) :=
  (step tr o l.source a).map fun s => { l with source := s }

/-- The start of a turn of the loop, examples/inputs/main.rs 54-62: the next event, if there's one, is handled. `handle` is the application:
the new state, and whether it quits. -/
def Loop.receive (handle : σ → TimedEv K → σ × Bool) (l : Loop S K σ) : Option (Loop S K σ) :=
  if l.left ∨ l.pending.isSome then none
  else (l.source.sent[l.received]?).map fun e =>
    { l with state := (handle l.state e).1, pending := some (handle l.state e).2, received := l.received + 1 }

/-- The end of a turn of the loop, examples/inputs/main.rs 63-66: `unblock(quit)`, which may panic, and `break` on quit. -/
def Loop.answer (tr : S → RawKey → Option K × S) (o : Options) (l : Loop S K σ) : Option (Loop S K σ) :=
  match l.pending with
  | none => none
  | some q =>
    match step tr o l.source (.unblock q) with
    | some s => some { l with source := s, pending := none, left := q }
    | none => some { l with pending := none, left := true, panicked := true }

/-- An action, if it's possible. The source and its receivers are dropped after the loop.
See src/events/event_source.rs 155-267 and examples/inputs/main.rs 54-69. -/
def loopStep (tr : S → RawKey → Option K × S) (o : Options) (handle : σ → TimedEv K → σ × Bool) (l : Loop S K σ) : LoopAct → Option (Loop S K σ)
  | .read ev => l.thread tr o (.read ev)
  | .work now => l.thread tr o (.work now)
  | .send => l.thread tr o .send
  | .wake => l.thread tr o .wake
  | .receive => l.receive handle
  | .hangup =>
    if l.left = false ∧ l.pending = none ∧ l.source.stopped = true ∧ l.source.sent.length = l.received then some { l with left := true } else none
  | .answer => l.answer tr o
  | .close =>
    if l.left = true ∧ l.closed = false then
      ((step tr o l.source .dropSource).bind fun s => step tr o s .dropReceiver).map fun s => { l with source := s, closed := true }
    else none

/-- The application after a list of actions: `c` is the state of the combiner, `init` the one of the application.
A list of steps from the start of examples/inputs/main.rs 53-54. -/
inductive LoopExec (tr : S → RawKey → Option K × S) (o : Options) (handle : σ → TimedEv K → σ × Bool) (c : S) (init : σ) :
    List LoopAct → Loop S K σ → Prop
  | init : LoopExec tr o handle c init [] { source := { comb := c }, state := init }
  | step {acts : List LoopAct} {l l' : Loop S K σ} (a : LoopAct) :
      LoopExec tr o handle c init acts l → loopStep tr o handle l a = some l' → LoopExec tr o handle c init (acts ++ [a]) l'

/-- An application which has an input field, quits on a key and gives the other keys to the field, examples/inputs/main.rs 57-59 and
view.rs 135-142 and 171-173 (without the other views and keys). `into` is crokey's conversion of a key event; none is a panic. -/
def fieldHandler (cw : Char → Nat) (into : RawKey → KeyComb) (quitKey : KeyComb) (f : Run InputField) (e : TimedEv KeyComb) : Run InputField × Bool :=
  if e.isKey into quitKey then (f, true)
  else
    match e.event with
    | .key k => (f.bind fun f => (f.applyKeyCombination cw (into k)).map Prod.fst, false)
    | _ => (f, false)

end Verif.Events
