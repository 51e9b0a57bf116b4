import Verif.Model.InputField
/-! Model of `src/events/event_source.rs`, `src/events/escape_sequence.rs` and `src/events/timed_event.rs`.

The thread of the event source and its user are the interleaved actions of a transition system. -/
namespace Verif.Events

/-- `crossterm::event::KeyEvent`: `otherMods` are the modifiers which aren't named, `kind` tells the press, repeat or release. External crate. -/
structure RawKey where
  code : KeyCode
  shift : Bool := false
  ctrl : Bool := false
  alt : Bool := false
  otherMods : Nat := 0
  kind : Nat := 0
  deriving DecidableEq, Repr

/-- `crossterm::event::MouseButton`. External crate. -/
inductive Button
  | left | right | middle
  deriving DecidableEq, Repr

/-- `crossterm::event::MouseEventKind`; the scrolls are numbered. External crate. -/
inductive RawMouseKind
  | down (b : Button) | up (b : Button) | drag (b : Button) | moved | scroll (n : Nat)
  deriving DecidableEq, Repr

/-- `crossterm::event::MouseEvent`; 0 is the absence of modifier. External crate. -/
structure RawMouse where
  kind : RawMouseKind
  x : Nat
  y : Nat
  mods : Nat := 0
  deriving DecidableEq, Repr

/-- `crossterm::event::Event`; resizes, pastes and changes of focus are numbered. External crate. -/
inductive RawEvent
  | key (k : RawKey) | mouse (m : RawMouse) | other (n : Nat)
  deriving DecidableEq, Repr

/-- `EventSourceOptions`, src/events/event_source.rs 54-76; the options of the combiner are in its state. -/
structure Options where
  discardRawKeys : Bool := true
  discardMouseMove : Bool := true
  discardMouseDrag : Bool := false

/-- `TimedEvent`, src/events/timed_event.rs 23-41; the time is in nanoseconds. -/
structure TimedEv (K : Type) where
  time : Nat
  event : RawEvent
  double : Bool := false
  comb : Option K := none
  deriving DecidableEq, Repr

/-- `TimedEvent::as_click`, src/events/timed_event.rs 60-70. -/
def TimedEv.asClick {K : Type} (e : TimedEv K) : Option (Nat × Nat) :=
  match e.event with
  | .mouse ⟨.up .left, x, y, 0⟩ => if e.double then none else some (x, y)
  | _ => none

/-- `TimedEvent::is_key`, src/events/timed_event.rs 72-84; `into` is the conversion of a key event into a combination. -/
def TimedEv.isKey {K : Type} [DecidableEq K] (into : RawKey → K) (e : TimedEv K) (key : K) : Bool :=
  if e.comb = some key then true
  else
    match e.event with
    | .key k => into k = key
    | _ => false

/-- `Display for EscapeSequence`, src/events/escape_sequence.rs 24-38. -/
def seqText : List RawKey → Text
  | [] => []
  | k :: ks =>
    match k with
    | ⟨.char c, false, false, false, 0, _⟩ => c :: seqText ks
    | _ => seqText ks

/-- `is_seq_start`, src/events/event_source.rs 110-112. -/
def isSeqStart (k : RawKey) : Bool := k.code = .char '_' ∧ k.alt ∧ ¬ k.shift ∧ ¬ k.ctrl ∧ k.otherMods = 0

/-- `is_seq_end`, src/events/event_source.rs 113-115. -/
def isSeqEnd (k : RawKey) : Bool := k.code = .char '\\' ∧ k.alt ∧ ¬ k.shift ∧ ¬ k.ctrl ∧ k.otherMods = 0

/-- What the thread still has to do with the last read event, src/events/event_source.rs 200-265: the keys of a broken sequence, then the event. -/
inductive Todo
  | replay (k : RawKey) | event (e : RawEvent)
  deriving DecidableEq, Repr

/-- `ESCAPE_SEQUENCE_CHANNEL_SIZE`, src/events/event_source.rs 46. -/
def seqChannelSize : Nat := 10

/-- `DOUBLE_CLICK_MAX_DURATION`, src/events/event_source.rs 45. -/
def doubleClickMax : Nat := 700000000

/-- The variables of the thread (src/events/event_source.rs 156-157), its place in the loop, the channels (150-152) and the user's ends.
`comb` is the state of the combiner; `outbox` is the counted event which isn't yet sent; `sent`, `taken` and `offered` are the events sent,
the escape sequences taken by the user, and those given to `try_send` with the result. -/
structure Source (S K : Type) where
  comb : S
  lastUp : Option (Nat × Nat × Nat) := none
  seq : Option (List RawKey) := none
  todo : List Todo := []
  outbox : Option (TimedEv K) := none
  waiting : Bool := false
  stopped : Bool := false
  count : Nat := 0
  sent : List (TimedEv K) := []
  queue : List (List RawKey) := []
  taken : List (List RawKey) := []
  offered : List (List RawKey × Bool) := []
  quits : List Bool := []
  sourceAlive : Bool := true
  receiverAlive : Bool := true

namespace Source
variable {S K : Type}

/-- `tx_seqs.try_send`, src/events/event_source.rs 184-187: it also fails when all receivers are dropped, which nobody can see. -/
def offer (s : Source S K) (keys : List RawKey) : Source S K :=
  if s.queue.length < seqChannelSize then { s with queue := s.queue ++ [keys], offered := s.offered ++ [(keys, true)] }
  else { s with offered := s.offered ++ [(keys, false)] }

/-- The part of the loop on escape sequences, src/events/event_source.rs 177-218, when an event has been read. -/
def read (s : Source S K) (ev : RawEvent) : Source S K :=
  match s.seq with
  | some keys =>
    match ev with
    | .key k =>
      if isSeqEnd k then { s with seq := none }.offer (keys ++ [k])
      else if !(k.alt || k.ctrl) then { s with seq := some (keys ++ [k]) }
      else { s with seq := none, todo := keys.map .replay ++ [.event ev] }
    | _ => { s with seq := none, todo := keys.map .replay ++ [.event ev] }
  | none =>
    match ev with
    | .key k => if isSeqStart k then { s with seq := some [k] } else { s with todo := [.event ev] }
    | _ => { s with todo := [.event ev] }

/-- The discarded mouse events, src/events/event_source.rs 219-228. -/
def discarded (o : Options) (m : RawMouse) : Bool :=
  match m.kind with
  | .moved => o.discardMouseMove
  | .drag _ => o.discardMouseDrag
  | _ => false

/-- The start of `send_and_wait`, src/events/event_source.rs 159-160. -/
def post (s : Source S K) (e : TimedEv K) : Source S K := { s with outbox := some e, count := s.count + 1 }

/-- The treatment of a key, src/events/event_source.rs 202-206 and 229-235. -/
def workKey (tr : S → RawKey → Option K × S) (o : Options) (now : Nat) (s : Source S K) (k : RawKey) : Source S K :=
  let r := tr s.comb k
  if o.discardRawKeys ∧ r.1.isNone then { s with comb := r.2 }
  else { s with comb := r.2 }.post { time := now, event := .key k, comb := r.1 }

/-- The treatment of a mouse event, src/events/event_source.rs 219-261: the subtraction of times is saturating. -/
def workMouse (o : Options) (now : Nat) (s : Source S K) (m : RawMouse) : Source S K :=
  if discarded o m then s
  else if m.kind = .down .left ∨ m.kind = .up .left then
    let double : Bool :=
      match s.lastUp with
      | some (time, x, y) => m.x = x ∧ m.y = y ∧ now - time < doubleClickMax
      | none => false
    { s with lastUp := if m.kind = RawMouseKind.up .left then some (now, m.x, m.y) else s.lastUp }.post { time := now, event := .mouse m, double }
  else s.post { time := now, event := .mouse m }

/-- The next part of the loop, src/events/event_source.rs 200-265. -/
def work (tr : S → RawKey → Option K × S) (o : Options) (now : Nat) (s : Source S K) : Todo → Source S K
  | .replay k => s.workKey tr o now k
  | .event (.key k) => s.workKey tr o now k
  | .event (.mouse m) => s.workMouse o now m
  | .event (.other n) => s.post { time := now, event := .other n }

end Source

/-- The actions of the thread: `read` an event (src/events/event_source.rs 171-176), `work` on it at the given time, `send` (161-162) and
`wake` (164-167); and those of the user: `unblock` (280-282), `take` a sequence, drop the source or the last receiver of events. -/
inductive Act
  | read (ev : RawEvent) | work (now : Nat) | send | wake
  | unblock (quit : Bool) | take | dropSource | dropReceiver
  deriving DecidableEq, Repr

/-- An action, if it's possible. `unblock` panics when the thread has ended: it's possible only before. The source holds a receiver of events:
the last receiver is dropped after the source. See src/events/event_source.rs 155-309. -/
def step {S K : Type} (tr : S → RawKey → Option K × S) (o : Options) (s : Source S K) : Act → Option (Source S K)
  | .read ev => if !s.stopped ∧ !s.waiting ∧ s.outbox.isNone ∧ s.todo = [] then some (s.read ev) else none
  | .work now =>
    match s.todo with
    | [] => none
    | t :: ts => if !s.stopped ∧ !s.waiting ∧ s.outbox.isNone then some ({ s with todo := ts }.work tr o now t) else none
  | .send =>
    match s.outbox with
    | none => none
    | some e =>
      if s.receiverAlive then some { s with outbox := none, sent := s.sent ++ [e], waiting := true }
      else some { s with outbox := none, stopped := true }
  | .wake =>
    if s.waiting ∧ !s.stopped then
      match s.quits with
      | false :: qs => some { s with waiting := false, quits := qs }
      | true :: qs => some { s with stopped := true, quits := qs }
      | [] => if s.sourceAlive then none else some { s with stopped := true }
    else none
  | .unblock quit => if s.sourceAlive ∧ !s.stopped then some { s with quits := s.quits ++ [quit] } else none
  | .take =>
    match s.queue with
    | [] => none
    | q :: qs => some { s with queue := qs, taken := s.taken ++ [q] }
  | .dropSource => if s.sourceAlive then some { s with sourceAlive := false } else none
  | .dropReceiver => if !s.sourceAlive ∧ s.receiverAlive then some { s with receiverAlive := false } else none

/-- The states after a list of actions, `EventSource::with_options`, src/events/event_source.rs 141-275: `c` is the state of the combiner. -/
inductive Exec {S K : Type} (tr : S → RawKey → Option K × S) (o : Options) (c : S) : List Act → Source S K → Prop
  | init : Exec tr o c [] { comb := c }
  | step {acts : List Act} {s s' : Source S K} (a : Act) : Exec tr o c acts s → step tr o s a = some s' → Exec tr o c (acts ++ [a]) s'

end Verif.Events
