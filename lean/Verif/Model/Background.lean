import Verif.Model.EventSource
/-! Model of an application which runs computations in background threads, and interrupts them with the counter of its event source: what the
documentation of `EventSource` says of this counter, `src/events/event_source.rs` 83-86 and 284-289. -/
namespace Verif.Events

/-- A computation made of `size` units of work, in a thread:
`let noted = count.load(); for _ in 0..size { if count.load() != noted { return; } unit(); }`, for the use given by the documentation,
src/events/event_source.rs 83-86 and 284-289. `checked` is after the test, before the unit; `ended` is true after the last unit, false when the
computation is interrupted. -/
structure Task where
  noted : Nat
  size : Nat
  done : Nat := 0
  checked : Bool := false
  ended : Option Bool := none
  deriving DecidableEq, Repr

/-- The end of the loop of the computation, or the test of the counter (its value is the one of `shared_event_count`,
src/events/event_source.rs 284-289). -/
def Task.check (t : Task) (count : Nat) : Option Task :=
  if t.ended.isSome ∨ t.checked = true then none
  else if t.done = t.size then some { t with ended := some true }
  else if count ≠ t.noted then some { t with ended := some false }
  else some { t with checked := true }

/-- A unit of work of the computation.
This is the application part of the example of `Task` (src/events/event_source.rs 83-86 only says that such computations are possible). -/
def Task.work (t : Task) : Option Task :=
  if t.ended.isSome ∨ t.checked = false then none else some { t with done := t.done + 1, checked := false }

/-- An application with its event source and computations: `received` is the number of events taken from the channel
(src/events/event_source.rs 291-294). -/
structure Back (S K : Type) where
  source : Source S K
  received : Nat := 0
  tasks : List Task := []

/-- The actions of the source's thread and of its user, the reception of an event, the start of a computation, and the actions of
the computations. See src/events/event_source.rs 83-86 and 284-294. -/
inductive BackAct
  | source (a : Act) | receive | start (size : Nat) | check (task : Nat) | work (task : Nat)
  deriving DecidableEq, Repr

variable {S K : Type}

/-- An action, if it's possible. The reception is on src/events/event_source.rs 291-294, and the counter is the one of 284-289. -/
def Back.step (tr : S → RawKey → Option K × S) (o : Options) (b : Back S K) : BackAct → Option (Back S K)
  | .source a => (Events.step tr o b.source a).map fun s => { b with source := s }
  | .receive => if b.received < b.source.sent.length then some { b with received := b.received + 1 } else none
  | .start size => some { b with tasks := b.tasks ++ [{ noted := b.source.count, size }] }
  | .check i => b.tasks[i]?.bind fun t => (t.check b.source.count).map fun t => { b with tasks := b.tasks.set i t }
  | .work i => b.tasks[i]?.bind fun t => t.work.map fun t => { b with tasks := b.tasks.set i t }

/-- The state after actions, if all of them are possible. A list of steps of src/events/event_source.rs 155-267 and of the application. -/
def Back.run (tr : S → RawKey → Option K × S) (o : Options) : Back S K → List BackAct → Option (Back S K)
  | b, [] => some b
  | b, a :: acts => (b.step tr o a).bind fun b => Back.run tr o b acts

/-- The application at its start: `c` is the state of the combiner. See src/events/event_source.rs 141-157. -/
def Back.init (c : S) : Back S K := { source := { comb := c } }

end Verif.Events
