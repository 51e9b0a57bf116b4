import Verif.Model.EventSource
/-! Model of the keyboard protocol of the terminal around an event source, `src/events/event_source.rs`.

crokey isn't part of the repository. What its documentation says is taken as the meaning of its functions: `Combiner::enable_combining` changes the
protocol of the keyboard when the terminal allows it, and the drop of the combiner restores it. The combiner is moved in the closure of the thread:
it's dropped when this closure returns. -/
namespace Verif.Events

/-- The event source, whether the terminal is in the changed protocol, and whether the process has ended.
See src/events/event_source.rs 90-96 and 142-148. -/
structure Keyed (S K : Type) where
  source : Source S K
  changed : Bool
  exited : Bool := false

/-- The actions of the thread and of the user, and the end of the process, which ends the thread without running its destructors.
See src/events/event_source.rs 141-309. -/
inductive KeyedAct
  | act (a : Act) | exit
  deriving DecidableEq, Repr

/-- An action, if it's possible: the return of the closure of the thread (src/events/event_source.rs 155-267, by lines 208 and 264) drops the combiner
it captured. The drop of the source (305-309) does nothing to the keyboard. -/
def Keyed.step {S K : Type} (tr : S → RawKey → Option K × S) (o : Options) (k : Keyed S K) : KeyedAct → Option (Keyed S K)
  | .act a =>
    if k.exited then none
    else
      match Events.step tr o k.source a with
      | none => none
      | some s => some { k with source := s, changed := if s.stopped && !k.source.stopped then false else k.changed }
  | .exit => if k.exited then none else some { k with exited := true }

/-- The states after a list of actions, `EventSource::with_options`, src/events/event_source.rs 141-149 and 155: `combining` is the value of
`is_combining_keys`, so whether the protocol was changed. -/
inductive KeyedExec {S K : Type} (tr : S → RawKey → Option K × S) (o : Options) (c : S) (combining : Bool) : List KeyedAct → Keyed S K → Prop
  | init : KeyedExec tr o c combining [] { source := { comb := c }, changed := combining }
  | step {acts : List KeyedAct} {k k' : Keyed S K} (a : KeyedAct) : KeyedExec tr o c combining acts k → k.step tr o a = some k' →
      KeyedExec tr o c combining (acts ++ [a]) k'

end Verif.Events
